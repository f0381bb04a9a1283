import Verif.StretchCalc
import Mathlib.Algebra.Order.Field.Basic
import Mathlib.Algebra.BigOperators.Group.List.Basic
import Mathlib.Tactic.NormNum
import Mathlib.Tactic.FieldSimp
import Mathlib.Algebra.Order.Archimedean.Basic
/-!
# The real-time stretch calculation: properties C15, C16, C17, C51
-/
namespace Verif.StretchCalc
open Verif.Round

/-- The results of successive calls of `calculateSingle`. -/
def results : Calc → List Single → List Int
  | _, [] => []
  | s, a :: as => (calculateSingle s a).2 :: results (calculateSingle s a).1 as

/-- The state after successive calls. -/
def after : Calc → List Single → Calc
  | s, [] => s
  | s, a :: as => after (calculateSingle s a).1 as

/-- A calculator just constructed or reset. -/
structure Fresh (s : Calc) : Prop where
  justReset : s.justReset = true
  amnesty : s.amnesty = 0
  inFrame : s.inFrame = 0
  checkpoint : s.checkpoint = (0, 0)
  outFrame : s.outFrame = 0

/-! ## C15 -/

theorem clamped_bounds {inc : Nat} {ratio : Rat} (hr : 0 ≤ ratio) (rec : Rat) :
    0 ≤ clampedIncrement inc ratio rec ∧ lrint (inc * ratio * (3 / 10)) ≤ clampedIncrement inc ratio rec ∧
      clampedIncrement inc ratio rec ≤ lrint (inc * ratio * 2) := by
  have hx : 0 ≤ (inc : Rat) * ratio := mul_nonneg (by positivity) hr
  have h0 : 0 ≤ lrint (inc * ratio * (3 / 10)) := lrint_nonneg (by positivity)
  have hm : lrint (inc * ratio * (3 / 10)) ≤ lrint (inc * ratio * 2) := lrint_mono (by linarith)
  unfold clampedIncrement
  simp only
  split_ifs <;> omega

/-- Whether a call answers a transient. -/
def transient (s : Calc) (a : Single) : Bool :=
  transientAt s a.df (divergenceFor (checkpointFor s (a.timeRatio / a.pitchRatio)) s.inFrame s.outFrame a.timeRatio
    a.pitchRatio a.analysisWindowSize a.synthesisWindowSize a.alignFrameStarts) && s.amnesty == 0

theorem single_cases (s : Calc) (a : Single) :
    (transient s a = true ∧ s.amnesty = 0 ∧ (calculateSingle s a).2 = -(incrementFor s a.inIncrement : Int) ∧
      (calculateSingle s a).1.amnesty = spacing s.sampleRate (incrementFor s a.inIncrement)) ∨
    (transient s a = false ∧ (∃ rec, (calculateSingle s a).2 =
        clampedIncrement (incrementFor s a.inIncrement) (a.timeRatio / a.pitchRatio) rec) ∧
      (calculateSingle s a).1.amnesty = s.amnesty - 1) := by
  cases h : transient s a with
  | true =>
    left
    have h' := h
    unfold transient at h
    refine ⟨rfl, ?_, ?_, ?_⟩
    · simp only [Bool.and_eq_true, beq_iff_eq] at h; exact h.2
    · simp only [calculateSingle, h, if_true]
    · simp only [calculateSingle, h, if_true]
  | false =>
    right
    unfold transient at h
    refine ⟨rfl, ⟨recoveryFor s.sampleRate (incrementFor s a.inIncrement) (divergenceFor
      (checkpointFor s (a.timeRatio / a.pitchRatio)) s.inFrame s.outFrame a.timeRatio
      a.pitchRatio a.analysisWindowSize a.synthesisWindowSize a.alignFrameStarts), ?_⟩, ?_⟩
    · simp only [calculateSingle, h, if_false, Bool.false_eq_true]
    · simp only [calculateSingle, h, if_false, Bool.false_eq_true]

/-- **C15.**  Whatever the state of the calculator, the detection value and the ratios: the result is either
minus the input increment, and then hard peaks are in use and the detection value is above the
threshold; or it is not negative and between 0.3 and 2 times the nominal increment, rounded. -/
theorem C15_clamp (s : Calc) (a : Single) (ht : 0 ≤ a.timeRatio) (hp : 0 < a.pitchRatio) :
    let inc := if a.inIncrement = 0 then s.increment else a.inIncrement
    let nominal : Rat := inc * (a.timeRatio / a.pitchRatio)
    let r := (calculateSingle s a).2
    (r = -(inc : Int) ∧ s.useHardPeaks = true ∧ 35 / 100 < a.df) ∨
      (0 ≤ r ∧ lrint (nominal * (3 / 10)) ≤ r ∧ r ≤ lrint (nominal * 2)) := by
  intro inc nominal r
  rcases single_cases s a with ⟨h1, _, h3, _⟩ | ⟨_, ⟨rec, h2⟩, _⟩
  · left
    unfold transient transientAt at h1
    simp only [Bool.and_eq_true, decide_eq_true_eq, gt_iff_lt] at h1
    exact ⟨h3, h1.1.1, h1.1.2.2.1⟩
  · right
    have hr : 0 ≤ a.timeRatio / a.pitchRatio := div_nonneg ht (le_of_lt hp)
    have := clamped_bounds (inc := incrementFor s a.inIncrement) hr rec
    rw [← h2] at this
    exact this

namespace Ex
def unit : Calc := { sampleRate := 44100, increment := 128, useHardPeaks := true }
def plain (tr pr df : Rat) : Single := ⟨tr, pr, df, 128, 2048, 2048, false⟩
end Ex

/-- A transient and its neighbours: 256 is nominal, -128 answers the transient, and the
calculator makes up for it afterwards. -/
example : results Ex.unit [Ex.plain 2 1 0, Ex.plain 2 1 1, Ex.plain 2 1 1] = [286, -128, 291] := by
  decide +kernel

/-! ## C17 -/

theorem results_amnesty : ∀ (as : List Single) (s : Calc) (k : Nat) (r : Int),
    (∀ a ∈ as, 0 ≤ a.timeRatio ∧ 0 < a.pitchRatio) → (results s as)[k]? = some r → r < 0 → s.amnesty ≤ k := by
  intro as
  induction as with
  | nil => intro s k r _ h _; simp [results] at h
  | cons a as ih =>
    intro s k r hv h hr
    have ha := hv a (by simp)
    rcases single_cases s a with ⟨_, h2, _, _⟩ | ⟨_, ⟨rec, h2⟩, h3⟩
    · omega
    · cases k with
      | zero =>
        exfalso
        simp only [results, List.getElem?_cons_zero, Option.some.injEq] at h
        have := clamped_bounds (inc := incrementFor s a.inIncrement) (div_nonneg ha.1 (le_of_lt ha.2)) rec
        rw [← h2, h] at this
        omega
      | succ k =>
        simp only [results, List.getElem?_cons_succ] at h
        have := ih _ k r (fun b hb => hv b (by simp [hb])) h hr
        rw [h3] at this
        omega

theorem spacing_le {rate inc : Nat} (hi : 0 < inc) : rate ≤ 20 * (spacing rate inc * inc) := by
  unfold spacing
  have h20 : (0 : Rat) < 20 * inc := by positivity
  have h1 := Rat.le_ceil (x := (rate : Rat) / (20 * inc))
  have h2 : (((rate : Rat) / (20 * inc)).ceil : Rat) ≤ ((((rate : Rat) / (20 * inc)).ceil.toNat : Nat) : Rat) := by
    exact_mod_cast Int.self_le_toNat _
  have h3 : (rate : Rat) ≤ (((rate : Rat) / (20 * inc)).ceil.toNat : Nat) * (20 * inc) := by
    rw [div_le_iff₀ h20] at h1
    refine le_trans h1 ?_
    exact mul_le_mul_of_nonneg_right h2 (le_of_lt h20)
  have h4 : rate ≤ ((rate : Rat) / (20 * inc)).ceil.toNat * (20 * inc) := by exact_mod_cast h3
  calc rate ≤ _ := h4
    _ = _ := by ring

/-- **C17.**  In every history of calls from any state, in which all blocks have the input increment
`inc`: if calls `i < j` both answer a transient (a negative result), then at least 1/20 second of
input lies between the end of block `i` and the start of block `j`. -/
theorem C17_spacing {s : Calc} {as : List Single} {inc : Nat} (hi : 0 < inc)
    (hv : ∀ a ∈ as, 0 ≤ a.timeRatio ∧ 0 < a.pitchRatio ∧ a.inIncrement = inc) {i j : Nat} (hij : i < j) {r r' : Int}
    (h1 : (results s as)[i]? = some r) (hr : r < 0) (h2 : (results s as)[j]? = some r') (hr' : r' < 0) :
    s.sampleRate ≤ 20 * ((j - i - 1) * inc) := by
  have main : ∀ (as : List Single) (s : Calc) (i j : Nat),
      (∀ a ∈ as, 0 ≤ a.timeRatio ∧ 0 < a.pitchRatio ∧ a.inIncrement = inc) → i < j →
      (results s as)[i]? = some r → (results s as)[j]? = some r' → spacing s.sampleRate inc ≤ j - i - 1 := by
    intro as
    induction as with
    | nil => intro s i j _ _ h _; simp [results] at h
    | cons a as ih =>
      intro s i j hv hij h1 h2
      have ha := hv a (by simp)
      obtain ⟨j, rfl⟩ : ∃ k, j = k + 1 := ⟨j - 1, by omega⟩
      simp only [results, List.getElem?_cons_succ] at h2
      cases i with
      | zero =>
        simp only [results, List.getElem?_cons_zero, Option.some.injEq] at h1
        rcases single_cases s a with ⟨_, _, _, h4⟩ | ⟨_, ⟨rec, h4⟩, _⟩
        · have := results_amnesty as _ j r' (fun b hb => ⟨(hv b (by simp [hb])).1, (hv b (by simp [hb])).2.1⟩) h2 hr'
          rw [h4] at this
          have e : incrementFor s a.inIncrement = inc := by
            unfold incrementFor
            rw [ha.2.2, if_neg (by omega)]
          rw [e] at this
          omega
        · exfalso
          have := clamped_bounds (inc := incrementFor s a.inIncrement) (div_nonneg ha.1 (le_of_lt ha.2.1)) rec
          rw [← h4, h1] at this
          omega
      | succ i =>
        simp only [results, List.getElem?_cons_succ] at h1
        have := ih (calculateSingle s a).1 i j (fun b hb => hv b (by simp [hb])) (by omega) h1 h2
        have e : (calculateSingle s a).1.sampleRate = s.sampleRate := rfl
        rw [e] at this
        omega
  have h := main as s i j hv hij h1 h2
  have := spacing_le (rate := s.sampleRate) hi
  have h' : spacing s.sampleRate inc * inc ≤ (j - i - 1) * inc := Nat.mul_le_mul_right inc h
  omega

/-- Two transients as near as can be (at least 18 blocks of 128 frames at 44100 Hz must lie between). -/
example : results Ex.unit ((List.range 40).map fun i => Ex.plain 1 1 (if i % 2 = 0 then 0 else 1)) =
    128 :: -128 :: (List.replicate 19 128 ++ [-128] ++ List.replicate 18 128) := by
  decide +kernel

/-! ## C16 -/

/-- How far the output is ahead of where it should be. -/
def ahead (s : Calc) (tr : Rat) : Rat := s.outFrame - (s.checkpoint.2 + (s.inFrame - s.checkpoint.1 : Int) * tr)

/-- The part of the divergence that is due to looking a quarter of a window ahead. -/
def offset (a : Single) : Rat :=
  if a.alignFrameStarts then 0
  else (a.synthesisWindowSize / 4 : Nat) * a.pitchRatio - (a.analysisWindowSize / 4 : Nat) * a.timeRatio

theorem divergence_bounds (s : Calc) (a : Single) :
    |(divergenceFor s.checkpoint s.inFrame s.outFrame a.timeRatio a.pitchRatio a.analysisWindowSize a.synthesisWindowSize
      a.alignFrameStarts : Rat) - (ahead s a.timeRatio + offset a)| ≤ 1 := by
  unfold divergenceFor ahead offset expectedOutFrame
  cases a.alignFrameStarts with
  | true =>
    simp only [if_true]
    obtain ⟨h1, h2⟩ := roundAway_bounds s.outFrame
    obtain ⟨h3, h4⟩ := roundAway_bounds (s.checkpoint.2 + (s.inFrame - s.checkpoint.1 : Int) * a.timeRatio)
    push_cast at *
    rw [abs_le]
    constructor <;> linarith
  | false =>
    simp only [Bool.false_eq_true, if_false]
    obtain ⟨h1, h2⟩ := roundAway_bounds (s.outFrame + (a.synthesisWindowSize / 4 : Nat) * a.pitchRatio)
    obtain ⟨h3, h4⟩ := roundAway_bounds (s.checkpoint.2 + (s.inFrame + (a.analysisWindowSize / 4 : Nat) - s.checkpoint.1 : Int) * a.timeRatio)
    have e : ((s.inFrame + (a.analysisWindowSize / 4 : Nat) - s.checkpoint.1 : Int) : Rat) * a.timeRatio =
        ((s.inFrame - s.checkpoint.1 : Int) : Rat) * a.timeRatio + (a.analysisWindowSize / 4 : Nat) * a.timeRatio := by
      generalize a.analysisWindowSize / 4 = q
      push_cast; ring
    rw [e] at h3 h4
    rw [Int.cast_sub, e]
    rw [abs_le]
    constructor <;> linarith

theorem clamp_le {inc : Nat} {ratio rec x : Rat} (hx : 0 ≤ x) (h1 : (lrint ((lrint ((inc : Rat) * ratio) : Rat) - rec) : Rat) ≤ x)
    (h2 : (lrint ((inc : Rat) * ratio * (3 / 10)) : Rat) ≤ x) : (clampedIncrement inc ratio rec : Rat) ≤ x := by
  unfold clampedIncrement
  simp only
  have key : ∀ z : Int, (z : Rat) ≤ x → ((if z < 0 then 0 else z : Int) : Rat) ≤ x := by
    intro z hz
    split_ifs
    · simpa using hx
    · exact hz
  apply key
  split_ifs with c1 c2
  · exact h2
  · exact le_trans (by exact_mod_cast le_of_lt c2) h1
  · exact h1

theorem le_clamp {inc : Nat} {ratio rec x : Rat} (h1 : x ≤ (lrint ((lrint ((inc : Rat) * ratio) : Rat) - rec) : Rat))
    (h2 : x ≤ (lrint ((inc : Rat) * ratio * 2) : Rat)) : x ≤ (clampedIncrement inc ratio rec : Rat) := by
  unfold clampedIncrement
  simp only
  have key : ∀ z : Int, x ≤ (z : Rat) → x ≤ ((if z < 0 then 0 else z : Int) : Rat) := by
    intro z hz
    split_ifs with c
    · exact le_trans hz (by exact_mod_cast le_of_lt c)
    · exact hz
  apply key
  split_ifs with c1 c2
  · exact le_trans h1 (by exact_mod_cast le_of_lt c1)
  · exact h2
  · exact h1

/-- Output well ahead is not let get further ahead, and output well behind not further behind. -/
theorem clamped_recovers {rate inc : Nat} {ratio : Rat} (hrate : 0 < rate) (hi : 0 < inc)
    (hx : 1 / 4 < (inc : Rat) * ratio) {d : Int} :
    (1000 < d → (rate : Rat) / 10 < d → (clampedIncrement inc ratio (recoveryFor rate inc d) : Rat) ≤ inc * ratio) ∧
    (d < -1000 → (d : Rat) < -((rate : Rat) / 10) → (inc : Rat) * ratio ≤ clampedIncrement inc ratio (recoveryFor rate inc d)) := by
  have hr : (0 : Rat) < rate := by exact_mod_cast hrate
  have hinc : (1 : Rat) ≤ inc := by exact_mod_cast hi
  have hgain : 0 < ((rate : Rat) / 10) / inc := by positivity
  have hle : ((rate : Rat) / 10) / inc ≤ (rate : Rat) / 10 := div_le_self (by positivity) hinc
  obtain ⟨x1, x2⟩ := lrint_bounds ((inc : Rat) * ratio)
  constructor
  · intro h1 h2
    have hrec : 1 ≤ recoveryFor rate inc d := by
      unfold recoveryFor
      rw [if_pos (Or.inl h1), le_div_iff₀ hgain]
      linarith
    obtain ⟨y1, _⟩ := lrint_bounds ((lrint ((inc : Rat) * ratio) : Rat) - recoveryFor rate inc d)
    have hincr : (lrint ((lrint ((inc : Rat) * ratio) : Rat) - recoveryFor rate inc d) : Rat) ≤ inc * ratio := by linarith
    have hmin : (lrint ((inc : Rat) * ratio * (3 / 10)) : Rat) ≤ inc * ratio := by
      rcases lt_or_ge ((inc : Rat) * ratio) (5 / 3) with hc | hc
      · have : lrint ((inc : Rat) * ratio * (3 / 10)) ≤ 0 := by
          obtain ⟨z1, _⟩ := lrint_bounds ((inc : Rat) * ratio * (3 / 10))
          have : (lrint ((inc : Rat) * ratio * (3 / 10)) : Rat) < 1 := by linarith
          have : lrint ((inc : Rat) * ratio * (3 / 10)) < 1 := by exact_mod_cast this
          omega
        have : (lrint ((inc : Rat) * ratio * (3 / 10)) : Rat) ≤ 0 := by exact_mod_cast this
        linarith
      · obtain ⟨z1, _⟩ := lrint_bounds ((inc : Rat) * ratio * (3 / 10))
        linarith
    exact clamp_le (by linarith) hincr hmin
  · intro h1 h2
    have hrec : recoveryFor rate inc d ≤ -1 := by
      unfold recoveryFor
      rw [if_pos (Or.inr h1), div_le_iff₀ hgain]
      linarith
    obtain ⟨_, y2⟩ := lrint_bounds ((lrint ((inc : Rat) * ratio) : Rat) - recoveryFor rate inc d)
    have hincr : (inc : Rat) * ratio ≤ lrint ((lrint ((inc : Rat) * ratio) : Rat) - recoveryFor rate inc d) := by linarith
    have hmax : (inc : Rat) * ratio ≤ lrint ((inc : Rat) * ratio * 2) := by
      obtain ⟨_, z2⟩ := lrint_bounds ((inc : Rat) * ratio * 2)
      rcases lt_or_ge ((inc : Rat) * ratio) (1 / 2) with hc | hc
      · have : 1 ≤ lrint ((inc : Rat) * ratio * 2) := by
          have : (0 : Rat) < lrint ((inc : Rat) * ratio * 2) := by linarith
          have : 0 < lrint ((inc : Rat) * ratio * 2) := by exact_mod_cast this
          omega
        have : (1 : Rat) ≤ lrint ((inc : Rat) * ratio * 2) := by exact_mod_cast this
        linarith
      · linarith
    exact le_clamp hincr hmax

/-- The bound of C16: `m` is the greatest input increment and `k` the greatest offset. -/
def driftBound (rate m : Nat) (tr pr k : Rat) : Rat :=
  max 1000 ((rate : Rat) / 10) + 1 + k + (m * tr + m * pr + pr)

/-- What C16 asks of each call: the ratios given, an increment from 1 to `m` that gives more than a
quarter of a frame of output, and a quarter window no further off than `k`. -/
structure Steady (tr pr : Rat) (m : Nat) (k : Rat) (a : Single) : Prop where
  timeRatio : a.timeRatio = tr
  pitchRatio : a.pitchRatio = pr
  pos : 0 < a.inIncrement
  le : a.inIncrement ≤ m
  quarter : 1 / 4 < (a.inIncrement : Rat) * (tr / pr)
  offset : |offset a| ≤ k

theorem single_ahead {s : Calc} {a : Single} {tr pr k : Rat} {m : Nat} (ha : Steady tr pr m k a) (htr : 0 < tr) (hpr : 0 < pr)
    (hrate : 0 < s.sampleRate) (hk : s.justReset = true ∨ s.prevRatio = tr / pr)
    (h : |ahead s tr| ≤ driftBound s.sampleRate m tr pr k) :
    |ahead (calculateSingle s a).1 tr| ≤ driftBound s.sampleRate m tr pr k := by
  have hcp : checkpointFor s (a.timeRatio / a.pitchRatio) = s.checkpoint := by
    unfold checkpointFor
    rw [ha.timeRatio, ha.pitchRatio]
    rcases hk with hk | hk
    · rw [if_neg (by simp [hk])]
    · rw [if_neg (by simp [hk])]
  have hinc : incrementFor s a.inIncrement = a.inIncrement := by
    unfold incrementFor; rw [if_neg (by have := ha.pos; omega)]
  have hd := divergence_bounds s a
  rw [ha.timeRatio] at hd
  have hoff := ha.offset
  generalize hD : divergenceFor s.checkpoint s.inFrame s.outFrame tr a.pitchRatio a.analysisWindowSize a.synthesisWindowSize
      a.alignFrameStarts = d at hd
  have hap : ∃ o : Int, (calculateSingle s a).1.outFrame = s.outFrame + o * pr ∧
      (o = a.inIncrement ∧ d ≤ 1000 ∧ -1000 ≤ d ∨ o = clampedIncrement a.inIncrement (tr / pr) (recoveryFor s.sampleRate a.inIncrement d)) := by
    have hD' : divergenceFor s.checkpoint s.inFrame s.outFrame a.timeRatio a.pitchRatio a.analysisWindowSize
        a.synthesisWindowSize a.alignFrameStarts = d := by rw [ha.timeRatio]; exact hD
    cases ht : transient s a with
    | true =>
      refine ⟨a.inIncrement, ?_, Or.inl ?_⟩
      · unfold transient at ht
        simp only [calculateSingle, ht, if_true, hinc]
        rw [ha.pitchRatio]
      · unfold transient transientAt at ht
        rw [hcp, hD'] at ht
        simp only [Bool.and_eq_true, decide_eq_true_eq] at ht
        have := ht.1.2.2.2
        refine ⟨rfl, by omega, by omega⟩
    | false =>
      refine ⟨_, ?_, Or.inr rfl⟩
      unfold transient at ht
      simp only [calculateSingle, ht, if_false, Bool.false_eq_true, hinc]
      rw [hcp, hD', ha.timeRatio, ha.pitchRatio]
  obtain ⟨o, ho, hcase⟩ := hap
  have e : ahead (calculateSingle s a).1 tr = ahead s tr + pr * (o - a.inIncrement * (tr / pr)) := by
    have e1 : (calculateSingle s a).1.checkpoint = s.checkpoint := hcp
    have e2 : (calculateSingle s a).1.inFrame = s.inFrame + a.inIncrement := rfl
    unfold ahead
    rw [e1, e2, ho]
    have : pr * (a.inIncrement * (tr / pr)) = a.inIncrement * tr := by field_simp
    rw [mul_sub, this]
    push_cast
    ring
  rw [e]
  have hr : 0 < tr / pr := div_pos htr hpr
  have hm : (a.inIncrement : Rat) ≤ m := by exact_mod_cast ha.le
  have hx0 : 0 < (a.inIncrement : Rat) := by exact_mod_cast ha.pos
  -- the size of a step
  have hxm : pr * (a.inIncrement * (tr / pr)) ≤ m * tr := by
    have : pr * (a.inIncrement * (tr / pr)) = a.inIncrement * tr := by field_simp
    rw [this]; exact mul_le_mul_of_nonneg_right hm (le_of_lt htr)
  have hxi : pr * (a.inIncrement : Rat) ≤ m * pr := by
    rw [mul_comm]; exact mul_le_mul_of_nonneg_right hm (le_of_lt hpr)
  have hmpr : 0 ≤ (m : Rat) * pr := by positivity
  have hmtr : 0 ≤ (m : Rat) * tr := by positivity
  have hup : pr * (o - a.inIncrement * (tr / pr)) ≤ m * tr + m * pr + pr ∧
      -(m * tr + m * pr + pr) ≤ pr * (o - a.inIncrement * (tr / pr)) := by
    rcases hcase with ⟨ho, _⟩ | ho
    · rw [ho, mul_sub]
      push_cast
      have : 0 ≤ pr * (a.inIncrement : Rat) := by positivity
      have : 0 ≤ pr * ((a.inIncrement : Rat) * (tr / pr)) := by positivity
      constructor <;> linarith
    · obtain ⟨b1, _, b3⟩ := clamped_bounds (inc := a.inIncrement) (le_of_lt hr) (recoveryFor s.sampleRate a.inIncrement d)
      rw [← ho] at b1 b3
      obtain ⟨z1, _⟩ := lrint_bounds ((a.inIncrement : Rat) * (tr / pr) * 2)
      have b1' : (0 : Rat) ≤ o := by exact_mod_cast b1
      have b3' : (o : Rat) ≤ lrint ((a.inIncrement : Rat) * (tr / pr) * 2) := by exact_mod_cast b3
      have u : (o : Rat) - a.inIncrement * (tr / pr) ≤ a.inIncrement * (tr / pr) + 1 := by linarith
      have l : -(a.inIncrement * (tr / pr)) ≤ (o : Rat) - a.inIncrement * (tr / pr) := by linarith
      have u' := mul_le_mul_of_nonneg_left u (le_of_lt hpr)
      have l' := mul_le_mul_of_nonneg_left l (le_of_lt hpr)
      rw [mul_add, mul_one] at u'
      rw [mul_neg] at l'
      constructor <;> linarith
  rw [abs_le] at hd hoff h ⊢
  obtain ⟨d1, d2⟩ := hd
  obtain ⟨o1, o2⟩ := hoff
  obtain ⟨h1, h2⟩ := h
  have hT1 : (1000 : Rat) ≤ max 1000 ((s.sampleRate : Rat) / 10) := le_max_left _ _
  have hT2 : (s.sampleRate : Rat) / 10 ≤ max 1000 ((s.sampleRate : Rat) / 10) := le_max_right _ _
  unfold driftBound at *
  rcases lt_or_ge (max 1000 ((s.sampleRate : Rat) / 10)) (d : Rat) with hgt | hle
  · have hd1000 : 1000 < d := by
      have : (1000 : Rat) < d := by linarith
      exact_mod_cast this
    have hdown : pr * (o - a.inIncrement * (tr / pr)) ≤ 0 := by
      rcases hcase with ⟨_, hc, _⟩ | ho
      · omega
      · have := (clamped_recovers hrate ha.pos ha.quarter (d := d)).1 hd1000 (by linarith)
        rw [← ho] at this
        exact mul_nonpos_of_nonneg_of_nonpos (le_of_lt hpr) (by linarith)
    constructor <;> linarith
  · rcases lt_or_ge (d : Rat) (-(max 1000 ((s.sampleRate : Rat) / 10))) with hlt | hge
    · have hd1000 : d < -1000 := by
        have : (d : Rat) < -1000 := by linarith
        exact_mod_cast this
      have hupw : 0 ≤ pr * (o - a.inIncrement * (tr / pr)) := by
        rcases hcase with ⟨_, _, hc⟩ | ho
        · omega
        · have := (clamped_recovers hrate ha.pos ha.quarter (d := d)).2 hd1000 (by linarith)
          rw [← ho] at this
          exact mul_nonneg (le_of_lt hpr) (by linarith)
      constructor <;> linarith
    · constructor <;> linarith

/-- The frames of output that results stand for. -/
def produced (rs : List Int) : Int := (rs.map abs).sum

/-- The frames of input that calls stand for: an increment of zero is documented to mean the one given
to the constructor. -/
def consumed (s : Calc) (as : List Single) : Nat := (as.map fun a => incrementFor s a.inIncrement).sum

/-- C16 in full: at a constant ratio there is a bound on the drift that holds for ever. -/
def C16_statement : Prop :=
  ∀ (s : Calc), Fresh s → 0 < s.sampleRate → 0 < s.increment → ∀ (tr pr : Rat) (aw sw : Nat) (al : Bool), 0 < tr → 0 < pr →
    ∀ m, ∃ b : Rat, ∀ as : List Single,
      (∀ a ∈ as, a.timeRatio = tr ∧ a.pitchRatio = pr ∧ a.inIncrement ≤ m ∧ a.analysisWindowSize = aw ∧
        a.synthesisWindowSize = sw ∧ a.alignFrameStarts = al) →
      |(produced (results s as) : Rat) * pr - consumed s as * tr| ≤ b

theorem after_frames (pr : Rat) (hpr : 0 < pr) : ∀ (as : List Single) (s : Calc),
    (∀ a ∈ as, a.pitchRatio = pr ∧ 0 ≤ a.timeRatio ∧ 0 < a.inIncrement) →
    (after s as).outFrame = s.outFrame + produced (results s as) * pr ∧
    (after s as).inFrame = s.inFrame + consumed s as := by
  intro as
  induction as with
  | nil => intro s _; simp [after, produced, results, consumed]
  | cons a as ih =>
    intro s hv
    obtain ⟨i1, i2⟩ := ih (calculateSingle s a).1 (fun b hb => hv b (by simp [hb]))
    have ha := hv a (by simp)
    have hcons : consumed (calculateSingle s a).1 as = consumed s as := rfl
    have habs : (calculateSingle s a).1.outFrame = s.outFrame + (|(calculateSingle s a).2| : Int) * pr := by
      rcases single_cases s a with ⟨h1, _, h3, _⟩ | ⟨h1, ⟨rec, h2⟩, _⟩
      · rw [h3, abs_neg, abs_of_nonneg (by positivity)]
        unfold transient at h1
        simp only [calculateSingle, h1, if_true]
        rw [ha.1]
      · have := (clamped_bounds (inc := incrementFor s a.inIncrement) (div_nonneg ha.2.1 (show 0 ≤ a.pitchRatio by rw [ha.1]; exact le_of_lt hpr)) rec).1
        rw [← h2] at this
        rw [abs_of_nonneg this]
        unfold transient at h1
        simp only [calculateSingle, h1, if_false, Bool.false_eq_true]
        rw [ha.1]
    have hin : (calculateSingle s a).1.inFrame = s.inFrame + incrementFor s a.inIncrement := by
      unfold incrementFor
      rw [if_neg (by have := ha.2.2; omega)]
      rfl
    constructor
    · simp only [after, i1, habs, results, produced, List.map_cons, List.sum_cons]
      push_cast
      ring
    · simp only [after, i2, hin, hcons]
      simp only [consumed, List.map_cons, List.sum_cons]
      push_cast
      ring

/-- **C16 (partial).**  From a fresh calculator, whatever the detection function does and however many
calls are made: while the ratios are constant and each call gives its (non-zero) increment and
asks for more than a quarter of a frame of output, the output produced (after any resampling)
differs from input times time ratio by no more than a bound that does not depend on the number of
calls.  Missing: increments of zero and smaller outputs, for which it is false
(`C16_violated`, `C16_violated_small`). -/
theorem C16_partial {s : Calc} (hs : Fresh s) (hrate : 0 < s.sampleRate) {tr pr k : Rat} {m : Nat} (htr : 0 < tr) (hpr : 0 < pr)
    {as : List Single} (hv : ∀ a ∈ as, Steady tr pr m k a) :
    |(produced (results s as) : Rat) * pr - consumed s as * tr| ≤ driftBound s.sampleRate m tr pr k ∨ as = [] := by
  cases as with
  | nil => exact Or.inr rfl
  | cons a as =>
    left
    have main : ∀ (as : List Single) (s : Calc), (∀ a ∈ as, Steady tr pr m k a) → 0 < s.sampleRate →
        (s.justReset = true ∨ s.prevRatio = tr / pr) → |ahead s tr| ≤ driftBound s.sampleRate m tr pr k →
        |ahead (after s as) tr| ≤ driftBound s.sampleRate m tr pr k ∧ (after s as).checkpoint = s.checkpoint := by
      intro as
      induction as with
      | nil => intro s _ _ _ h; exact ⟨h, rfl⟩
      | cons a as ih =>
        intro s hv hrate hk h
        have ha := hv a (by simp)
        have := ih (calculateSingle s a).1 (fun b hb => hv b (by simp [hb])) hrate
          (Or.inr (by show a.timeRatio / a.pitchRatio = _; rw [ha.timeRatio, ha.pitchRatio])) (single_ahead ha htr hpr hrate hk h)
        refine ⟨this.1, ?_⟩
        rw [show after s (a :: as) = after (calculateSingle s a).1 as from rfl, this.2]
        show checkpointFor s (a.timeRatio / a.pitchRatio) = s.checkpoint
        unfold checkpointFor
        rw [ha.timeRatio, ha.pitchRatio]
        rcases hk with hk | hk
        · rw [if_neg (by simp [hk])]
        · rw [if_neg (by simp [hk])]
    have hk0 : 0 ≤ k := le_trans (abs_nonneg _) (hv a (by simp)).offset
    have h0 : |ahead s tr| ≤ driftBound s.sampleRate m tr pr k := by
      unfold ahead driftBound
      rw [hs.outFrame, hs.checkpoint, hs.inFrame]
      have := le_max_left (1000 : Rat) ((s.sampleRate : Rat) / 10)
      have h1 : 0 ≤ (m : Rat) * tr := by positivity
      have h2 : 0 ≤ (m : Rat) * pr := by positivity
      norm_num
      linarith
    obtain ⟨h1, h2⟩ := main (a :: as) s hv hrate (Or.inl hs.justReset) h0
    obtain ⟨f1, f2⟩ := after_frames pr hpr (a :: as) s (fun b hb =>
      ⟨(hv b hb).pitchRatio, by rw [(hv b hb).timeRatio]; exact le_of_lt htr, (hv b hb).pos⟩)
    unfold ahead at h1
    rw [h2, f1, f2, hs.checkpoint, hs.inFrame, hs.outFrame] at h1
    simpa using h1

/-- A run to which it applies: a transient at double speed, at 44100 Hz. -/
example : |(produced (results Ex.unit [Ex.plain 2 1 0, Ex.plain 2 1 1, Ex.plain 2 1 1]) : Rat) * 1 - 384 * 2| ≤
    driftBound 44100 128 2 1 512 := by decide +kernel

example : Steady 2 1 128 512 (Ex.plain 2 1 1) := by
  constructor <;> decide +kernel

/-! The increment may be left at zero "to use the default"; the input counter then stands still. -/

namespace Ex
/-- A calculator at 8000 Hz with an increment of 256, just constructed (StretchCalculator.cpp:35-58). -/
def small : Calc := { unit with sampleRate := 8000, increment := 256 }
/-- A call that leaves the increment to the calculator. -/
def default : Single := { plain 1 1 0 with inIncrement := 0, alignFrameStarts := true }
end Ex

theorem stuck {s : Calc} {n : Int} (h1 : s.sampleRate = 8000) (h2 : s.increment = 256) (h3 : s.inFrame = 0) (h4 : s.checkpoint = (0, 0))
    (h5 : s.outFrame = n) (h6 : s.prevRatio = 1) (hn : 348 ≤ n) :
    (calculateSingle s Ex.default).2 = 77 ∧ (calculateSingle s Ex.default).1.checkpoint = (0, 0) ∧
      (calculateSingle s Ex.default).1.outFrame = (n + 77 : Int) := by
  have hc : checkpointFor s (1 / 1) = (0, 0) := by
    unfold checkpointFor
    rw [if_neg (by simp [h6]), h4]
  have hd : divergenceFor (0, 0) s.inFrame s.outFrame 1 1 2048 2048 true = n := by
    unfold divergenceFor expectedOutFrame
    rw [if_pos rfl, h3, h5, roundAway_int]
    have : roundAway (((0 : Int) : Rat) + (0 - 0 : Int) * 1) = 0 := by decide +kernel
    simp only at this ⊢
    rw [this]
    omega
  have ht : transientAt s 0 n = false := by
    unfold transientAt
    have : ¬ (35 / 100 : Rat) < 0 := by norm_num
    simp [this]
  have hcl : clampedIncrement 256 (1 / 1) (recoveryFor 8000 256 n) = 77 := by
    have hn' : (348 : Rat) ≤ n := by exact_mod_cast hn
    have hrec : 222 ≤ recoveryFor 8000 256 n := by
      unfold recoveryFor
      split_ifs with c1 c2
      · have : (1000 : Rat) < n ∨ (n : Rat) < -1000 := by exact_mod_cast c1
        rw [le_div_iff₀ (by norm_num)]
        norm_num
        rcases this with h | h <;> linarith
      · rw [le_div_iff₀ (by norm_num)]
        norm_num
        linarith
      · omega
    have e1 : lrint ((256 : Nat) * (1 / 1) : Rat) = 256 := by decide +kernel
    have e2 : lrint ((256 : Nat) * (1 / 1) * (3 / 10) : Rat) = 77 := by decide +kernel
    have e3 : lrint (((256 : Int) : Rat) - recoveryFor 8000 256 n) ≤ 34 := by
      apply lrint_le_int
      push_cast
      linarith
    unfold clampedIncrement
    simp only
    rw [e1, e2, if_pos (show lrint (((256 : Int) : Rat) - recoveryFor 8000 256 n) < 77 by omega)]
    rfl
  have hi : incrementFor s 0 = 256 := by unfold incrementFor; rw [if_pos rfl, h2]
  have t : transient s Ex.default = false := by
    show (transientAt s 0 (divergenceFor (checkpointFor s (1 / 1)) s.inFrame s.outFrame 1 1 2048 2048 true) && s.amnesty == 0) = false
    rw [hc, hd, ht]
    rfl
  have hout : clampedIncrement (incrementFor s Ex.default.inIncrement) (Ex.default.timeRatio / Ex.default.pitchRatio)
      (recoveryFor s.sampleRate (incrementFor s Ex.default.inIncrement)
        (divergenceFor (checkpointFor s (Ex.default.timeRatio / Ex.default.pitchRatio)) s.inFrame s.outFrame Ex.default.timeRatio
          Ex.default.pitchRatio Ex.default.analysisWindowSize Ex.default.synthesisWindowSize Ex.default.alignFrameStarts)) = 77 := by
    show clampedIncrement (incrementFor s 0) (1 / 1) (recoveryFor s.sampleRate (incrementFor s 0)
      (divergenceFor (checkpointFor s (1 / 1)) s.inFrame s.outFrame 1 1 2048 2048 true)) = 77
    rw [hi, hc, hd, h1, hcl]
  unfold transient at t
  refine ⟨?_, hc, ?_⟩
  · simp only [calculateSingle, t, if_false, Bool.false_eq_true, hout]
  · have e : (calculateSingle s Ex.default).1.outFrame = s.outFrame + ((77 : Int) : Rat) * 1 := by
      simp only [calculateSingle, t, if_false, Bool.false_eq_true, hout]
      rfl
    rw [e, h5]
    push_cast
    ring

theorem stuck_run : ∀ (k : Nat) (s : Calc) (n : Int), s.sampleRate = 8000 → s.increment = 256 → s.inFrame = 0 → s.checkpoint = (0, 0) →
    s.outFrame = n → s.prevRatio = 1 → 348 ≤ n → results s (List.replicate k Ex.default) = List.replicate k 77 := by
  intro k
  induction k with
  | zero => intros; rfl
  | succ k ih =>
    intro s n h1 h2 h3 h4 h5 h6 hn
    obtain ⟨k1, k2, k3⟩ := stuck h1 h2 h3 h4 h5 h6 hn
    rw [List.replicate_succ, List.replicate_succ, results, k1]
    rw [ih (calculateSingle s Ex.default).1 (n + 77) h1 h2 (by show s.inFrame + ((0 : Nat) : Int) = 0; rw [h3]; rfl) k2 k3
      (by show (1 / 1 : Rat) = 1; norm_num) (by omega)]

/-- **C16 is violated** when the increment is left to the calculator: at 8000 Hz with an increment of 256
and a ratio of one it gives 256, 92 and then 77 frames for ever. -/
theorem C16_violated : ¬ C16_statement := by
  intro h
  obtain ⟨b, hb⟩ := h Ex.small ⟨rfl, rfl, rfl, rfl, rfl⟩ (by decide) (by decide) 1 1 2048 2048 true (by norm_num) (by norm_num) 0
  obtain ⟨k, hk⟩ := exists_nat_gt b
  have hrun : results Ex.small (List.replicate (k + 2) Ex.default) = 256 :: 92 :: List.replicate k 77 := by
    rw [List.replicate_succ, List.replicate_succ, results, results]
    have h1 : (calculateSingle Ex.small Ex.default).2 = 256 := by decide +kernel
    have h2 : (calculateSingle (calculateSingle Ex.small Ex.default).1 Ex.default).2 = 92 := by decide +kernel
    rw [h1, h2, stuck_run k _ 348 rfl rfl (by decide +kernel) (by decide +kernel) (by decide +kernel) (by decide +kernel) (by decide)]
  have := hb (List.replicate (k + 2) Ex.default) (by
    intro a ha
    rw [List.eq_of_mem_replicate ha]
    exact ⟨rfl, rfl, Nat.le_refl _, rfl, rfl, rfl⟩)
  rw [hrun] at this
  have hc : consumed Ex.small (List.replicate (k + 2) Ex.default) = (k + 2) * 256 := by
    simp [consumed, Ex.default, incrementFor, Ex.small]
  have hp : produced (256 :: 92 :: List.replicate k 77) = 348 + 77 * k := by
    simp [produced]
    ring
  rw [hc, hp, abs_le] at this
  push_cast at this
  have h0 : (0 : Rat) ≤ k := by positivity
  linarith [this.1]

/-- It is violated too with the increments given, if a call asks for less than a quarter of a frame: an
increment of one frame at a fifth of the duration gives no output ever. -/
theorem C16_violated_small : ¬ ∃ b : Rat, ∀ as : List Single,
    (∀ a ∈ as, a = { Ex.plain (1 / 5) 1 0 with inIncrement := 1, alignFrameStarts := true }) →
    |(produced (results Ex.unit as) : Rat) * 1 - consumed Ex.unit as * (1 / 5)| ≤ b := by
  rintro ⟨b, hb⟩
  obtain ⟨k, hk⟩ := exists_nat_gt (b * 5)
  set a : Single := { Ex.plain (1 / 5) 1 0 with inIncrement := 1, alignFrameStarts := true } with ha
  have hrun : ∀ (k : Nat) (s : Calc), results s (List.replicate k a) = List.replicate k 0 := by
    intro k
    induction k with
    | zero => intros; rfl
    | succ k ih =>
      intro s
      rw [List.replicate_succ, List.replicate_succ, results, ih]
      congr 1
      rcases C15_clamp s a (by decide +kernel) (by decide +kernel) with ⟨_, _, h⟩ | ⟨h1, _, h3⟩
      · exact absurd h (by decide +kernel)
      · have : lrint (((if a.inIncrement = 0 then s.increment else a.inIncrement : Nat) : Rat) * (a.timeRatio / a.pitchRatio) * 2) = 0 := by
          rw [if_neg (by decide)]
          decide +kernel
        omega
  have := hb (List.replicate k a) (by intro x hx; exact List.eq_of_mem_replicate hx)
  rw [hrun] at this
  have hc : consumed Ex.unit (List.replicate k a) = k := by
    simp [consumed, ha, incrementFor]
  have hp : produced (List.replicate k 0) = 0 := by simp [produced]
  rw [hc, hp, abs_le] at this
  push_cast at this
  have h0 : (0 : Rat) ≤ k := by positivity
  linarith [this.1]

/-! ## C51 -/

/-- C51 in full: if output is exactly where it should be, a change of ratio does not disturb it. -/
def C51_statement : Prop :=
  ∀ (s : Calc), Fresh s → 0 < s.sampleRate → ∀ (tr pr : Rat), 0 < tr → 0 < pr → ∀ as : List Single,
    (∀ a ∈ as, a.timeRatio = tr ∧ a.pitchRatio = pr ∧ 0 < a.inIncrement ∧ a.alignFrameStarts = true) →
    (produced (results s as) : Rat) * pr = consumed s as * tr →
    ∀ a : Single, 0 < a.timeRatio → 0 < a.pitchRatio → 0 < a.inIncrement → a.alignFrameStarts = true → a.df ≤ 35 / 100 →
      results s (as ++ [a]) = results s as ++ [lrint (a.inIncrement * (a.timeRatio / a.pitchRatio))]

theorem results_append : ∀ (as bs : List Single) (s : Calc), results s (as ++ bs) = results s as ++ results (after s as) bs := by
  intro as bs
  induction as with
  | nil => intro s; rfl
  | cons a as ih => intro s; simp [results, after, ih]

theorem after_constant (tr pr : Rat) : ∀ (as : List Single) (s : Calc), (∀ a ∈ as, a.timeRatio = tr ∧ a.pitchRatio = pr) →
    (s.justReset = true ∨ s.prevRatio = tr / pr) →
    (after s as).checkpoint = s.checkpoint ∧
    (as ≠ [] → (after s as).justReset = false ∧ (after s as).prevRatio = tr / pr ∧ (after s as).prevTimeRatio = tr) := by
  intro as
  induction as with
  | nil => intro s _ _; exact ⟨rfl, fun h => absurd rfl h⟩
  | cons a as ih =>
    intro s hv hk
    obtain ⟨ha1, ha2⟩ := hv a (by simp)
    have hp : (calculateSingle s a).1.prevRatio = tr / pr := by
      show a.timeRatio / a.pitchRatio = _
      rw [ha1, ha2]
    have hc : (calculateSingle s a).1.checkpoint = s.checkpoint := by
      show checkpointFor s (a.timeRatio / a.pitchRatio) = s.checkpoint
      unfold checkpointFor
      rw [ha1, ha2]
      rcases hk with hk | hk
      · rw [if_neg (by simp [hk])]
      · rw [if_neg (by simp [hk])]
    obtain ⟨i1, i2⟩ := ih (calculateSingle s a).1 (fun b hb => hv b (by simp [hb])) (Or.inr hp)
    refine ⟨by rw [after, i1, hc], fun _ => ?_⟩
    rcases as with _ | ⟨b, bs⟩
    · exact ⟨rfl, hp, ha1⟩
    · exact i2 (by simp)

theorem clamped_zero {inc : Nat} {ratio : Rat} (hr : 0 ≤ ratio) : clampedIncrement inc ratio 0 = lrint (inc * ratio) := by
  have hx : 0 ≤ (inc : Rat) * ratio := mul_nonneg (by positivity) hr
  have h0 : 0 ≤ lrint ((inc : Rat) * ratio) := lrint_nonneg hx
  have h1 : lrint (inc * ratio * (3 / 10)) ≤ lrint (inc * ratio) := lrint_mono (by linarith)
  have h2 : lrint (inc * ratio) ≤ lrint (inc * ratio * 2) := lrint_mono (by linarith)
  unfold clampedIncrement
  simp only [sub_zero, lrint_int]
  rw [if_neg (by omega), if_neg (by omega), if_neg (by omega)]

/-- **C51 (partial).**  True whenever the ratio of time ratio to pitch ratio changes, or the time ratio does
not.  Missing: a change of both by the same factor (`C51_violated`). -/
theorem C51_partial {s : Calc} (hs : Fresh s) {tr pr : Rat} (htr : 0 < tr) (hpr : 0 < pr) {as : List Single}
    (hv : ∀ a ∈ as, a.timeRatio = tr ∧ a.pitchRatio = pr ∧ 0 < a.inIncrement ∧ a.alignFrameStarts = true)
    (hon : (produced (results s as) : Rat) * pr = consumed s as * tr)
    {a : Single} (h1 : 0 < a.timeRatio) (h2 : 0 < a.pitchRatio) (h3 : 0 < a.inIncrement) (h4 : a.alignFrameStarts = true)
    (h5 : a.df ≤ 35 / 100) (hchange : a.timeRatio / a.pitchRatio ≠ tr / pr ∨ a.timeRatio = tr) :
    results s (as ++ [a]) = results s as ++ [lrint (a.inIncrement * (a.timeRatio / a.pitchRatio))] := by
  obtain ⟨f1, f2⟩ := after_frames pr hpr as s (fun b hb => ⟨(hv b hb).2.1, by rw [(hv b hb).1]; exact le_of_lt htr, (hv b hb).2.2.1⟩)
  obtain ⟨c1, c2⟩ := after_constant tr pr as s (fun b hb => ⟨(hv b hb).1, (hv b hb).2.1⟩) (Or.inl hs.justReset)
  rw [hs.outFrame, zero_add, hon] at f1
  rw [hs.inFrame, zero_add] at f2
  rw [hs.checkpoint] at c1
  rw [results_append]
  congr 1
  simp only [results]
  congr 1
  have hd : divergenceFor (checkpointFor (after s as) (a.timeRatio / a.pitchRatio)) (after s as).inFrame (after s as).outFrame
      a.timeRatio a.pitchRatio a.analysisWindowSize a.synthesisWindowSize a.alignFrameStarts = 0 := by
    unfold divergenceFor checkpointFor
    rw [if_pos h4]
    by_cases has : as = []
    · subst has
      rw [if_neg (by simp [after, hs.justReset]), c1, f1, f2]
      simp [expectedOutFrame, consumed]
    · obtain ⟨d1, d2, d3⟩ := c2 has
      split_ifs with c
      · rw [c1, d3, f2, f1]
        simp only [expectedOutFrame]
        have e : roundAway (((0 : Int) : Rat) + ((consumed s as : Int) - 0 : Int) * tr) = roundAway (consumed s as * tr) := by
          congr 1; push_cast; ring
        rw [e]
        have e2 : roundAway (((roundAway (consumed s as * tr) : Int) : Rat) + ((consumed s as : Int) - (consumed s as : Int) : Int) * a.timeRatio) =
            roundAway (consumed s as * tr) := by
          rw [sub_self, Int.cast_zero, zero_mul, add_zero, roundAway_int]
        rw [e2, sub_self]
      · have htr' : a.timeRatio = tr := by
          rcases hchange with h | h
          · exfalso; apply c; exact ⟨by simp [d1], by rw [d2]; exact h⟩
          · exact h
        rw [c1, f1, f2, htr']
        simp only [expectedOutFrame]
        have e : roundAway (((0 : Int) : Rat) + ((consumed s as : Int) - 0 : Int) * tr) = roundAway (consumed s as * tr) := by
          congr 1; push_cast; ring
        rw [e, sub_self]
  have ht : transient (after s as) a = false := by
    unfold transient transientAt
    have : ¬ 35 / 100 < a.df := by linarith
    simp [this]
  have hinc : incrementFor (after s as) a.inIncrement = a.inIncrement := by
    unfold incrementFor; rw [if_neg (by omega)]
  unfold transient at ht
  simp only [calculateSingle, ht, if_false, Bool.false_eq_true, hinc]
  rw [hd, show recoveryFor (after s as).sampleRate a.inIncrement 0 = 0 by simp [recoveryFor]]
  exact clamped_zero (le_of_lt (div_pos h1 h2))

namespace Ex
/-- A call in the R3 manner, frame starts aligned. -/
def aligned (tr pr df : Rat) (inc : Nat) : Single :=
  { plain tr pr df with inIncrement := inc, alignFrameStarts := true }
end Ex

/-- From 3/2 to 2, and from 2 to 2 with a change of pitch: the nominal increments. -/
example : results Ex.unit (List.replicate 4 (Ex.aligned (3 / 2) 1 0 256) ++ [Ex.aligned 2 1 0 256]) = [384, 384, 384, 384, 512] ∧
    results Ex.unit (List.replicate 4 (Ex.aligned 2 1 0 256) ++ [Ex.aligned 2 (1 / 2) 0 256]) = [512, 512, 512, 512, 1024] := by
  decide +kernel

/-- **C51 is violated** when time and pitch ratio change by the same factor: no checkpoint is taken, and all
of the input so far counts as if it had been due at the new ratio. -/
theorem C51_violated : ¬ C51_statement := by
  intro h
  have := h Ex.unit ⟨rfl, rfl, rfl, rfl, rfl⟩ (by decide) 1 1 (by norm_num) (by norm_num) (List.replicate 4 (Ex.aligned 1 1 0 256))
    (by intro a ha; rw [List.eq_of_mem_replicate ha]; exact ⟨rfl, rfl, by decide, rfl⟩) (by decide +kernel)
    (Ex.aligned 2 2 0 256) (by decide +kernel) (by decide +kernel) (by decide) rfl (by decide +kernel)
  exact absurd this (by decide +kernel)

end Verif.StretchCalc
