import Verif.R2Flow
import Mathlib.Tactic.Linarith
/-!
# The faster engine offline: a channel through all its blocks
-/
namespace Verif.R2
open Verif.Round Verif.StretchCalc

variable {α σ ρ κ : Type}

/-! ## Frames -/

theorem synAt_append (env : Env α σ ρ κ) (z : Sizes) (incs : List Int) (x₀ : Syn α σ) (X Y : List α) : ∀ j,
    (∀ i, i < j → i * z.increment + z.window ≤ X.length) → synAt env z incs x₀ (X ++ Y) j = synAt env z incs x₀ X j := by
  intro j
  induction j with
  | zero => intro _; rfl
  | succ j ih =>
    intro h
    unfold synAt
    rw [ih fun i hi => h i (by omega)]
    have hj := h j (by omega)
    have e : ((X ++ Y).drop (j * z.increment)).take z.window = (X.drop (j * z.increment)).take z.window := by
      rw [List.drop_append_of_le_length (by omega), List.take_append_of_le_length (by rw [List.length_drop]; omega)]
    rw [e]

/-- How much the first `j` frames give. -/
def spent (z : Sizes) (incs : List Int) : Nat → Nat
  | 0 => 0
  | j + 1 => spent z incs j + (pick z incs j).2.shift

theorem pick_count (z : Sizes) (incs : List Int) (i c : Nat) (h : c = i ∨ (incs.length ≠ 0 ∧ c = min i incs.length)) :
    (pick z incs c).2 = (pick z incs i).2 ∧ ((pick z incs c).1 + 1 = i + 1 ∨ (incs.length ≠ 0 ∧ (pick z incs c).1 + 1 = min (i + 1) incs.length)) := by
  unfold pick
  by_cases hl : incs.length = 0
  · simp only [hl, if_true]
    rcases h with h | h
    · exact ⟨trivial, Or.inl (by omega)⟩
    · exact absurd hl h.1
  · simp only [hl, if_false]
    have hk : min c (incs.length - 1) = min i (incs.length - 1) := by omega
    rw [hk]
    refine ⟨rfl, ?_⟩
    right
    exact ⟨hl, by omega⟩

theorem synAt_facts (env : Env α σ ρ κ) {z : Sizes} {incs : List Int} {x₀ : Syn α σ} (h0 : x₀.count = 0) (hf : x₀.fill ≤ z.window) (X : List α) : ∀ j,
    (synAt env z incs x₀ X j).2.length = spent z incs j ∧ (synAt env z incs x₀ X j).1.fill ≤ z.window ∧
      ((synAt env z incs x₀ X j).1.count = j ∨ (incs.length ≠ 0 ∧ (synAt env z incs x₀ X j).1.count = min j incs.length)) := by
  intro j
  induction j with
  | zero => exact ⟨rfl, hf, Or.inl h0⟩
  | succ j ih =>
    obtain ⟨a1, a2, a3⟩ := ih
    obtain ⟨b1, b2⟩ := pick_count z incs j _ a3
    unfold synAt spent frameStep
    simp only [List.length_append, List.length_map, List.length_range, b1]
    refine ⟨by rw [a1], by omega, ?_⟩
    exact b2

theorem drain_fuel (env : Env α σ ρ κ) {z : Sizes} (incs : List Int) (hi : 1 ≤ z.increment) : ∀ (f f' : Nat) (x : Syn α σ), x.fill ≤ f → x.fill ≤ f' →
    drain env z incs f x = drain env z incs f' x := by
  intro f
  induction f with
  | zero =>
    intro f' x h h'
    have h0 : x.fill = 0 := by omega
    cases f' with
    | zero => rfl
    | succ f' => unfold drain; rw [if_pos h0]
  | succ f ih =>
    intro f' x h h'
    by_cases h0 : x.fill = 0
    · unfold drain
      rw [if_pos h0]
      cases f' with
      | zero => rfl
      | succ f' => simp only [h0, if_true]
    · cases f' with
      | zero => omega
      | succ f' =>
        unfold drain
        rw [if_neg h0, if_neg h0]
        have hb : 1 ≤ drainBy z incs x := by
          unfold drainBy
          simp only
          split <;> omega
        rw [ih f' (drainStep env z incs x).1 (by unfold drainStep; simp only; omega) (by unfold drainStep; simp only; omega)]

theorem drainBy_le {z : Sizes} {incs : List Int} {x : Syn α σ} : drainBy z incs x ≤ max z.increment (pick z incs x.count).2.shift := by
  unfold drainBy
  simp only
  split <;> omega

/-! ## What has been heard -/

theorem trim_none {skip : Nat} (e out : List α) :
    e.drop skip ++ (trim skip 0 e.length out).1 = (e ++ out).drop skip ∧ e.length + (trim skip 0 e.length out).2 = (e ++ out).length := by
  unfold trim
  simp only [Nat.not_lt_zero, gt_iff_lt, false_and, if_false, List.length_append]
  split
  · rename_i h
    rw [List.drop_append_of_le_length (by omega)]
    exact ⟨rfl, rfl⟩
  · rename_i h
    split
    · rename_i h2
      refine ⟨?_, rfl⟩
      rw [List.drop_eq_nil_of_le (by omega), List.drop_eq_nil_of_le (by rw [List.length_append]; omega)]
      rfl
    · refine ⟨?_, rfl⟩
      rw [List.drop_eq_nil_of_le (as := e) (by omega), List.drop_append, List.drop_eq_nil_of_le (as := e) (by omega)]

theorem trim_some {skip T : Nat} (hT : 1 ≤ T) (e out : List α) (ho : out.length ≤ T) :
    (e.drop skip).take T ++ (trim skip T (min e.length (skip + T)) out).1 = ((e ++ out).drop skip).take T ∧
      min e.length (skip + T) + (trim skip T (min e.length (skip + T)) out).2 = min (e ++ out).length (skip + T) := by
  unfold trim
  rw [List.length_append]
  by_cases h : e.length > skip
  · rw [if_pos (by omega), List.drop_append_of_le_length (by omega), List.take_append, List.length_drop]
    by_cases h2 : min e.length (skip + T) - skip + out.length > T
    · rw [if_pos ⟨by omega, by omega, h2⟩]
      refine ⟨?_, by simp only; omega⟩
      have : T - (min e.length (skip + T) - skip) = T - (e.length - skip) := by omega
      rw [this]
    · rw [if_neg (by omega)]
      refine ⟨?_, by simp only; omega⟩
      rw [List.take_of_length_le (l := out) (by omega)]
  · rw [if_neg (by omega), List.drop_eq_nil_of_le (as := e) (by omega)]
    have hm : min e.length (skip + T) = e.length := by omega
    rw [hm, List.take_nil, List.nil_append]
    split
    · refine ⟨?_, by simp only; omega⟩
      rw [List.drop_eq_nil_of_le (by rw [List.length_append]; omega), List.take_nil]
    · refine ⟨?_, by simp only; omega⟩
      rw [List.drop_append, List.drop_eq_nil_of_le (as := e) (by omega), List.nil_append, List.take_of_length_le (by rw [List.length_drop]; omega)]

/-- What is assumed of the sizes and of the profile. -/
structure Fine (p : Params) (z : Sizes) (incs : List Int) : Prop where
  plain : Plain p z
  inc : 1 ≤ z.increment
  window : 4 * z.increment ≤ z.window
  short : ∀ i ∈ incs, i.natAbs < z.window

theorem Fine.short' {p : Params} {z : Sizes} {incs : List Int} (h : Fine p z incs) : Short z incs := fun i hi => (h.short i hi).le

theorem Fine.inc_le {p : Params} {z : Sizes} {incs : List Int} (h : Fine p z incs) : z.increment ≤ z.window := by have := h.window; omega

theorem pick_lt {p : Params} {z : Sizes} {incs : List Int} (h : Fine p z incs) (count : Nat) : (pick z incs count).2.shift < z.window := by
  unfold pick
  split
  · have := h.window
    have := h.inc
    simp only; omega
  · rename_i hl
    simp only
    have hb : min (min count (incs.length - 1) + 1) (incs.length - 1) < incs.length := by omega
    rw [List.getD_eq_getElem?_getD, List.getElem?_eq_getElem hb]
    exact h.short _ (List.getElem_mem hb)

/-- No piece of output is longer than the output is to be. -/
structure Fits (z : Sizes) (incs : List Int) (T : Nat) : Prop where
  inc : z.increment ≤ T
  incs : ∀ i ∈ incs, i.natAbs ≤ T

theorem pick_fits {z : Sizes} {incs : List Int} {T : Nat} (h : Fits z incs T) (count : Nat) : (pick z incs count).2.shift ≤ T := by
  unfold pick
  split
  · exact h.inc
  · rename_i hl
    simp only
    have hb : min (min count (incs.length - 1) + 1) (incs.length - 1) < incs.length := by omega
    rw [List.getD_eq_getElem?_getD, List.getElem?_eq_getElem hb]
    exact h.incs _ (List.getElem_mem hb)

/-- A channel that has had the (padded) input `X`, not yet ended; `j` frames have been processed and `r` has been retrieved. -/
structure Running (p : Params) (env : Env α σ ρ κ) (z : Sizes) (incs : List Int) (x₀ : Syn α σ) (cd : Chan α σ ρ) (r X : List α) (j : Nat) : Prop where
  data : cd.inbuf.data = X.drop (j * z.increment)
  le : j * z.increment ≤ X.length
  syn : cd.syn = (synAt env z incs x₀ X j).1
  heard : r ++ cd.outbuf.data = (synAt env z incs x₀ X j).2.drop (startSkip p z)
  outCount : cd.outCount = (synAt env z incs x₀ X j).2.length
  inputSize : cd.inputSize = none
  draining : cd.draining = false
  complete : cd.outputComplete = false
  room : Room z cd.outbuf
  inCount : z.window / 2 + cd.inCount = X.length
  full : ∀ i, i < j → i * z.increment + z.window ≤ X.length

theorem running_round {p : Params} {env : Env α σ ρ κ} {z : Sizes} {incs : List Int} (hp : Fine p z incs) {x₀ : Syn α σ} {cd : Chan α σ ρ}
    {r X : List α} {j : Nat} (h : Running p env z incs x₀ cd r X j) (hw : z.window ≤ cd.inbuf.data.length) :
    ∃ cd', chunkRound p env z incs cd = some (cd', true) ∧ Running p env z incs x₀ cd' r X (j + 1) ∧ cd'.inbuf.cap = cd.inbuf.cap ∧
      cd'.inbuf.data.length + z.increment = cd.inbuf.data.length := by
  have ht : testInbuf z cd = (cd, true) := by
    unfold testInbuf
    rw [if_neg]
    unfold Fifo.readSpace
    omega
  obtain ⟨cd', a1, a2, a3, a4, a5, a6⟩ := round_frame (env := env) hp.plain hp.inc_le hp.short' h.room ht h.draining
  have h0 : theoreticalOut z cd = 0 := by unfold theoreticalOut; rw [h.inputSize]
  have hlen : j * z.increment + z.window ≤ X.length := by
    have e := h.data
    rw [e, List.length_drop] at hw
    have := hp.inc
    have := hp.window
    omega
  have hinc := hp.inc_le
  have hmul : (j + 1) * z.increment = j * z.increment + z.increment := Nat.succ_mul ..
  rw [h.data, h.syn] at a2 a3
  rw [h0] at a3
  obtain ⟨t1, t2⟩ := trim_none (skip := startSkip p z) (synAt env z incs x₀ X j).2
    (frameStep env z incs ((X.drop (j * z.increment)).take z.window) (synAt env z incs x₀ X j).1).2
  refine ⟨cd', a1, ⟨?_, by omega, ?_, ?_, ?_, ?_, a5, ?_, a3.room, ?_, ?_⟩, by rw [a4]; rfl, ?_⟩
  · rw [a4]
    unfold Fifo.skip
    simp only
    rw [h.data, List.drop_drop, hmul]
  · rw [a2]; rfl
  · rw [a3.outbuf, ← List.append_assoc, h.heard, h.outCount, t1]; rfl
  · rw [a3.outCount, h.outCount, t2]; rfl
  · rw [a3.inputSize, h.inputSize]
  · rw [a6, h.complete]
  · rw [a3.inCount, h.inCount]
  · intro i hi
    rcases Nat.lt_succ_iff_lt_or_eq.mp hi with hi | hi
    · exact h.full i hi
    · rw [hi]; exact hlen
  · rw [a4]
    unfold Fifo.skip
    simp only [List.length_drop]
    omega

theorem running_loop {p : Params} {env : Env α σ ρ κ} {z : Sizes} {incs : List Int} (hp : Fine p z incs) {x₀ : Syn α σ}
    {r X : List α} : ∀ (fuel : Nat) (cd : Chan α σ ρ) (j : Nat), Running p env z incs x₀ cd r X j → cd.inbuf.data.length < fuel →
    ∃ cd' j', chunkLoop p env z incs fuel cd = some cd' ∧ Running p env z incs x₀ cd' r X j' ∧ cd'.inbuf.cap = cd.inbuf.cap ∧
      cd'.inbuf.data.length < z.window := by
  intro fuel
  induction fuel with
  | zero => intro cd j _ h; omega
  | succ fuel ih =>
    intro cd j h hf
    unfold chunkLoop
    by_cases hw : z.window ≤ cd.inbuf.data.length
    · obtain ⟨cd1, a1, a2, a3, a4⟩ := running_round hp h hw
      have := hp.inc
      obtain ⟨cd', j', b1, b2, b3, b4⟩ := ih cd1 (j + 1) a2 (by omega)
      refine ⟨cd', j', ?_, b2, b3.trans a3, b4⟩
      rw [a1]
      exact b1
    · have ht : testInbuf z cd = (cd, false) := by
        unfold testInbuf
        rw [if_pos ⟨by unfold Fifo.readSpace; omega, h.draining⟩, h.inputSize]
        rfl
      have : chunkRound p env z incs cd = some (cd, false) := by
        unfold chunkRound
        rw [ht]
        rfl
      refine ⟨cd, j, ?_, h, rfl, by omega⟩
      rw [this]
      rfl

/-! ## The end -/

/-- What has been heard, and the count of output, after one more write (`writeOutput`, through `trim`) of a channel of which `T` samples are to be heard. -/
def hearStep (skip T : Nat) (w : List α × Nat) (out : List α) : List α × Nat := (w.1 ++ (trim skip T w.2 out).1, w.2 + (trim skip T w.2 out).2)

/-- What is heard of the first `j` frames, if `T` samples are to be heard. -/
def hearAt (env : Env α σ ρ κ) (z : Sizes) (incs : List Int) (x₀ : Syn α σ) (skip T : Nat) (X : List α) : Nat → List α × Nat
  | 0 => ([], 0)
  | j + 1 => hearStep skip T (hearAt env z incs x₀ skip T X j)
      (frameStep env z incs ((X.drop (j * z.increment)).take z.window) (synAt env z incs x₀ X j).1).2

/-- What is heard when the channel has been drained. -/
def hearDrain (env : Env α σ ρ κ) (z : Sizes) (incs : List Int) (skip T : Nat) : Nat → Syn α σ → List α × Nat → List α × Nat
  | 0, _, w => w
  | f + 1, x, w => if x.fill = 0 then w else hearDrain env z incs skip T f (drainStep env z incs x).1 (hearStep skip T w (drainStep env z incs x).2)

theorem hearDrain_fuel (env : Env α σ ρ κ) {z : Sizes} (incs : List Int) (hi : 1 ≤ z.increment) (skip T : Nat) : ∀ (f f' : Nat) (x : Syn α σ) (w : List α × Nat),
    x.fill ≤ f → x.fill ≤ f' → hearDrain env z incs skip T f x w = hearDrain env z incs skip T f' x w := by
  intro f
  induction f with
  | zero =>
    intro f' x w h h'
    have h0 : x.fill = 0 := by omega
    cases f' with
    | zero => rfl
    | succ f' => unfold hearDrain; rw [if_pos h0]
  | succ f ih =>
    intro f' x w h h'
    by_cases h0 : x.fill = 0
    · unfold hearDrain
      rw [if_pos h0]
      cases f' with
      | zero => rfl
      | succ f' => simp only [h0, if_true]
    · cases f' with
      | zero => omega
      | succ f' =>
        unfold hearDrain
        rw [if_neg h0, if_neg h0]
        have hb : 1 ≤ drainBy z incs x := by
          unfold drainBy
          simp only
          split <;> omega
        exact ih f' (drainStep env z incs x).1 _ (by unfold drainStep; simp only; omega) (by unfold drainStep; simp only; omega)

/-- As long as no more has been made than is to be heard, nothing is left out but the beginning. -/
theorem hearAt_early (env : Env α σ ρ κ) {z : Sizes} {incs : List Int} {x₀ : Syn α σ} (h0 : x₀.count = 0) (hf : x₀.fill ≤ z.window) (skip T : Nat) (X : List α) :
    ∀ j, spent z incs j ≤ skip + T → hearAt env z incs x₀ skip T X j = ((synAt env z incs x₀ X j).2.drop skip, (synAt env z incs x₀ X j).2.length) := by
  intro j
  induction j with
  | zero =>
    intro _
    unfold hearAt synAt
    simp
  | succ j ih =>
    intro h
    have hle : spent z incs j ≤ spent z incs (j + 1) := Nat.le_add_right ..
    have hl := (synAt_facts env (incs := incs) h0 hf X (j + 1)).1
    unfold hearAt
    rw [ih (by omega)]
    unfold hearStep
    simp only
    generalize ho : (frameStep env z incs ((X.drop (j * z.increment)).take z.window) (synAt env z incs x₀ X j).1).2 = out
    have e : (synAt env z incs x₀ X (j + 1)).2 = (synAt env z incs x₀ X j).2 ++ out := by rw [← ho]; rfl
    rw [e, List.length_append] at hl
    have ht : trim skip T (synAt env z incs x₀ X j).2.length out = trim skip 0 (synAt env z incs x₀ X j).2.length out := by
      unfold trim
      by_cases hs : (synAt env z incs x₀ X j).2.length > skip
      · rw [if_pos hs, if_pos hs, if_neg (by omega), if_neg (by omega)]
      · rw [if_neg hs, if_neg hs]
    obtain ⟨t1, t2⟩ := trim_none (skip := skip) (synAt env z incs x₀ X j).2 out
    rw [ht, t1, t2, e]

/-- If no piece is longer than what is to be heard, then that is heard: the beginning left out, as much as there is. -/
theorem hearAt_fits (env : Env α σ ρ κ) {z : Sizes} {incs : List Int} {x₀ : Syn α σ} {T : Nat} (hT : Fits z incs T) (h1 : 1 ≤ T) (skip : Nat) (X : List α) :
    ∀ j, hearAt env z incs x₀ skip T X j = (((synAt env z incs x₀ X j).2.drop skip).take T, min (synAt env z incs x₀ X j).2.length (skip + T)) := by
  intro j
  induction j with
  | zero =>
    unfold hearAt synAt
    simp
  | succ j ih =>
    unfold hearAt
    rw [ih]
    unfold hearStep
    simp only
    obtain ⟨t1, t2⟩ := trim_some (skip := skip) (T := T) h1 (synAt env z incs x₀ X j).2
      (frameStep env z incs ((X.drop (j * z.increment)).take z.window) (synAt env z incs x₀ X j).1).2 (by
        unfold frameStep
        simp only [List.length_map, List.length_range]
        exact pick_fits hT _)
    rw [t1, t2]
    rfl

theorem hearDrain_fits (env : Env α σ ρ κ) {z : Sizes} {incs : List Int} {T : Nat} (hT : Fits z incs T) (h1 : 1 ≤ T) (skip : Nat) :
    ∀ (f : Nat) (x : Syn α σ) (E : List α), (hearDrain env z incs skip T f x ((E.drop skip).take T, min E.length (skip + T))).1 =
      ((E ++ drain env z incs f x).drop skip).take T := by
  intro f
  induction f with
  | zero =>
    intro x E
    unfold hearDrain drain
    rw [List.append_nil]
  | succ f ih =>
    intro x E
    unfold hearDrain drain
    by_cases h0 : x.fill = 0
    · rw [if_pos h0, if_pos h0, List.append_nil]
    · rw [if_neg h0, if_neg h0]
      obtain ⟨t1, t2⟩ := trim_some (skip := skip) (T := T) h1 E (drainStep env z incs x).2 (by
        unfold drainStep
        simp only [List.length_map, List.length_range]
        have := drainBy_le (z := z) (incs := incs) (x := x)
        have := pick_fits hT x.count
        have := hT.inc
        omega)
      unfold hearStep
      simp only
      rw [t1, t2, ih, List.append_assoc]

/-- A channel whose input has ended: `X` is all of it (padded), and `T` samples are to be given. -/
structure Ending (p : Params) (env : Env α σ ρ κ) (z : Sizes) (incs : List Int) (x₀ : Syn α σ) (T : Nat) (cd : Chan α σ ρ) (r X : List α) (j : Nat) : Prop where
  data : cd.inbuf.data = X.drop (j * z.increment)
  syn : cd.syn = (synAt env z incs x₀ X j).1
  heard : r ++ cd.outbuf.data = (hearAt env z incs x₀ (startSkip p z) T X j).1
  outCount : cd.outCount = (hearAt env z incs x₀ (startSkip p z) T X j).2
  theoretical : theoreticalOut z cd = T
  inputSize : cd.inputSize.isSome = true
  draining : cd.draining = false
  complete : cd.outputComplete = false
  room : Room z cd.outbuf
  full : ∀ i, i < j → i * z.increment + z.window / 2 ≤ X.length

/-- A channel that has given all of the output. -/
structure Ended (z : Sizes) (cd : Chan α σ ρ) (heard r : List α) : Prop where
  heard : r ++ cd.outbuf.data = heard
  inputSize : cd.inputSize.isSome = true
  draining : cd.draining = true
  complete : cd.outputComplete = true
  fill : cd.accumulatorFill = 0

/-- A channel being drained. -/
structure Draining (p : Params) (z : Sizes) (T : Nat) (cd : Chan α σ ρ) (r : List α) (w : List α × Nat) : Prop where
  heard : r ++ cd.outbuf.data = w.1
  outCount : cd.outCount = w.2
  theoretical : theoreticalOut z cd = T
  inputSize : cd.inputSize.isSome = true
  draining : cd.draining = true
  room : Room z cd.outbuf

theorem draining_loop {p : Params} {env : Env α σ ρ κ} {z : Sizes} {incs : List Int} (hp : Fine p z incs) {T : Nat} {r : List α} :
    ∀ (fuel : Nat) (cd : Chan α σ ρ) (w : List α × Nat), Draining p z T cd r w → cd.accumulatorFill ≠ 0 → cd.accumulatorFill < fuel →
    ∃ cd', chunkLoop p env z incs fuel cd = some cd' ∧
      Ended z cd' (hearDrain env z incs (startSkip p z) T cd.accumulatorFill cd.syn w).1 r ∧ cd'.inbuf = cd.inbuf := by
  intro fuel
  induction fuel with
  | zero => intro cd w _ _ h; omega
  | succ fuel ih =>
    intro cd w h hf hfu
    obtain ⟨cd1, a1, a2, a3, a4, a5, a6⟩ := round_drain (env := env) hp.plain hp.inc_le hp.short' h.room h.draining hf
    have hb : 1 ≤ drainBy z incs cd.syn := by
      have := hp.inc
      unfold drainBy
      show 1 ≤ min cd.accumulatorFill _
      split <;> omega
    have hfill : cd1.accumulatorFill = cd.accumulatorFill - drainBy z incs cd.syn := by
      have := congrArg Syn.fill a2
      exact this
    rw [h.theoretical] at a3
    have a3b := a3.outbuf
    have a3c := a3.outCount
    rw [h.outCount] at a3b a3c
    have hd : Draining p z T cd1 r (hearStep (startSkip p z) T w (drainStep env z incs cd.syn).2) := by
      refine ⟨?_, ?_, ?_, ?_, a5, a3.room⟩
      · rw [a3b, ← List.append_assoc, h.heard]; rfl
      · rw [a3c]; rfl
      · unfold theoreticalOut; rw [a3.inputSize]; exact h.theoretical
      · rw [a3.inputSize]; exact h.inputSize
    obtain ⟨f, hfe⟩ : ∃ f, cd.accumulatorFill = f + 1 := ⟨cd.accumulatorFill - 1, by omega⟩
    have hdr : hearDrain env z incs (startSkip p z) T cd.accumulatorFill cd.syn w =
        hearDrain env z incs (startSkip p z) T cd1.accumulatorFill cd1.syn (hearStep (startSkip p z) T w (drainStep env z incs cd.syn).2) := by
      rw [hfe]
      conv_lhs => unfold hearDrain
      have : cd.syn.fill = cd.accumulatorFill := rfl
      rw [if_neg (by rw [this]; exact hf), a2]
      have e1 : (drainStep env z incs cd.syn).1.fill = cd1.accumulatorFill := by rw [← a2]; rfl
      exact hearDrain_fuel env incs hp.inc _ _ f cd1.accumulatorFill (drainStep env z incs cd.syn).1 _ (by rw [e1]; omega) (by rw [e1])
    unfold chunkLoop
    rw [a1]
    by_cases h0 : cd1.accumulatorFill = 0
    · refine ⟨cd1, ?_, ⟨?_, hd.inputSize, a5, ?_, h0⟩, a4⟩
      · simp [h0]
      · rw [hd.heard, hdr, h0]
        rfl
      · rw [a6]; simp [h0]
    · obtain ⟨cd', b1, b2, b3⟩ := ih cd1 _ hd h0 (by omega)
      refine ⟨cd', ?_, ?_, b3.trans a4⟩
      · simp [h0, b1]
      · rw [hdr]
        exact b2

theorem ending_round {p : Params} {env : Env α σ ρ κ} {z : Sizes} {incs : List Int} (hp : Fine p z incs) {x₀ : Syn α σ} {T : Nat} {cd : Chan α σ ρ}
    {r X : List α} {j : Nat} (h : Ending p env z incs x₀ T cd r X j) (hw : z.window / 2 ≤ cd.inbuf.data.length) :
    ∃ cd', chunkRound p env z incs cd = some (cd', true) ∧ Ending p env z incs x₀ T cd' r X (j + 1) ∧
      cd'.inbuf.data.length + z.increment = cd.inbuf.data.length ∧ cd'.inbuf.cap = cd.inbuf.cap ∧ cd'.accumulatorFill ≠ 0 ∧
      (cd.accumulatorFill ≤ z.window → cd'.accumulatorFill ≤ z.window) := by
  have hinc := hp.inc
  have hwin := hp.window
  have ht : testInbuf z cd = (cd, true) := by
    unfold testInbuf Fifo.readSpace
    simp only
    split
    · rw [if_neg (by simpa [Option.isNone_iff_eq_none, Option.isSome_iff_ne_none] using h.inputSize), if_neg (by omega), if_neg (by omega)]
    · rfl
  obtain ⟨cd', a1, a2, a3, a4, a5, a6⟩ := round_frame (env := env) hp.plain hp.inc_le hp.short' h.room ht h.draining
  have hmul : (j + 1) * z.increment = j * z.increment + z.increment := Nat.succ_mul ..
  have hdl : cd.inbuf.data.length = X.length - j * z.increment := by rw [h.data, List.length_drop]
  have hsh := pick_lt hp cd.chunkCount
  have hfill : cd'.accumulatorFill = max cd.accumulatorFill z.window - (pick z incs cd.chunkCount).2.shift := congrArg Syn.fill a2
  rw [h.data, h.syn] at a2 a3
  rw [h.theoretical] at a3
  refine ⟨cd', a1, ⟨?_, ?_, ?_, ?_, ?_, ?_, a5, ?_, a3.room, ?_⟩, ?_, by rw [a4]; rfl, by omega, by omega⟩
  · rw [a4]
    unfold Fifo.skip
    simp only
    rw [h.data, List.drop_drop, hmul]
  · rw [a2]; rfl
  · rw [a3.outbuf, ← List.append_assoc, h.heard, h.outCount]; rfl
  · rw [a3.outCount, h.outCount]; rfl
  · unfold theoreticalOut; rw [a3.inputSize]; exact h.theoretical
  · rw [a3.inputSize]; exact h.inputSize
  · rw [a6, h.complete]
  · intro i hi
    rcases Nat.lt_succ_iff_lt_or_eq.mp hi with hi | hi
    · exact h.full i hi
    · rw [hi]; omega
  · rw [a4]
    unfold Fifo.skip
    simp only [List.length_drop]
    omega

theorem ending_loop {p : Params} {env : Env α σ ρ κ} {z : Sizes} {incs : List Int} (hp : Fine p z incs) {x₀ : Syn α σ} {T : Nat}
    {r X : List α} {n : Nat} (hX : X.length = z.window / 2 + n) : ∀ (fuel : Nat) (cd : Chan α σ ρ) (j : Nat), Ending p env z incs x₀ T cd r X j →
    cd.accumulatorFill ≤ z.window → (z.window / 2 ≤ cd.inbuf.data.length ∨ cd.accumulatorFill ≠ 0 ∧ z.window / 4 ≤ cd.inbuf.data.length) →
    cd.inbuf.data.length + z.window + 1 < fuel →
    ∃ cd', chunkLoop p env z incs fuel cd = some cd' ∧
      Ended z cd' (hearDrain env z incs (startSkip p z) T (synAt env z incs x₀ X (frames z n)).1.fill (synAt env z incs x₀ X (frames z n)).1
        (hearAt env z incs x₀ (startSkip p z) T X (frames z n))).1 r := by
  intro fuel
  induction fuel with
  | zero => intro cd j _ _ _ h; omega
  | succ fuel ih =>
    intro cd j h hfl hrs hf
    have hinc := hp.inc
    have hwin := hp.window
    by_cases hw : z.window / 2 ≤ cd.inbuf.data.length
    · obtain ⟨cd1, a1, a2, a3, _, a4, a5⟩ := ending_round (env := env) hp h hw
      obtain ⟨cd', b1, b2⟩ := ih cd1 (j + 1) a2 (a5 hfl) (Or.inr ⟨a4, by omega⟩) (by omega)
      refine ⟨cd', ?_, b2⟩
      unfold chunkLoop
      rw [a1]
      exact b1
    · obtain ⟨hrs1, hrs2⟩ := hrs.resolve_left hw
      have hdl : cd.inbuf.data.length = X.length - j * z.increment := by rw [h.data, List.length_drop]
      have hj : j = frames z n := by
        unfold frames
        have h1 : n < j * z.increment := by omega
        have h2 : j = 0 ∨ (j - 1) * z.increment ≤ n := by
          rcases Nat.eq_zero_or_pos j with h | h
          · exact Or.inl h
          · right
            have := ‹Ending p env z incs x₀ T cd r X j›.full (j - 1) (by omega)
            omega
        have h3 : j ≠ 0 := by rintro rfl; simp at h1
        have h4 := h2.resolve_left h3
        have h5 : n / z.increment < j := Nat.div_lt_of_lt_mul (by rw [Nat.mul_comm]; exact h1)
        have h6 : j - 1 ≤ n / z.increment := (Nat.le_div_iff_mul_le hinc).mpr h4
        omega
      have hdr : Draining p z T { cd with draining := true } r (hearAt env z incs x₀ (startSkip p z) T X j) :=
        ⟨h.heard, h.outCount, h.theoretical, h.inputSize, rfl, h.room⟩
      obtain ⟨cd', b1, b2, b3⟩ := draining_loop (env := env) hp (fuel + 1) { cd with draining := true } _ hdr hrs1 (by show cd.accumulatorFill < _; omega)
      refine ⟨cd', ?_, ?_⟩
      · rw [← b1]
        unfold chunkLoop
        have e : testInbuf z cd = ({ cd with draining := true }, true) := by
          unfold testInbuf Fifo.readSpace
          simp only
          rw [if_pos ⟨by omega, h.draining⟩, if_neg (by simpa [Option.isNone_iff_eq_none, Option.isSome_iff_ne_none] using h.inputSize),
            if_neg (by omega), if_pos (by omega)]
        have : chunkRound p env z incs cd = chunkRound p env z incs { cd with draining := true } := by
          unfold chunkRound
          rw [e, testInbuf_draining z (cd := { cd with draining := true }) rfl]
        rw [this]
      · rw [← hj]
        have e : ({ cd with draining := true } : Chan α σ ρ).syn = (synAt env z incs x₀ X j).1 := h.syn
        have e2 : ({ cd with draining := true } : Chan α σ ρ).accumulatorFill = (synAt env z incs x₀ X j).1.fill := congrArg Syn.fill h.syn
        rw [e, e2] at b2
        exact b2

theorem ended_loop {p : Params} {env : Env α σ ρ κ} {z : Sizes} {incs : List Int} (hp : Fine p z incs) {cd : Chan α σ ρ} {heard r : List α}
    (h : Ended z cd heard r) (fuel : Nat) : ∃ cd', chunkLoop p env z incs (fuel + 1) cd = some cd' ∧ Ended z cd' heard r := by
  obtain ⟨cd', a1, a2, a3, a4, a5, a6, a7, a8⟩ := round_idle (p := p) (env := env) hp.inc_le hp.short' h.draining h.fill
  refine ⟨cd', ?_, ⟨by rw [a2]; exact h.heard, by rw [a8]; exact h.inputSize, a5, by rw [a7]; exact h.complete, a6⟩⟩
  unfold chunkLoop
  rw [a1]
  rfl

end Verif.R2
