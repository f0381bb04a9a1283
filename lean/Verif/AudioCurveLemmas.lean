import Mathlib.Tactic.Linarith
import Mathlib.Tactic.FieldSimp
import Verif.AudioCurve
import Verif.MovingMedianProps
/-!
# Lemmas about the detection functions: the median filters replaced by the values they hold
-/
namespace Verif.AudioCurve
open Verif.MovingMedian

variable {K : Type} [Field K] [LinearOrder K] [IsStrictOrderedRing K]

theorem lastPerceivedBin_le (rate n : Nat) : lastPerceivedBin rate n ≤ n / 2 := by
  unfold lastPerceivedBin
  split
  · omega
  · split <;> omega

/-! ## The value at a percentile -/

omit [Field K] [IsStrictOrderedRing K] in
theorem rank_exists {w : List K} {k : Nat} (h : k < w.length) : ∃ v, IsRank w k v := by
  have hl : (w.mergeSort (· ≤ ·)).length = w.length := List.length_mergeSort w
  refine ⟨(w.mergeSort (· ≤ ·))[k]'(by omega), w.mergeSort (· ≤ ·), List.mergeSort_perm w _, ?_, List.getElem?_eq_getElem _⟩
  have := List.pairwise_mergeSort (le := fun a b : K => decide (a ≤ b)) (fun a b c h1 h2 => by simp at *; exact h1.trans h2) (fun a b => by simp; exact le_total a b) w
  exact this.imp (by simp)

omit [Field K] [IsStrictOrderedRing K] in
theorem rank_mem {w : List K} {k : Nat} {v : K} (h : IsRank w k v) : v ∈ w := by
  obtain ⟨s, h1, _, h3⟩ := h
  exact h1.mem_iff.mp (List.mem_of_getElem? h3)

theorem rank_lt {p : Rat} (h1 : p ≤ 100) {m : Nat} (hm : 0 < m) : rank p m < m := by
  unfold rank
  split
  · omega
  · have : ((m - 1 : Nat) : Rat) * p / 100 ≤ ((m - 1 : Nat) : Rat) := by
      rw [div_le_iff₀ (by norm_num)]
      exact mul_le_mul_of_nonneg_left h1 (by positivity)
    have h2 : (((m - 1 : Nat) : Rat) * p / 100).floor ≤ ((m - 1 : Nat) : Int) := by
      have h3 := Rat.floor_le (((m - 1 : Nat) : Rat) * p / 100)
      have : (((((m - 1 : Nat) : Rat) * p / 100).floor : Int) : Rat) ≤ (((m - 1 : Nat) : Int) : Rat) := by push_cast; exact h3.trans this
      exact_mod_cast this
    omega

open Classical in
/-- The value at a percentile. -/
noncomputable def pct (p : Rat) (w : List K) : K := if h : ∃ v, IsRank w (rank p w.length) v then h.choose else 0

omit [IsStrictOrderedRing K] in
theorem pct_eq {p : Rat} {w : List K} {v : K} (h : IsRank w (rank p w.length) v) : pct p w = v := by
  have e : ∃ v, IsRank w (rank p w.length) v := ⟨v, h⟩
  unfold pct
  rw [dif_pos e]
  exact C07_rank_unique e.choose_spec h

omit [IsStrictOrderedRing K] in
theorem pct_rank {p : Rat} (h1 : p ≤ 100) {w : List K} (hw : w ≠ []) : IsRank w (rank p w.length) (pct p w) := by
  obtain ⟨v, hv⟩ := rank_exists (rank_lt h1 (List.length_pos_iff.mpr hw))
  rw [pct_eq hv]
  exact hv

omit [IsStrictOrderedRing K] in
theorem pct_same {p : Rat} (h1 : p ≤ 100) {w : List K} (hw : w ≠ []) {x : K} (h : ∀ y ∈ w, y = x) : pct p w = x := h _ (rank_mem (pct_rank h1 hw))

theorem pct_scale {p : Rat} (h1 : p ≤ 100) {w : List K} (hw : w ≠ []) {g : K} (hg : 0 < g) : pct p (w.map (g * ·)) = g * pct p w := by
  obtain ⟨s, s1, s2, s3⟩ := pct_rank h1 hw
  refine pct_eq ⟨s.map (g * ·), s1.map _, ?_, ?_⟩
  · rw [List.pairwise_map]
    exact s2.imp fun h => mul_le_mul_of_nonneg_left h hg.le
  · rw [List.length_map, List.getElem?_map, s3]
    rfl

/-! ## The curve with the values its filters hold -/

/-- A curve, with the values held by the filters. -/
structure Held (K : Type) where
  kind : Kind
  rate : Nat
  bins : Nat
  prevMag : Nat → K
  hfs : List K
  derivs : List K
  lastHf : K
  lastResult : K
  risingCount : Nat

/-- What a filter of 19 values holds after another. -/
def pushed (w : List K) (x : K) : List K := (if w.length = 19 then w.tail else w) ++ [x]

omit [IsStrictOrderedRing K] [LinearOrder K] [Field K] in
theorem pushed_ne (w : List K) (x : K) : pushed w x ≠ [] := by unfold pushed; simp

/-- The result for a frame. -/
noncomputable def Held.result (a : Held K) (hf : K) : K :=
  excess hf (pct 85 (pushed a.hfs hf)) (hf - a.lastHf) (pct 90 (pushed a.derivs (hf - a.lastHf)))

/-- After a frame, when there is filtering. -/
noncomputable def Held.filter (a : Held K) (percussive hf : K) : Held K × K :=
  ({ a with
    hfs := pushed a.hfs hf
    derivs := pushed a.derivs (hf - a.lastHf)
    lastHf := hf
    lastResult := a.result hf
    risingCount := if a.result hf < a.lastResult then 0 else a.risingCount + 1 }, merged a.kind percussive (fallen (a.result hf) a.lastResult a.risingCount))

/-- After a frame. -/
noncomputable def Held.process (th : K) (a : Held K) (mag : Nat → K) : Held K × K :=
  match a.kind with
  | .percussive => ({ a with prevMag := remembered a.bins a.prevMag mag }, percussive th a.bins a.prevMag mag)
  | .compound => Held.filter { a with prevMag := remembered a.bins a.prevMag mag } (percussive th a.bins a.prevMag mag) (highFrequency a.bins mag)
  | .soft => a.filter 0 (highFrequency a.bins mag)

/-- After a call. -/
noncomputable def Held.step (th : K) (a : Held K) : Op K → Held K × List K
  | .process mag => ((a.process th mag).1, [(a.process th mag).2])
  | .reset => ({ a with prevMag := fun _ => 0, hfs := [], derivs := [], lastHf := 0, lastResult := 0 }, [])
  | .setFftSize n => ({ a with bins := lastPerceivedBin a.rate n, prevMag := fun _ => 0, lastHf := 0, lastResult := 0 }, [])
  | .setType k => ({ a with kind := k }, [])

/-- After some calls. -/
noncomputable def Held.run (th : K) (a : Held K) : List (Op K) → Held K × List K
  | [] => (a, [])
  | c :: cs => ((Held.run th (a.step th c).1 cs).1, (a.step th c).2 ++ (Held.run th (a.step th c).1 cs).2)

/-- The curve `s` holds these values. -/
structure Holds (s : Curve K) (a : Held K) : Prop where
  kind : s.kind = a.kind
  rate : s.rate = a.rate
  bins : s.bins = a.bins
  prevMag : s.prevMag = a.prevMag
  hfs : FInv 19 s.hfFilter a.hfs
  hfp : s.hfFilter.percentile = 85
  derivs : FInv 19 s.hfDerivFilter a.derivs
  derivp : s.hfDerivFilter.percentile = 90
  lastHf : s.lastHf = a.lastHf
  lastResult : s.lastResult = a.lastResult
  risingCount : s.risingCount = a.risingCount

/-- A new curve, with the values its filters hold. -/
def Held.create (rate fftSize : Nat) : Held K := ⟨.compound, rate, lastPerceivedBin rate fftSize, fun _ => 0, [], [], 0, 0, 0⟩

omit [IsStrictOrderedRing K] in
theorem holds_create (rate fftSize : Nat) : Holds (create rate fftSize : Curve K) (Held.create rate fftSize) :=
  ⟨rfl, rfl, rfl, rfl, init_spec _ _, rfl, init_spec _ _, rfl, rfl, rfl, rfl⟩

omit [IsStrictOrderedRing K] in
theorem holds_filter {s : Curve K} {a : Held K} (h : Holds s a) (hk : a.kind ≠ .percussive) (p hf : K) :
    ∃ s', processFiltering s p hf = some (s', (a.filter p hf).2) ∧ Holds s' (a.filter p hf).1 := by
  obtain ⟨f, f1, f2, f3⟩ := push_spec (by decide : 1 ≤ 19) h.hfs (some hf)
  obtain ⟨g, g1, g2, g3⟩ := push_spec (by decide : 1 ≤ 19) h.derivs (some (hf - a.lastHf))
  have e1 : windowStep 19 a.hfs (.push (some hf)) = pushed a.hfs hf := rfl
  have e2 : windowStep 19 a.derivs (.push (some (hf - a.lastHf))) = pushed a.derivs (hf - a.lastHf) := rfl
  rw [e1] at f3
  rw [e2] at g3
  rw [h.hfp] at f2
  rw [h.derivp] at g2
  obtain ⟨x, x1, x2⟩ := get_spec f3 (pushed_ne _ _) (by rw [f2]; norm_num) (by rw [f2]; norm_num)
  obtain ⟨y, y1, y2⟩ := get_spec g3 (pushed_ne _ _) (by rw [g2]; norm_num) (by rw [g2]; norm_num)
  rw [f2] at x2
  rw [g2] at y2
  unfold processFiltering
  rw [if_neg (by rw [h.kind]; exact hk)]
  simp only [Option.bind_eq_bind, f1, Option.bind_some, h.lastHf, g1, x1, y1, Option.pure_def, h.kind, h.lastResult, h.risingCount]
  rw [← pct_eq x2, ← pct_eq y2]
  refine ⟨_, rfl, ⟨rfl, h.rate, h.bins, h.prevMag, f3, f2, g3, g2, rfl, rfl, rfl⟩⟩

omit [IsStrictOrderedRing K] in
theorem holds_process (th : K) {s : Curve K} {a : Held K} (h : Holds s a) (mag : Nat → K) :
    ∃ s', process th s mag = some (s', (a.process th mag).2) ∧ Holds s' (a.process th mag).1 := by
  have hb : Holds { s with prevMag := remembered s.bins s.prevMag mag } { a with prevMag := remembered a.bins a.prevMag mag } :=
    ⟨h.kind, h.rate, h.bins, by rw [h.bins, h.prevMag], h.hfs, h.hfp, h.derivs, h.derivp, h.lastHf, h.lastResult, h.risingCount⟩
  cases hk : a.kind with
  | percussive =>
    have hs := h.kind.trans hk
    have e1 : process th s mag = some ({ s with prevMag := remembered s.bins s.prevMag mag }, percussive th a.bins a.prevMag mag) := by
      unfold process
      rw [← h.bins, ← h.prevMag]
      split <;> rename_i e <;> rw [hs] at e <;> first | exact absurd e (by decide) | skip
      unfold processFiltering
      exact if_pos hs
    have e2 : a.process th mag = ({ a with prevMag := remembered a.bins a.prevMag mag }, percussive th a.bins a.prevMag mag) := by
      unfold Held.process
      split <;> rename_i e <;> rw [hk] at e <;> exact absurd e (by decide)
    rw [e1, e2]
    exact ⟨_, rfl, hb⟩
  | compound =>
    have hs := h.kind.trans hk
    have e1 : process th s mag = processFiltering { s with prevMag := remembered s.bins s.prevMag mag } (percussive th a.bins a.prevMag mag) (highFrequency a.bins mag) := by
      unfold process
      rw [← h.bins, ← h.prevMag]
      split <;> rename_i e <;> rw [hs] at e <;> exact absurd e (by decide)
    have e2 : a.process th mag = Held.filter { a with prevMag := remembered a.bins a.prevMag mag } (percussive th a.bins a.prevMag mag) (highFrequency a.bins mag) := by
      unfold Held.process
      split <;> rename_i e <;> rw [hk] at e <;> exact absurd e (by decide)
    rw [e1, e2]
    exact holds_filter hb (by show a.kind ≠ _; rw [hk]; decide) _ _
  | soft =>
    have hs := h.kind.trans hk
    have e1 : process th s mag = processFiltering s 0 (highFrequency a.bins mag) := by
      unfold process
      rw [← h.bins]
      split <;> rename_i e <;> rw [hs] at e <;> exact absurd e (by decide)
    have e2 : a.process th mag = a.filter 0 (highFrequency a.bins mag) := by
      unfold Held.process
      split <;> rename_i e <;> rw [hk] at e <;> exact absurd e (by decide)
    rw [e1, e2]
    exact holds_filter h (by rw [hk]; decide) _ _

omit [IsStrictOrderedRing K] in
theorem holds_step (th : K) {s : Curve K} {a : Held K} (h : Holds s a) (c : Op K) :
    ∃ s', step th s c = some (s', (a.step th c).2) ∧ Holds s' (a.step th c).1 := by
  cases c with
  | process mag =>
    obtain ⟨s', h1, h2⟩ := holds_process th h mag
    refine ⟨s', ?_, h2⟩
    show Option.map _ (AudioCurve.process th s mag) = _
    rw [h1]
    rfl
  | reset =>
    exact ⟨_, rfl, ⟨h.kind, h.rate, h.bins, rfl, reset_spec h.hfs, h.hfp, reset_spec h.derivs, h.derivp, rfl, rfl, h.risingCount⟩⟩
  | setFftSize n =>
    exact ⟨_, rfl, ⟨h.kind, h.rate, by show lastPerceivedBin s.rate n = _; rw [h.rate]; rfl, rfl, h.hfs, h.hfp, h.derivs, h.derivp, rfl, rfl, h.risingCount⟩⟩
  | setType k =>
    exact ⟨_, rfl, ⟨rfl, h.rate, h.bins, h.prevMag, h.hfs, h.hfp, h.derivs, h.derivp, h.lastHf, h.lastResult, h.risingCount⟩⟩

omit [IsStrictOrderedRing K] in
theorem holds_run (th : K) : ∀ (cs : List (Op K)) {s : Curve K} {a : Held K}, Holds s a →
    ∃ s', run th s cs = some (s', (a.run th cs).2) ∧ Holds s' (a.run th cs).1 := by
  intro cs
  induction cs with
  | nil => intro s a h; exact ⟨s, rfl, h⟩
  | cons c cs ih =>
    intro s a h
    obtain ⟨s1, h1, h2⟩ := holds_step th h c
    obtain ⟨s2, h3, h4⟩ := ih h2
    refine ⟨s2, ?_, h4⟩
    unfold run
    rw [h1, Option.bind_some, h3]
    rfl

omit [IsStrictOrderedRing K] in
theorem Held.run_append (th : K) (cs ds : List (Op K)) (a : Held K) :
    a.run th (cs ++ ds) = (((a.run th cs).1.run th ds).1, (a.run th cs).2 ++ ((a.run th cs).1.run th ds).2) := by
  induction cs generalizing a with
  | nil => rfl
  | cons c cs ih =>
    simp only [List.cons_append, Held.run, ih, List.append_assoc]

end Verif.AudioCurve
