import Verif.R2Modify
import Verif.PhaseUnity
/-!
# Phases of the faster engine: C81, C82, C83
-/
set_option linter.unusedSectionVars false
namespace Verif.R2Modify
open Verif.Round Verif.PhaseAdvance

variable {K : Type} [Field K] [LinearOrder K] [IsStrictOrderedRing K] [FloorRing K]

/-! ## The loop -/

/-- What the loop does to a bin: `s` is the state when the loop comes to bin `j`, `r` the state after the loop. -/
structure Visit (pi : K) (q : Conf) (b : Bands) (out : Nat) (s₀ r : Loop K) (j : Nat) (s : Loop K) : Prop where
  phase : s.phase j = s₀.phase j
  prevPhase : s.prevPhase j = s₀.prevPhase j
  prevError : s.prevError j = s₀.prevError j
  unwrapped : s.unwrapped j = s₀.unwrapped j
  instab : 0 ≤ s.prevInstability
  phase' : r.phase j = (step pi q b out j s).phase j
  prevPhase' : r.prevPhase j = (step pi q b out j s).prevPhase j
  prevError' : r.prevError j = (step pi q b out j s).prevError j
  unwrapped' : r.unwrapped j = (step pi q b out j s).unwrapped j

theorem step_other {pi : K} {q : Conf} {b : Bands} {out i j : Nat} (h : j ≠ i) (s : Loop K) :
    (step pi q b out i s).phase j = s.phase j ∧ (step pi q b out i s).prevPhase j = s.prevPhase j ∧
    (step pi q b out i s).prevError j = s.prevError j ∧ (step pi q b out i s).unwrapped j = s.unwrapped j := by
  unfold step
  simp only
  split <;> simp [store, h]

theorem step_instab {pi : K} {q : Conf} {b : Bands} {out i : Nat} {s : Loop K} (h : 0 ≤ s.prevInstability) :
    0 ≤ (step pi q b out i s).prevInstability := by
  unfold step
  simp only
  split
  · simpa [store] using h
  · simp only [instability]; exact abs_nonneg _

theorem step_full {pi : K} {q : Conf} {b : Bands} {out i : Nat} {s : Loop K} :
    (step pi q b out i s).fullReset = (s.fullReset && !(b.reset && !resetThis b i)) := by
  unfold step
  simp only
  split <;> simp [store]

theorem loop_above {pi : K} {q : Conf} {b : Bands} {out : Nat} : ∀ (i : Nat) {j : Nat} (_ : i < j) (s : Loop K),
    (loop pi q b out i s).phase j = s.phase j ∧ (loop pi q b out i s).prevPhase j = s.prevPhase j ∧
    (loop pi q b out i s).prevError j = s.prevError j ∧ (loop pi q b out i s).unwrapped j = s.unwrapped j
  | 0, j, h, s => step_other (by omega) s
  | i + 1, j, h, s => by
    have h1 := step_other (pi := pi) (q := q) (b := b) (out := out) (i := i + 1) (j := j) (by omega) s
    have h2 := loop_above (pi := pi) (q := q) (b := b) (out := out) i (j := j) (by omega) (step pi q b out (i + 1) s)
    rw [loop]
    exact ⟨h2.1.trans h1.1, h2.2.1.trans h1.2.1, h2.2.2.1.trans h1.2.2.1, h2.2.2.2.trans h1.2.2.2⟩

theorem loop_visit {pi : K} {q : Conf} {b : Bands} {out : Nat} : ∀ (i : Nat) (s₀ : Loop K), 0 ≤ s₀.prevInstability → ∀ j ≤ i,
    ∃ s, Visit pi q b out s₀ (loop pi q b out i s₀) j s
  | 0, s₀, h0, j, hj => by
    obtain rfl : j = 0 := by omega
    exact ⟨s₀, rfl, rfl, rfl, rfl, h0, rfl, rfl, rfl, rfl⟩
  | i + 1, s₀, h0, j, hj => by
    rcases Nat.lt_or_ge j (i + 1) with h | h
    · obtain ⟨s, v⟩ := loop_visit i (step pi q b out (i + 1) s₀) (step_instab h0) j (by omega)
      have h1 := step_other (pi := pi) (q := q) (b := b) (out := out) (i := i + 1) (j := j) (by omega) s₀
      exact ⟨s, v.phase.trans h1.1, v.prevPhase.trans h1.2.1, v.prevError.trans h1.2.2.1, v.unwrapped.trans h1.2.2.2, v.instab,
        v.phase', v.prevPhase', v.prevError', v.unwrapped'⟩
    · obtain rfl : j = i + 1 := by omega
      have h2 := loop_above (pi := pi) (q := q) (b := b) (out := out) i (j := i + 1) (by omega) (step pi q b out (i + 1) s₀)
      exact ⟨s₀, rfl, rfl, rfl, rfl, h0, h2.1, h2.2.1, h2.2.2.1, h2.2.2.2⟩

theorem loop_full {pi : K} {q : Conf} {b : Bands} {out : Nat} : ∀ (i : Nat) (s : Loop K),
    (loop pi q b out i s).fullReset = true → s.fullReset = true ∧ ∀ j ≤ i, b.reset = true → resetThis b j = true
  | 0, s, h => by
    rw [loop, step_full] at h
    simp only [Bool.and_eq_true, Bool.not_eq_true', Bool.and_eq_false_iff, Bool.not_eq_false'] at h
    refine ⟨h.1, fun j hj hb => ?_⟩
    obtain rfl : j = 0 := by omega
    rcases h.2 with h | h
    · rw [hb] at h; exact absurd h (by simp)
    · exact h
  | i + 1, s, h => by
    rw [loop] at h
    obtain ⟨h1, h2⟩ := loop_full i _ h
    rw [step_full] at h1
    simp only [Bool.and_eq_true, Bool.not_eq_true', Bool.and_eq_false_iff, Bool.not_eq_false'] at h1
    refine ⟨h1.1, fun j hj hb => ?_⟩
    rcases Nat.lt_or_ge j (i + 1) with hj' | hj'
    · exact h2 j (by omega) hb
    · obtain rfl : j = i + 1 := by omega
      rcases h1.2 with h | h
      · rw [hb] at h; exact absurd h (by simp)
      · exact h

/-- The error in phase of a bin. -/
def error (pi : K) (f : Frame K) (c : Chan K) (i : Nat) : K :=
  princarg pi (f.phase i - (c.prevPhase i + omega pi f.conf i))

/-- Whether `resetThis` holds for a bin. -/
def isReset (f : Frame K) (c : Chan K) (i : Nat) : Bool := resetThis (bands f.conf c.unityResetLow f.phaseReset) i

/-- What a chunk does to a bin. -/
structure BinFacts (pi : K) (c : Chan K) (f : Frame K) (i : Nat) : Prop where
  prevPhase : (chunk pi c f).prevPhase i = f.phase i
  same : (chunk pi c f).unwrapped i = (chunk pi c f).phase i
  reset : isReset f c i = true → (chunk pi c f).phase i = f.phase i ∧ (chunk pi c f).prevError i = 0
  err : isReset f c i = false → (chunk pi c f).prevError i = error pi f c i
  plain : isReset f c i = false → (f.conf.laminar = false ∨ error pi f c i = c.prevError i) →
    (chunk pi c f).phase i = c.unwrapped i + f.outputIncrement * ((omega pi f.conf i + error pi f c i) / f.conf.increment)

theorem chunk_bin (pi : K) (c : Chan K) (f : Frame K) {i : Nat} (hi : i ≤ f.conf.fftSize / 2) : BinFacts pi c f i := by
  obtain ⟨s, v⟩ := loop_visit (pi := pi) (q := f.conf) (b := bands f.conf c.unityResetLow f.phaseReset) (out := f.outputIncrement) (f.conf.fftSize / 2)
    { phase := f.phase, prevPhase := c.prevPhase, prevError := c.prevError, unwrapped := c.unwrapped,
      prevInstability := 0, prevDirection := false, distance := 0, fullReset := f.phaseReset } le_rfl i hi
  obtain ⟨e1, e2, e3, e4, e5, e6, e7, e8, e9⟩ := v
  simp only at e1 e2 e3 e4
  have a6 : (chunk pi c f).phase i = _ := e6
  have a7 : (chunk pi c f).prevPhase i = _ := e7
  have a8 : (chunk pi c f).prevError i = _ := e8
  have a9 : (chunk pi c f).unwrapped i = _ := e9
  have he : ∀ x : Bool, perr pi f.conf { s with fullReset := x } i = error pi f c i := by
    intro x; simp only [perr, error, e1, e2]
  constructor
  · rw [a7]; unfold step; simp only; split <;> simp [store, e1]
  · rw [a9, a6]; unfold step; simp only; split <;> simp [store]
  · intro h
    have h : resetThis (bands f.conf c.unityResetLow f.phaseReset) i = true := h
    rw [a6, a8, step]
    simp [h, store, e1]
  · intro h
    have h : resetThis (bands f.conf c.unityResetLow f.phaseReset) i = false := h
    rw [a8, step]
    simp only [h, Bool.false_eq_true, if_false, store, Function.update_self, he]
  · intro h hl
    have h : resetThis (bands f.conf c.unityResetLow f.phaseReset) i = false := h
    rw [a6, step]
    simp only [h, Bool.false_eq_true, if_false, store, Function.update_self]
    rw [outphase, if_neg]
    · simp only [advance, he, e4]
    · intro hin
      unfold inherits at hin
      simp only [Bool.and_eq_true, decide_eq_true_eq] at hin
      rcases hl with hl | hl
      · rw [hl] at hin; simp at hin
      · have h1 := hin.2.1
        simp only [instability, he, e3] at h1
        rw [hl, sub_self, abs_zero] at h1
        exact absurd h1 (not_lt.mpr e5)

theorem chunk_unchanged {pi : K} {c : Chan K} {f : Frame K} (h : (chunk pi c f).unchanged = true) :
    f.conf.formant = false ∧ ((c.unchanged = true ∧ f.outputIncrement = f.conf.increment) ∨ ∀ i ≤ f.conf.fftSize / 2, isReset f c i = true) := by
  unfold chunk at h
  simp only [modify, Bool.and_eq_true, Bool.not_eq_true', Bool.or_eq_true, beq_iff_eq] at h
  refine ⟨h.2, h.1.imp id fun h => ?_⟩
  obtain ⟨h1, h2⟩ := loop_full _ _ h
  simp only at h1
  intro i hi
  refine h2 i hi ?_
  rw [bands]
  simp [h1]

/-- A chunk that does not reset phases and does not keep the increment does not leave the frame unchanged; nor does it if the frame before was not. -/
theorem chunk_changed {pi : K} {c : Chan K} {f : Frame K} (hr : f.phaseReset = false) (h : c.unchanged = false ∨ f.outputIncrement ≠ f.conf.increment) :
    (chunk pi c f).unchanged = false := by
  rw [← Bool.not_eq_true]
  intro hu
  unfold chunk at hu
  simp only [modify, Bool.and_eq_true, Bool.not_eq_true', Bool.or_eq_true, beq_iff_eq] at hu
  rcases hu.1 with hu | hu
  · rcases h with h | h
    · rw [h] at hu; simp at hu
    · exact h hu.2
  · have := (loop_full _ _ hu).1
    simp only at this
    rw [hr] at this; simp at this

/-! ## C81: a steady tone -/

theorem cong_eq {pi a b : K} (hpi : 0 < pi) (h : Cong pi a b) (h1 : -pi < b) (h2 : b ≤ pi) : princarg pi a = b := by
  obtain ⟨n, hn⟩ := (princarg_cong pi a).trans h
  obtain ⟨r1, r2⟩ := princarg_range hpi a
  have hlt : (n : K) * (2 * pi) < 1 * (2 * pi) := by rw [← hn]; linarith
  have hgt : (-1 : K) * (2 * pi) < (n : K) * (2 * pi) := by rw [← hn]; linarith
  have n1 : (n : K) < 1 := lt_of_mul_lt_mul_right hlt (by linarith)
  have n2 : (-1 : K) < n := lt_of_mul_lt_mul_right hgt (by linarith)
  have m1 : n < 1 := by exact_mod_cast n1
  have m2 : -1 < n := by exact_mod_cast n2
  obtain rfl : n = 0 := by omega
  simp at hn
  linarith

/-- A chunk of a stretcher with this FFT size and this increment, away from unity and without a phase reset. -/
structure Moving (n inc : Nat) (f : Frame K) : Prop where
  fft : f.conf.fftSize = n
  inc : f.conf.increment = inc
  away : f.conf.unity = false
  smooth : f.phaseReset = false

theorem Moving.notReset {n inc : Nat} {f : Frame K} (h : Moving n inc f) (c : Chan K) (i : Nat) : isReset f c i = false := by
  simp [isReset, bands, h.away, h.smooth, resetThis]

/-- The phases of bin `i` go on by `phi` from each frame to the next. -/
def Steady (pi phi : K) (i : Nat) : Frame K → List (Frame K) → Prop
  | _, [] => True
  | f, g :: l => Cong pi (g.phase i) (f.phase i + phi) ∧ Steady pi phi i g l

/-- The channel after these chunks. -/
def chunks (pi : K) (c : Chan K) (l : List (Frame K)) : Chan K := l.foldl (chunk pi) c

theorem steady_run {pi phi : K} (hpi : 0 < pi) {n inc i : Nat} (hn : i ≤ n / 2)
    (h1 : -pi < phi - 2 * pi * inc * i / n) (h2 : phi - 2 * pi * inc * i / n ≤ pi) : ∀ (l : List (Frame K)) (f : Frame K) (c : Chan K),
    (∀ g ∈ l, Moving n inc g) → Steady pi phi i f l → c.prevPhase i = f.phase i → c.prevError i = phi - 2 * pi * inc * i / n →
    (chunks pi c l).unwrapped i = c.unwrapped i + (l.map fun g => (g.outputIncrement : K)).sum * (phi / inc)
  | [], f, c, _, _, _, _ => by simp [chunks]
  | g :: l, f, c, hm, hs, hp, he => by
    have m := hm g (by simp)
    have bf := chunk_bin pi c g (i := i) (by rw [m.fft]; exact hn)
    have hr := m.notReset c i
    have ho : omega pi g.conf i = 2 * pi * inc * i / n := by rw [omega, m.inc, m.fft]
    have hee : error pi g c i = phi - 2 * pi * inc * i / n := by
      rw [error, hp, ho]
      refine cong_eq hpi ?_ h1 h2
      obtain ⟨k, hk⟩ := hs.1
      exact ⟨k, by linear_combination hk⟩
    have hph := bf.plain hr (.inr (by rw [hee, he]))
    rw [hee, ho, m.inc] at hph
    have ih := steady_run hpi hn h1 h2 l g (chunk pi c g) (fun g hg => hm g (by simp [hg])) hs.2 bf.prevPhase (by rw [bf.err hr, hee])
    have hc : chunks pi c (g :: l) = chunks pi (chunk pi c g) l := rfl
    rw [hc, ih, bf.same, hph]
    simp only [List.map_cons, List.sum_cons]
    ring

theorem chunks_changed {pi : K} {n inc : Nat} : ∀ (l : List (Frame K)) (c : Chan K), (∀ g ∈ l, Moving n inc g) → c.unchanged = false →
    (chunks pi c l).unchanged = false
  | [], _, _, h => h
  | g :: l, c, hm, h => chunks_changed l (chunk pi c g) (fun g hg => hm g (by simp [hg])) (chunk_changed (hm g (by simp)).smooth (.inl h))

/-- **C81**.  The phase of a bin with a steady tone in it (any frequency that the increment can tell from others: `phi` is what its phase goes on by
in an increment) goes on in what is put out by exactly that frequency times the distance in the output, from the second frame of the tone on, whatever
the distances of the frames in the output and whatever came before: stretching does not change the frequency. -/
theorem C81_steady {pi phi : K} (hpi : 0 < pi) {n inc i : Nat} (hn : i ≤ n / 2)
    (h1 : -pi < phi - 2 * pi * inc * i / n) (h2 : phi - 2 * pi * inc * i / n ≤ pi) {c : Chan K} {f0 f1 f : Frame K} {l : List (Frame K)}
    (h0 : f0.conf.fftSize = n) (hm : ∀ g ∈ f1 :: l ++ [f], Moving n inc g) (hs : Steady pi phi i f0 (f1 :: l ++ [f]))
    (hu : (chunk pi c f0).unchanged = false ∨ f1.outputIncrement ≠ inc) :
    put pi (chunks pi c (f0 :: f1 :: l)) f i =
      put pi (chunk pi c f0) f1 i + (((l ++ [f]).map fun g => g.outputIncrement).sum : Nat) / inc * phi := by
  have m1 := hm f1 (by simp)
  have b0 := chunk_bin pi c f0 (i := i) (by rw [h0]; exact hn)
  have b1 := chunk_bin pi (chunk pi c f0) f1 (i := i) (by rw [m1.fft]; exact hn)
  have c1 : (chunk pi (chunk pi c f0) f1).unchanged = false := chunk_changed m1.smooth (by rw [m1.inc]; exact hu)
  have ho : omega pi f1.conf i = 2 * pi * inc * i / n := by rw [omega, m1.inc, m1.fft]
  have e1 : (chunk pi (chunk pi c f0) f1).prevError i = phi - 2 * pi * inc * i / n := by
    rw [b1.err (m1.notReset _ _), error, b0.prevPhase, ho]
    refine cong_eq hpi ?_ h1 h2
    obtain ⟨k, hk⟩ := hs.1
    exact ⟨k, by linear_combination hk⟩
  have hm' : ∀ g ∈ l ++ [f], Moving n inc g := fun g hg => hm g (by rw [List.cons_append]; exact List.mem_cons_of_mem _ hg)
  have r := steady_run hpi hn h1 h2 (l ++ [f]) f1 (chunk pi (chunk pi c f0) f1) hm' hs.2 b1.prevPhase e1
  have cl := chunks_changed (pi := pi) (l ++ [f]) _ hm' c1
  have ec : chunks pi (chunk pi (chunk pi c f0) f1) (l ++ [f]) = chunk pi (chunks pi c (f0 :: f1 :: l)) f := by
    simp [chunks, List.foldl_append]
  rw [ec] at r cl
  have bf := chunk_bin pi (chunks pi c (f0 :: f1 :: l)) f (i := i) (by rw [(hm f (by simp)).fft]; exact hn)
  unfold put
  simp only [cl, c1, Bool.false_eq_true, if_false]
  rw [← bf.same, r, b1.same]
  have : ∀ l : List (Frame K), ((l.map fun g => (g.outputIncrement : K)).sum) = ((l.map fun g => g.outputIncrement).sum : Nat) := by
    intro l
    induction l with
    | nil => simp
    | cons a l ih => simp [ih]
  rw [this]
  ring

end Verif.R2Modify
