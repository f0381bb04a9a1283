import Verif.R2ResetProps
/-!
# The faster engine: studying, frame by frame
-/
namespace Verif.R2
open Verif.Round Verif.StretchCalc

variable {α σ ρ κ : Type}

/-- A frame studied. -/
def studyFrame (env : Env α σ ρ κ) (z : Sizes) (frame : List α) (x : State α σ ρ κ × Chan α σ ρ) : State α σ ρ κ × Chan α σ ρ :=
  ({ x.1 with
      curves := (env.studyCurve x.1.curves x.2.spec frame).1,
      phaseResetDf := x.1.phaseResetDf ++ [(env.studyCurve x.1.curves x.2.spec frame).2.2.2.1],
      silence := x.1.silence ++ [(env.studyCurve x.1.curves x.2.spec frame).2.2.2.2],
      inputDuration := x.1.inputDuration + z.increment },
    { x.2 with spec := (env.studyCurve x.1.curves x.2.spec frame).2.1, fltbuf := fun i => if i ≤ x.1.sizes.fftSize / 2 then (env.studyCurve x.1.curves x.2.spec frame).2.2.1 i else x.2.fltbuf i })

/-- The first `j` frames of `X` studied. -/
def studyAt (env : Env α σ ρ κ) (z : Sizes) (x : State α σ ρ κ × Chan α σ ρ) (X : List α) : Nat → State α σ ρ κ × Chan α σ ρ
  | 0 => x
  | j + 1 => studyFrame env z ((X.drop (j * z.increment)).take z.window) (studyAt env z x X j)

/-- The same, with other contents of the input buffer. -/
def holding (x : State α σ ρ κ × Chan α σ ρ) (data : List α) : State α σ ρ κ × Chan α σ ρ := (x.1, { x.2 with inbuf := ⟨x.2.inbuf.cap, data⟩ })

/-- What studying does not change. -/
structure Unmoved (x y : State α σ ρ κ × Chan α σ ρ) : Prop where
  sizes : y.1.sizes = x.1.sizes
  mode : y.1.mode = x.1.mode
  chans : y.1.chans = x.1.chans
  calculator : y.1.calculator = x.1.calculator
  incs : y.1.outputIncrements = x.1.outputIncrements
  cap : y.2.inbuf.cap = x.2.inbuf.cap

theorem Unmoved.refl (x : State α σ ρ κ × Chan α σ ρ) : Unmoved x x := ⟨rfl, rfl, rfl, rfl, rfl, rfl⟩

theorem Unmoved.trans {x y w : State α σ ρ κ × Chan α σ ρ} (h : Unmoved x y) (h' : Unmoved y w) : Unmoved x w :=
  ⟨h'.1.trans h.1, h'.2.trans h.2, h'.3.trans h.3, h'.4.trans h.4, h'.5.trans h.5, h'.6.trans h.6⟩

theorem studyAt_unmoved (env : Env α σ ρ κ) (z : Sizes) (x : State α σ ρ κ × Chan α σ ρ) (X : List α) : ∀ j, Unmoved x (studyAt env z x X j) := by
  intro j
  induction j with
  | zero => exact Unmoved.refl x
  | succ j ih => exact ih.trans ⟨rfl, rfl, rfl, rfl, rfl, rfl⟩

theorem studyAt_count (env : Env α σ ρ κ) (z : Sizes) (x : State α σ ρ κ × Chan α σ ρ) (X : List α) : ∀ j,
    (studyAt env z x X j).1.phaseResetDf.length = x.1.phaseResetDf.length + j := by
  intro j
  induction j with
  | zero => rfl
  | succ j ih =>
    unfold studyAt studyFrame
    simp only [List.length_append, ih, List.length_cons, List.length_nil]
    omega

theorem studyAt_append (env : Env α σ ρ κ) (z : Sizes) (x : State α σ ρ κ × Chan α σ ρ) (X Y : List α) : ∀ j,
    (∀ i, i < j → i * z.increment + z.window ≤ X.length) → studyAt env z x (X ++ Y) j = studyAt env z x X j := by
  intro j
  induction j with
  | zero => intro _; rfl
  | succ j ih =>
    intro h
    unfold studyAt
    rw [ih fun i hi => h i (by omega)]
    have hj := h j (by omega)
    have e : ((X ++ Y).drop (j * z.increment)).take z.window = (X.drop (j * z.increment)).take z.window := by
      rw [List.drop_append_of_le_length (by omega), List.take_append_of_le_length (by rw [List.length_drop]; omega)]
    rw [e]

/-- How much there must be for a frame. -/
def limit (z : Sizes) (final : Bool) : Nat := if final then z.window / 2 else z.window

theorem limit_le (z : Sizes) (final : Bool) : z.window / 2 ≤ limit z final ∧ limit z final ≤ z.window := by
  unfold limit
  split <;> omega

/-- The test of the inner loop of `study`. -/
theorem limit_iff (z : Sizes) (final : Bool) (n : Nat) : (n ≥ z.window ∨ (final = true ∧ n ≥ z.window / 2)) ↔ limit z final ≤ n := by
  unfold limit
  cases final
  · simp
  · simp; omega

theorem studyLoop_frames (env : Env α σ ρ κ) {z : Sizes} (hi : 1 ≤ z.increment) (hw : 2 * z.increment ≤ z.window) {x : State α σ ρ κ × Chan α σ ρ} (hz : x.1.sizes = z)
    (X : List α) (final : Bool) : ∀ (fuel j : Nat), j * z.increment ≤ X.length → X.length - j * z.increment < fuel →
    ∃ j', j ≤ j' ∧ studyLoop env final fuel (holding (studyAt env z x X j) (X.drop (j * z.increment))).1 (holding (studyAt env z x X j) (X.drop (j * z.increment))).2 =
        some (holding (studyAt env z x X j') (X.drop (j' * z.increment))) ∧ j' * z.increment ≤ X.length ∧ X.length < j' * z.increment + limit z final ∧
      ∀ i, j ≤ i → i < j' → i * z.increment + limit z final ≤ X.length := by
  have hl := limit_le z final
  intro fuel
  induction fuel with
  | zero => intro j _ h; omega
  | succ fuel ih =>
    intro j h1 h2
    unfold studyLoop
    have hs : (holding (studyAt env z x X j) (X.drop (j * z.increment))).1.sizes = z := (studyAt_unmoved env z x X j).sizes.trans hz
    have hd : (holding (studyAt env z x X j) (X.drop (j * z.increment))).2.inbuf.readSpace = X.length - j * z.increment := by
      unfold holding Fifo.readSpace
      simp only [List.length_drop]
    rw [hs, hd]
    simp only [limit_iff]
    split
    · rename_i hc
      have e : (j + 1) * z.increment = j * z.increment + z.increment := by rw [Nat.succ_mul]
      obtain ⟨j', a1, a2, a3, a4, a5⟩ := ih (j + 1) (by omega) (by omega)
      refine ⟨j', by omega, ?_, a3, a4, ?_⟩
      · rw [← a2]
        have hpeek : (holding (studyAt env z x X j) (X.drop (j * z.increment))).2.inbuf.peek z.window = (X.drop (j * z.increment)).take z.window := rfl
        rw [hpeek]
        unfold holding Fifo.skip
        simp only
        conv_rhs => unfold studyAt studyFrame
        simp only [List.drop_drop, show (studyAt env z x X j).1.sizes = z from hs]
        rw [e]
      · intro i h3 h4
        rcases Nat.eq_or_lt_of_le h3 with h5 | h5
        · subst h5; omega
        · exact a5 i (by omega) h4
    · rename_i hc
      exact ⟨j, le_refl _, rfl, h1, by omega, fun i h3 h4 => by omega⟩

theorem studyInput_frames (env : Env α σ ρ κ) {z : Sizes} (hi : 1 ≤ z.increment) (hw : 2 * z.increment ≤ z.window) {x : State α σ ρ κ × Chan α σ ρ} (hz : x.1.sizes = z)
    (hcap : 2 * z.window ≤ x.2.inbuf.cap) : ∀ (fuel : Nat) (rest X : List α) (j : Nat), rest.length ≤ fuel → j * z.increment ≤ X.length → X.length < j * z.increment + z.window →
    (∀ i, i < j → i * z.increment + z.window ≤ X.length) →
    ∃ j', studyInput env false fuel (holding (studyAt env z x X j) (X.drop (j * z.increment))).1 (holding (studyAt env z x X j) (X.drop (j * z.increment))).2 rest =
        some (holding (studyAt env z x (X ++ rest) j') ((X ++ rest).drop (j' * z.increment))) ∧ j' * z.increment ≤ (X ++ rest).length ∧
      (X ++ rest).length < j' * z.increment + z.window ∧ ∀ i, i < j' → i * z.increment + z.window ≤ (X ++ rest).length := by
  intro fuel
  induction fuel with
  | zero =>
    intro rest X j h1 h2 h3 h4
    have : rest = [] := List.eq_nil_of_length_eq_zero (by omega)
    subst this
    rw [List.append_nil]
    exact ⟨j, by unfold studyInput; rfl, h2, h3, h4⟩
  | succ fuel ih =>
    intro rest X j h1 h2 h3 h4
    unfold studyInput
    split
    · rename_i hr
      have : rest = [] := List.eq_nil_of_length_eq_zero hr
      subst this
      rw [List.append_nil]
      exact ⟨j, rfl, h2, h3, h4⟩
    · rename_i hr
      have hc : (holding (studyAt env z x X j) (X.drop (j * z.increment))).2.inbuf.cap = x.2.inbuf.cap := (studyAt_unmoved env z x X j).cap
      have hws : (holding (studyAt env z x X j) (X.drop (j * z.increment))).2.inbuf.writeSpace = x.2.inbuf.cap - (X.length - j * z.increment) := by
        unfold Fifo.writeSpace
        rw [hc]
        unfold holding
        simp only [List.length_drop]
      generalize hn : min (holding (studyAt env z x X j) (X.drop (j * z.increment))).2.inbuf.writeSpace rest.length = n
      have hn1 : 1 ≤ n := by omega
      have hn2 : n ≤ rest.length := by omega
      have hwr : (holding (studyAt env z x X j) (X.drop (j * z.increment))).2.inbuf.write (rest.take n) =
          ⟨x.2.inbuf.cap, (X ++ rest.take n).drop (j * z.increment)⟩ := by
        unfold Fifo.write
        rw [List.take_of_length_le (by rw [List.length_take]; omega), hc]
        congr 1
        unfold holding
        simp only
        rw [List.drop_append_of_le_length h2]
      simp only
      rw [hwr]
      have hst : ({ (holding (studyAt env z x X j) (X.drop (j * z.increment))).2 with inbuf := ⟨x.2.inbuf.cap, (X ++ rest.take n).drop (j * z.increment)⟩ } : Chan α σ ρ) =
          (holding (studyAt env z x (X ++ rest.take n) j) ((X ++ rest.take n).drop (j * z.increment))).2 := by
        rw [studyAt_append env z x X _ j h4]
        unfold holding
        simp only [(studyAt_unmoved env z x X j).cap]
      have hst1 : (holding (studyAt env z x X j) (X.drop (j * z.increment))).1 =
          (holding (studyAt env z x (X ++ rest.take n) j) ((X ++ rest.take n).drop (j * z.increment))).1 := by
        rw [studyAt_append env z x X _ j h4]
        rfl
      have hlen : (X ++ rest.take n).length = X.length + n := by rw [List.length_append, List.length_take]; omega
      obtain ⟨j₁, a1, a2, a3, a4, a5⟩ := studyLoop_frames env hi hw hz (X ++ rest.take n) false
        ((⟨x.2.inbuf.cap, (X ++ rest.take n).drop (j * z.increment)⟩ : Fifo α).readSpace + 1) j (by omega)
        (by unfold Fifo.readSpace; simp only [List.length_drop]; omega)
      have hlim : limit z false = z.window := rfl
      rw [hlim] at a4 a5
      obtain ⟨j₂, b1, b2, b3, b4⟩ := ih (rest.drop n) (X ++ rest.take n) j₁ (by rw [List.length_drop]; omega) a3 a4 (by
        intro i hij
        rcases Nat.lt_or_ge i j with c | c
        · have := h4 i c
          omega
        · exact a5 i c hij)
      rw [List.append_assoc, List.take_append_drop] at b1 b2 b3 b4
      refine ⟨j₂, ?_, b2, b3, b4⟩
      rw [hst, hst1, a2]
      exact b1

/-! ## However long the last block is -/

theorem studyLoop_count (env : Env α σ ρ κ) (final : Bool) : ∀ (fuel : Nat) (s : State α σ ρ κ) (cd : Chan α σ ρ), 1 ≤ s.sizes.increment → 2 * s.sizes.increment ≤ s.sizes.window →
    cd.inbuf.data.length < fuel → ∃ r k, studyLoop env final fuel s cd = some r ∧ Unmoved (s, cd) r ∧ r.1.phaseResetDf.length = s.phaseResetDf.length + k ∧
      r.2.inbuf.data.length + k * s.sizes.increment = cd.inbuf.data.length ∧ r.2.inbuf.data.length < limit s.sizes final ∧
      (1 ≤ k → (k - 1) * s.sizes.increment + limit s.sizes final ≤ cd.inbuf.data.length) := by
  intro fuel
  induction fuel with
  | zero => intro s cd _ _ h; omega
  | succ fuel ih =>
    intro s cd hi hw h
    have hl := limit_le s.sizes final
    unfold studyLoop
    simp only [limit_iff]
    split
    · rename_i hc
      unfold Fifo.readSpace at hc
      let q := env.studyCurve s.curves cd.spec (cd.inbuf.peek s.sizes.window)
      obtain ⟨r, k, a1, a2, a3, a4, a5, a6⟩ := ih
        { s with curves := q.1, phaseResetDf := s.phaseResetDf ++ [q.2.2.2.1], silence := s.silence ++ [q.2.2.2.2], inputDuration := s.inputDuration + s.sizes.increment }
        { cd with spec := q.2.1, fltbuf := fun i => if i ≤ s.sizes.fftSize / 2 then q.2.2.1 i else cd.fltbuf i, inbuf := cd.inbuf.skip s.sizes.increment } hi hw (by unfold Fifo.skip; simp only [List.length_drop]; omega)
      refine ⟨r, k + 1, a1, ⟨a2.1, a2.2, a2.3, a2.4, a2.5, a2.6⟩, ?_, ?_, a5, ?_⟩
      · rw [a3]; simp only [List.length_append, List.length_cons, List.length_nil]; omega
      · simp only [Fifo.skip, List.length_drop] at a4
        rw [Nat.succ_mul]
        omega
      · intro _
        simp only [Fifo.skip, List.length_drop] at a6
        cases k with
        | zero => simp; omega
        | succ k =>
          have := a6 (by omega)
          simp only [Nat.add_sub_cancel] at this ⊢
          rw [Nat.succ_mul]
          omega
    · rename_i hc
      unfold Fifo.readSpace at hc
      exact ⟨(s, cd), 0, rfl, Unmoved.refl _, rfl, by simp, by simp only; omega, fun h => by omega⟩

theorem studyInput_count (env : Env α σ ρ κ) (final : Bool) : ∀ (fuel : Nat) (s : State α σ ρ κ) (cd : Chan α σ ρ) (rest : List α), 1 ≤ s.sizes.increment →
    2 * s.sizes.increment ≤ s.sizes.window → 2 * s.sizes.window ≤ cd.inbuf.cap → cd.inbuf.data.length < s.sizes.window → rest.length ≤ fuel →
    ∃ r k, studyInput env final fuel s cd rest = some r ∧ Unmoved (s, cd) r ∧ r.1.phaseResetDf.length = s.phaseResetDf.length + k ∧
      r.2.inbuf.data.length + k * s.sizes.increment = cd.inbuf.data.length + rest.length ∧ (rest ≠ [] → r.2.inbuf.data.length < limit s.sizes final) ∧
      (1 ≤ k → (k - 1) * s.sizes.increment + limit s.sizes final ≤ cd.inbuf.data.length + rest.length) := by
  intro fuel
  induction fuel with
  | zero =>
    intro s cd rest _ _ _ _ h
    have : rest = [] := List.eq_nil_of_length_eq_zero (by omega)
    subst this
    exact ⟨(s, cd), 0, rfl, Unmoved.refl _, rfl, by simp, fun h => absurd rfl h, fun h => by omega⟩
  | succ fuel ih =>
    intro s cd rest hi hw hc hd h
    unfold studyInput
    split
    · rename_i hr
      have : rest = [] := List.eq_nil_of_length_eq_zero hr
      subst this
      exact ⟨(s, cd), 0, rfl, Unmoved.refl _, rfl, by simp, fun h => absurd rfl h, fun h => by omega⟩
    · rename_i hr
      have hl := limit_le s.sizes final
      have hws : cd.inbuf.writeSpace = cd.inbuf.cap - cd.inbuf.data.length := rfl
      generalize hn : min cd.inbuf.writeSpace rest.length = n
      have hn1 : 1 ≤ n := by omega
      have hn2 : n ≤ rest.length := by omega
      have hwr : (cd.inbuf.write (rest.take n)).data.length = cd.inbuf.data.length + n := by
        unfold Fifo.write
        simp only [List.length_append, List.length_take]
        omega
      obtain ⟨r, k, a1, a2, a3, a4, a5, a6⟩ := studyLoop_count env final (({ cd with inbuf := cd.inbuf.write (rest.take n) } : Chan α σ ρ).inbuf.readSpace + 1) s
        { cd with inbuf := cd.inbuf.write (rest.take n) } hi hw (by unfold Fifo.readSpace; simp only; omega)
      simp only at a4 a6
      rw [hwr] at a4 a6
      have hsz : r.1.sizes = s.sizes := a2.sizes
      have hcap : r.2.inbuf.cap = cd.inbuf.cap := a2.cap
      obtain ⟨r', k', b1, b2, b3, b4, b5, b6⟩ := ih r.1 r.2 (rest.drop n) (by rw [hsz]; exact hi) (by rw [hsz]; exact hw) (by rw [hsz, hcap]; exact hc)
        (by rw [hsz]; omega) (by rw [List.length_drop]; omega)
      rw [hsz] at b4 b5 b6
      rw [List.length_drop] at b4 b6
      refine ⟨r', k + k', ?_, ?_, by omega, ?_, ?_, ?_⟩
      · simp only
        rw [a1]
        exact b1
      · have a2' : Unmoved (s, cd) r := ⟨a2.1, a2.2, a2.3, a2.4, a2.5, a2.6⟩
        exact a2'.trans ⟨b2.1, b2.2, b2.3, b2.4, b2.5, b2.6⟩
      · rw [Nat.add_mul]; omega
      · intro _
        by_cases hne : rest.drop n = []
        · have : studyInput env final fuel r.1 r.2 (rest.drop n) = some r := by
            rw [hne]
            unfold studyInput
            cases fuel <;> rfl
          rw [this] at b1
          cases b1
          exact a5
        · exact b5 hne
      · intro hk
        rcases Nat.eq_zero_or_pos k' with c | c
        · subst c
          have := a6 (by omega)
          simp only [Nat.add_zero]
          omega
        · have := b6 c
          have e : k + k' - 1 = k + (k' - 1) := by omega
          rw [e, Nat.add_mul]
          omega

end Verif.R2
