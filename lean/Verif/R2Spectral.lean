import Verif.R2Flow
import Verif.R2ModifyProps
import Mathlib.Analysis.SpecialFunctions.Trigonometric.Basic
import Mathlib.Algebra.BigOperators.Intervals
import Mathlib.Data.List.GetD
/-!
# The spectral part of the faster engine over the reals

The parts of `Env` that the model of the engine leaves open are given here: windows, accumulators and what is done with them, over the reals, with
`modifyChunk` as in `R2Modify`.  Without `OptionSmoothingOn` (so `m_aWindowSize = m_sWindowSize = m_fftSize`).  What remains open is the transform itself and what is done to the magnitudes
to preserve formants (`Spectra`); the resampler and the audio curves are those of any other `Env`.
-/
namespace Verif.R2

/-- Window.h:149-150 and 257-266: the Hann window of size `n`. -/
noncomputable def hann (n i : Nat) : ℝ := 1 / 2 - 1 / 2 * Real.cos (2 * Real.pi * i / n)

/-- Window.h:249-253 `m_area`. -/
noncomputable def area (n : Nat) : ℝ := (∑ i ∈ Finset.range n, hann n i) / n

/-- What is left open: `FFT::forwardPolar`, `FFT::inversePolar` (see C79 and C80 for those), and the change of the magnitudes in
`formantShiftChunk` (StretcherProcess.cpp:904-960). -/
structure Spectra where
  forward : (Nat → ℝ) → (Nat → ℝ) × (Nat → ℝ)
  inverse : (Nat → ℝ) → (Nat → ℝ) → Nat → ℝ
  formants : (Nat → ℝ) → Nat → ℝ

/-- The spectral state of a channel, StretcherChannelData.h:89-116: `mag`; the phases and flags of `modifyChunk`; `accumulator` and
`windowAccumulator`. -/
structure Spec where
  mag : Nat → ℝ
  mod : R2Modify.Chan ℝ
  acc : Nat → ℝ
  wacc : Nat → ℝ

/-- StretcherChannelData.cpp:255-282 `reset`. -/
noncomputable def Spec.reset (s : Spec) : Spec :=
  { s with
    mod := R2Modify.reset s.mod
    acc := fun _ => 0
    wacc := fun i => if i = 0 then 1 else 0 }

/-- StretcherChannelData.cpp:113-201 `setSizes`. -/
noncomputable def Spec.setSizes (s : Spec) : Spec := { s with mag := fun _ => 0, mod := R2Modify.setSizes s.mod }

/-- Window.h:77-79 `cut`. -/
noncomputable def cut (n : Nat) (x : Nat → ℝ) : Nat → ℝ := fun i => if i < n then x i * hann n i else x i

/-- The halves exchanged: R2Stretcher.h:141-143, and StretcherProcess.cpp:992-994. -/
def swapped (n : Nat) (x : Nat → ℝ) : Nat → ℝ := fun i => if i < n / 2 then x (i + n / 2) else x (i - n / 2)

/-- StretcherProcess.cpp:724-743 `analyseChunk`, the size being that of the frame.  (What is in `fltbuf` after the frame is not used again.) -/
noncomputable def Spec.analyse (f : Spectra) (s : Spec) (frame : List ℝ) : Spec × (Nat → ℝ) :=
  let x := cut frame.length fun i => frame.getD i 0
  let y := f.forward (swapped frame.length x)
  ({ s with mag := y.1, mod := { s.mod with phase := y.2 } }, x)

/-- StretcherProcess.cpp:962-1031 `synthesiseChunk`, after `modifyChunk`: `fltbuf` before it is cut. -/
noncomputable def resynthesised (f : Spectra) (q : R2Modify.Conf) (s : Spec) (flt : Nat → ℝ) : Nat → ℝ :=
  let mag := if q.formant then f.formants s.mag else s.mag
  if s.mod.unchanged then flt else swapped q.fftSize (f.inverse (fun i => mag i * (1 / q.fftSize)) s.mod.phase)

/-- StretcherProcess.cpp:1016-1018 and 1028: added to the accumulators. -/
noncomputable def Spec.add (n : Nat) (s : Spec) (flt : Nat → ℝ) : Spec :=
  { s with
    acc := fun i => if i < n then s.acc i + flt i else s.acc i
    wacc := fun i => if i < n then s.wacc i + hann n i * (area n * (3 / 2)) else s.wacc i }

/-- `modifyChunk` and `synthesiseChunk`. -/
noncomputable def Spec.synthesise (f : Spectra) (q : R2Modify.Conf) (s : Spec) (flt : Nat → ℝ) (phaseIncrement : Nat) (reset : Bool) : Spec × (Nat → ℝ) :=
  let s := { s with mod := R2Modify.chunk Real.pi s.mod ⟨q, phaseIncrement, reset, s.mod.phase⟩ }
  let x := cut q.fftSize (resynthesised f q s flt)
  (s.add q.fftSize x, x)

/-- StretcherProcess.cpp:1106-1110: one of the accumulators moved up. -/
noncomputable def moved (fill d : Nat) (x : Nat → ℝ) : Nat → ℝ := fun i => if i + d < fill then x (i + d) else if i < fill then 0 else x i

/-- The environment for a configuration.  That is fixed here, whereas ratios and sizes may be changed before processing begins (and not once it has
begun); what the accumulators are before that does not matter, see `fresh_start`. -/
noncomputable def realEnv {ρ κ : Type} (f : Spectra) (q : R2Modify.Conf) (base : Env ℝ Spec ρ κ) : Env ℝ Spec ρ κ :=
  { base with
    specInit := ⟨fun _ => 0, R2Modify.create, fun _ => 0, fun i => if i = 0 then 1 else 0⟩
    specReset := Spec.reset
    specSizes := fun s _ _ => s.setSizes
    analyse := Spec.analyse f
    synthesise := fun s flt phaseIncrement _ reset => s.synthesise f q flt phaseIncrement reset
    emit := fun s i => s.acc i / s.wacc i
    shift := fun s fill d => { s with acc := moved fill d s.acc, wacc := moved fill d s.wacc }
    halve := fun x => x / 2 }

/-! ## The sums of windows -/

/-- The sum of the squares of the windows of the first `n` frames at a position (of the padded input), frames of size `w` being `h` apart. -/
noncomputable def squares (w h n pos : Nat) : ℝ := ∑ m ∈ Finset.range n, if m * h ≤ pos ∧ pos < m * h + w then hann w (pos - m * h) * hann w (pos - m * h) else 0

/-- The sum of these windows. -/
noncomputable def windows (w h n pos : Nat) : ℝ := ∑ m ∈ Finset.range n, if m * h ≤ pos ∧ pos < m * h + w then hann w (pos - m * h) else 0

theorem squares_succ (w h n pos : Nat) : squares w h (n + 1) pos =
    squares w h n pos + if n * h ≤ pos ∧ pos < n * h + w then hann w (pos - n * h) * hann w (pos - n * h) else 0 := Finset.sum_range_succ ..

theorem windows_succ (w h n pos : Nat) : windows w h (n + 1) pos =
    windows w h n pos + if n * h ≤ pos ∧ pos < n * h + w then hann w (pos - n * h) else 0 := Finset.sum_range_succ ..

theorem squares_stable {w h n pos : Nat} (hp : pos < n * h) : ∀ k, squares w h (n + k) pos = squares w h n pos := by
  intro k
  induction k with
  | zero => rfl
  | succ k ih =>
    rw [← Nat.add_assoc, squares_succ, ih, if_neg, add_zero]
    have : n * h ≤ (n + k) * h := Nat.mul_le_mul_right _ (by omega)
    omega

theorem windows_stable {w h n pos : Nat} (hp : pos < n * h) : ∀ k, windows w h (n + k) pos = windows w h n pos := by
  intro k
  induction k with
  | zero => rfl
  | succ k ih =>
    rw [← Nat.add_assoc, windows_succ, ih, if_neg, add_zero]
    have : n * h ≤ (n + k) * h := Nat.mul_le_mul_right _ (by omega)
    omega

theorem squares_past {w h n pos : Nat} (hp : ∀ m < n, m * h + w ≤ pos) : squares w h n pos = 0 := by
  refine Finset.sum_eq_zero fun m hm => if_neg ?_
  have := hp m (Finset.mem_range.mp hm)
  omega

theorem windows_past {w h n pos : Nat} (hp : ∀ m < n, m * h + w ≤ pos) : windows w h n pos = 0 := by
  refine Finset.sum_eq_zero fun m hm => if_neg ?_
  have := hp m (Finset.mem_range.mp hm)
  omega

/-- What the sum of products is divided by, at a position: the sum of the windows, scaled, and 1 at position 0. -/
noncomputable def divisor (w h n pos : Nat) : ℝ := (if pos = 0 then 1 else 0) + windows w h n pos * (area w * (3 / 2))

/-! ## Frames at the distance they have in the input -/

/-- The accumulators after `n` frames, at position `b` of the input `X`, `fill` of them being filled. -/
structure Summed (w h : Nat) (X : List ℝ) (n b fill : Nat) (s : Spec) : Prop where
  acc : ∀ i, i < w → b + i < X.length → s.acc i = X.getD (b + i) 0 * squares w h n (b + i)
  wacc : ∀ i, i < w → s.wacc i = divisor w h n (b + i)
  flag : s.mod.unchanged = true
  past : ∀ m < n, m * h + w ≤ b + fill
  room : fill ≤ w

theorem moved_sum {w h : Nat} {X : List ℝ} {n b fill : Nat} {s : Spec} (hs : Summed w h X n b fill s) {d : Nat} (hd : d ≤ fill) (hd1 : 1 ≤ d) :
    Summed w h X n (b + d) (fill - d) { s with acc := moved fill d s.acc, wacc := moved fill d s.wacc } := by
  have hf := hs.room
  refine ⟨?_, ?_, hs.flag, fun m hm => by have := hs.past m hm; omega, by omega⟩
  · intro i hi hl
    simp only [moved]
    split
    · rw [hs.acc (i + d) (by omega) (by omega), show b + (i + d) = b + d + i by omega]
    · have z : squares w h n (b + d + i) = 0 := squares_past fun m hm => by have := hs.past m hm; omega
      split
      · rw [z, mul_zero]
      · have z' : squares w h n (b + i) = 0 := squares_past fun m hm => by have := hs.past m hm; omega
        rw [hs.acc i hi (by omega), z, z', mul_zero, mul_zero]
  · intro i hi
    simp only [moved]
    split
    · rw [hs.wacc (i + d) (by omega), show b + (i + d) = b + d + i by omega]
    · have z : windows w h n (b + d + i) = 0 := windows_past fun m hm => by have := hs.past m hm; omega
      have z1 : b + d + i ≠ 0 := by omega
      split
      · rw [divisor, z, if_neg z1, zero_mul, add_zero]
      · have z' : windows w h n (b + i) = 0 := windows_past fun m hm => by have := hs.past m hm; omega
        rw [hs.wacc i hi, divisor, divisor, z, z', if_neg z1, if_neg (by omega)]

theorem unchanged_chunk {q : R2Modify.Conf} (hq : q.formant = false) {c : R2Modify.Chan ℝ} (hc : c.unchanged = true) (reset : Bool) (phase : Nat → ℝ) :
    (R2Modify.chunk Real.pi c ⟨q, q.increment, reset, phase⟩).unchanged = true := by
  simp [R2Modify.chunk, R2Modify.modify, hq, hc]

/-- Each chunk is given as many samples as it has in the input. -/
def AllUnit (z : Sizes) (incs : List Int) : Prop := ∀ i ∈ incs, i.natAbs = z.increment

theorem pick_even {z : Sizes} {incs : List Int} (h : AllUnit z incs) (count : Nat) :
    (pick z incs count).2.phase = z.increment ∧ (pick z incs count).2.shift = z.increment := by
  unfold pick
  split
  · exact ⟨rfl, rfl⟩
  · rename_i hl
    have key : ∀ k, k < incs.length → (incs.getD k 0).natAbs = z.increment := by
      intro k hk
      rw [List.getD_eq_getElem?_getD, List.getElem?_eq_getElem hk]
      exact h _ (List.getElem_mem hk)
    exact ⟨key _ (by omega), key _ (by omega)⟩

section
variable {ρ κ : Type} {f : Spectra} {q : R2Modify.Conf} {base : Env ℝ Spec ρ κ} {z : Sizes} {incs : List Int} {X : List ℝ}

/-- The configuration is that of the sizes, without formant preservation. -/
structure Match (q : R2Modify.Conf) (z : Sizes) : Prop where
  size : q.fftSize = z.window
  increment : q.increment = z.increment
  formant : q.formant = false

theorem frame_sum (hq : Match q z) (he : AllUnit z incs) (h1 : 1 ≤ z.increment) (hw : z.increment ≤ z.window) {j : Nat} {x : Syn ℝ Spec}
    (hs : Summed z.window z.increment X j (j * z.increment) x.fill x.spec) :
    let r := frameStep (realEnv f q base) z incs ((X.drop (j * z.increment)).take z.window) x
    Summed z.window z.increment X (j + 1) ((j + 1) * z.increment) r.1.fill r.1.spec ∧ r.2.length = z.increment ∧
      ∀ i, i < z.increment → j * z.increment + i < X.length →
        r.2.getD i 0 = X.getD (j * z.increment + i) 0 * squares z.window z.increment (j + 1) (j * z.increment + i) /
          divisor z.window z.increment (j + 1) (j * z.increment + i) := by
  obtain ⟨e1, e2⟩ := pick_even he x.count
  have hf := hs.room
  intro r
  -- The state after synthesis.
  set a := (realEnv f q base).analyse x.spec ((List.range z.window).map fun i => ((X.drop (j * z.increment)).take z.window).getD i (x.flt i)) with ha
  set b := (realEnv f q base).synthesise a.1 a.2 z.increment z.increment (pick z incs x.count).2.reset with hb
  have er : r = (⟨(realEnv f q base).shift b.1 (max x.fill z.window) z.increment, b.2, max x.fill z.window - z.increment, (pick z incs x.count).1 + 1⟩,
      (List.range z.increment).map ((realEnv f q base).emit b.1)) := by
    show frameStep _ _ _ _ _ = _
    unfold frameStep
    simp only [e1, e2]
    rw [← ha]
  have hm : max x.fill z.window = z.window := by omega
  have aflt : ∀ i, i < z.window → j * z.increment + i < X.length → a.2 i = X.getD (j * z.increment + i) 0 * hann z.window i := by
    intro i hi hl
    have e : ((X.drop (j * z.increment)).take z.window).getD i (x.flt i) = X.getD (j * z.increment + i) 0 := by
      rw [List.getD_eq_getElem?_getD, List.getD_eq_getElem?_getD, List.getElem?_take_of_lt hi, List.getElem?_drop, List.getElem?_eq_getElem hl]
      rfl
    have ea : a.2 = cut ((List.range z.window).map fun i => ((X.drop (j * z.increment)).take z.window).getD i (x.flt i)).length
        fun i => ((List.range z.window).map fun i => ((X.drop (j * z.increment)).take z.window).getD i (x.flt i)).getD i 0 := rfl
    rw [ea]
    simp only [cut, List.length_map, List.length_range, hi, if_true]
    rw [List.getD_eq_getElem?_getD, List.getElem?_map, List.getElem?_range hi]
    simp only [Option.map_some, Option.getD_some, e]
  have amod : a.1.mod.unchanged = true := hs.flag
  have bmod : b.1.mod.unchanged = true := by
    show (R2Modify.chunk Real.pi a.1.mod ⟨q, z.increment, _, _⟩).unchanged = true
    rw [← hq.increment]
    exact unchanged_chunk hq.formant amod _ _
  have bsum : Summed z.window z.increment X (j + 1) (j * z.increment) z.window b.1 := by
    refine ⟨?_, ?_, bmod, ?_, le_rfl⟩
    · intro i hi hl
      have e : b.1.acc i = a.1.acc i + a.2 i * hann z.window i := by
        show (if i < q.fftSize then _ else _) = _
        rw [hq.size, if_pos hi]
        congr 1
        simp only [cut, hi, if_true]
        congr 1
        simp only [resynthesised]
        rw [if_pos]
        exact bmod
      have ea : a.1.acc i = x.spec.acc i := rfl
      rw [e, ea, hs.acc i hi hl, aflt i hi hl, squares_succ, if_pos (by omega), Nat.add_sub_cancel_left]
      ring
    · intro i hi
      have e : b.1.wacc i = x.spec.wacc i + hann z.window i * (area z.window * (3 / 2)) := by
        show (if i < q.fftSize then _ else _) = _
        rw [hq.size, if_pos hi]
        rfl
      have ew := windows_succ z.window z.increment j (j * z.increment + i)
      rw [if_pos (by omega), Nat.add_sub_cancel_left] at ew
      rw [e, hs.wacc i hi, divisor, divisor, ew]
      ring
    · intro m hm
      have : m * z.increment ≤ j * z.increment := Nat.mul_le_mul_right _ (by omega)
      omega
  have hmv := moved_sum bsum hw h1
  rw [er]
  refine ⟨?_, by simp, ?_⟩
  · simp only [hm]
    rw [Nat.succ_mul]
    exact hmv
  · intro i hi hl
    simp only
    rw [List.getD_eq_getElem?_getD, List.getElem?_map, List.getElem?_range hi]
    simp only [Option.map_some, Option.getD_some]
    show b.1.acc i / b.1.wacc i = _
    rw [bsum.acc i (by omega) hl, bsum.wacc i (by omega)]

theorem syn_sum (hq : Match q z) (he : AllUnit z incs) (h1 : 1 ≤ z.increment) (hw : z.increment ≤ z.window) {x₀ : Syn ℝ Spec}
    (h0 : Summed z.window z.increment X 0 0 x₀.fill x₀.spec) : ∀ j,
    let r := synAt (realEnv f q base) z incs x₀ X j
    Summed z.window z.increment X j (j * z.increment) r.1.fill r.1.spec ∧ r.2.length = j * z.increment ∧
      ∀ i, i < j * z.increment → i < X.length →
        r.2.getD i 0 = X.getD i 0 * squares z.window z.increment j i / divisor z.window z.increment j i := by
  intro j
  induction j with
  | zero =>
    refine ⟨?_, by simp [synAt], fun i hi => by omega⟩
    rw [Nat.zero_mul]
    exact h0
  | succ j ih =>
    obtain ⟨a1, a2, a3⟩ := ih
    obtain ⟨b1, b2, b3⟩ := frame_sum (f := f) (base := base) hq he h1 hw a1
    refine ⟨b1, ?_, ?_⟩
    · show (List.append _ _).length = _
      rw [List.append_eq]
      rw [List.length_append, a2, b2, Nat.succ_mul]
    · intro i hi hl
      show (List.append _ _).getD i 0 = _
      rw [List.append_eq]
      by_cases h : i < j * z.increment
      · rw [List.getD_append _ _ _ _ (by rw [a2]; exact h), a3 i h hl]
        rw [squares_stable h 1, divisor, divisor, windows_stable h 1]
      · rw [List.getD_append_right _ _ _ _ (by rw [a2]; omega), a2]
        have e : j * z.increment + (i - j * z.increment) = i := by omega
        rw [Nat.succ_mul] at hi
        rw [b3 (i - j * z.increment) (by omega) (by rw [e]; exact hl), e]

theorem drain_sum (he : AllUnit z incs) (h1 : 1 ≤ z.increment) {n : Nat} : ∀ (fuel : Nat) (x : Syn ℝ Spec) (b : Nat),
    Summed z.window z.increment X n b x.fill x.spec → x.fill ≤ fuel →
    (drain (realEnv f q base) z incs fuel x).length = x.fill ∧
      ∀ i, i < x.fill → b + i < X.length → (drain (realEnv f q base) z incs fuel x).getD i 0 =
        X.getD (b + i) 0 * squares z.window z.increment n (b + i) / divisor z.window z.increment n (b + i) := by
  intro fuel
  induction fuel with
  | zero =>
    intro x b _ hl
    exact ⟨by simp only [drain, List.length_nil]; omega, fun i hi => by omega⟩
  | succ fuel ih =>
    intro x b hs hl
    unfold drain
    split
    · rename_i h
      exact ⟨by rw [h]; rfl, fun i hi => by omega⟩
    · rename_i h
      obtain ⟨_, e2⟩ := pick_even he x.count
      have hd : drainBy z incs x = min x.fill z.increment := by
        unfold drainBy
        simp only [e2]
        rw [if_neg (by omega)]
      have hf := hs.room
      set a := (realEnv f q base).analyse x.spec ((List.range z.window).map x.flt) with ha
      have as : Summed z.window z.increment X n b x.fill a.1 := ⟨hs.acc, hs.wacc, hs.flag, hs.past, hs.room⟩
      have hmv := moved_sum as (d := min x.fill z.increment) (by omega) (by omega)
      have e : drainStep (realEnv f q base) z incs x = (⟨(realEnv f q base).shift a.1 x.fill (min x.fill z.increment), a.2,
          x.fill - min x.fill z.increment, (pick z incs x.count).1 + 1⟩, (List.range (min x.fill z.increment)).map ((realEnv f q base).emit a.1)) := by
        unfold drainStep
        simp only [hd]
        rw [← ha]
      rw [e]
      simp only
      obtain ⟨i1, i2⟩ := ih ⟨(realEnv f q base).shift a.1 x.fill (min x.fill z.increment), a.2,
          x.fill - min x.fill z.increment, (pick z incs x.count).1 + 1⟩ (b + min x.fill z.increment) hmv (by simp only; omega)
      refine ⟨?_, ?_⟩
      · rw [List.length_append, i1]
        simp only [List.length_map, List.length_range]
        omega
      · intro i hi hl'
        by_cases hlt : i < min x.fill z.increment
        · rw [List.getD_append _ _ _ _ (by simpa using hlt), List.getD_eq_getElem?_getD, List.getElem?_map, List.getElem?_range hlt]
          simp only [Option.map_some, Option.getD_some]
          show a.1.acc i / a.1.wacc i = _
          rw [as.acc i (by omega) hl', as.wacc i (by omega)]
        · rw [List.getD_append_right _ _ _ _ (by simp only [List.length_map, List.length_range]; omega)]
          simp only [List.length_map, List.length_range]
          have e' : b + min x.fill z.increment + (i - min x.fill z.increment) = b + i := by omega
          rw [i2 (i - min x.fill z.increment) (by simp only; omega) (by rw [e']; exact hl'), e']

/-- All that is made of an input: each sample of the (padded) input times a quotient of sums of windows. -/
theorem emission_sum (hq : Match q z) (he : AllUnit z incs) (h1 : 1 ≤ z.increment) (hw : z.increment ≤ z.window) {x₀ : Syn ℝ Spec} {input : List ℝ}
    (h0 : Summed z.window z.increment (List.replicate (z.window / 2) 0 ++ input) 0 0 x₀.fill x₀.spec) (i : Nat) (hi : i < z.window / 2 + input.length)
    (hl : i < (emission (realEnv f q base) z incs x₀ input).length) :
    (emission (realEnv f q base) z incs x₀ input).getD i 0 = (List.replicate (z.window / 2) 0 ++ input).getD i 0 *
      squares z.window z.increment (frames z input.length) i / divisor z.window z.increment (frames z input.length) i := by
  have hX : i < (List.replicate (z.window / 2) (0 : ℝ) ++ input).length := by simpa using hi
  obtain ⟨a1, a2, a3⟩ := syn_sum (f := f) (base := base) hq he h1 hw h0 (frames z input.length)
  obtain ⟨b1, b2⟩ := drain_sum (f := f) (q := q) (base := base) he h1 _ _ _ a1 le_rfl
  unfold emission at hl ⊢
  simp only at hl ⊢
  rw [List.length_append, a2, b1] at hl
  by_cases h : i < frames z input.length * z.increment
  · rw [List.getD_append _ _ _ _ (by rw [a2]; exact h), a3 i h hX]
  · rw [List.getD_append_right _ _ _ _ (by rw [a2]; omega), a2]
    have e : frames z input.length * z.increment + (i - frames z input.length * z.increment) = i := by omega
    rw [b2 _ (by omega) (by rw [e]; exact hX), e]

end
end Verif.R2
