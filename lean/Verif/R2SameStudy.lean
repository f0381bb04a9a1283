import Verif.R2SameProps
import Verif.R2Reset
/-!
# The faster engine: channels given the same audio, after a study (for C114)
-/
namespace Verif.R2
open Verif.StretchCalc

variable {α σ ρ κ : Type}

/-- The channel is `x`, but for `prevIncrement` and the places up to `H` of the buffer for frames. -/
structure Near (H : Nat) (x cd : Chan α σ ρ) : Prop where
  above : ∀ i, H < i → cd.fltbuf i = x.fltbuf i
  rest : ({ cd.core with fltbuf := x.fltbuf } : Chan α σ ρ) = x

/-- The same, but for what a study changes as well. -/
structure Loose (env : Env α σ ρ κ) (H : Nat) (x cd : Chan α σ ρ) : Prop where
  above : ∀ i, H < i → cd.fltbuf i = x.fltbuf i
  spec : env.specReset cd.spec = env.specReset x.spec
  cap : cd.inbuf.cap = x.inbuf.cap
  rest : ({ cd.core with fltbuf := x.fltbuf, spec := x.spec, inbuf := x.inbuf } : Chan α σ ρ) = x

theorem Near.loose {env : Env α σ ρ κ} {H : Nat} {x cd : Chan α σ ρ} (h : Near H x cd) : Loose env H x cd := by
  obtain ⟨h1, h2⟩ := h
  have e1 : cd.spec = x.spec := by rw [← h2]
  have e2 : cd.inbuf = x.inbuf := by rw [← h2]
  exact ⟨h1, by rw [e1], by rw [e2], by rw [← e1, ← e2]; exact h2⟩

theorem near_of_core {H : Nat} {x cd : Chan α σ ρ} (h : cd.core = x) : Near H x cd := by
  subst h
  exact ⟨fun _ _ => rfl, rfl⟩

theorem Near.field {H : Nat} {x cd : Chan α σ ρ} (h : Near H x cd) : cd.inbuf = x.inbuf ∧ cd.outbuf = x.outbuf ∧ cd.draining = x.draining ∧ cd.inputSize = x.inputSize ∧ cd.inCount = x.inCount ∧
    cd.accumulatorFill = x.accumulatorFill := by
  obtain ⟨_, h2⟩ := h
  refine ⟨?_, ?_, ?_, ?_, ?_, ?_⟩ <;> rw [← h2]

section
variable [Zero α] {p : Params} {env : Env α σ ρ κ} {z : Sizes}

theorem Loose.prefill {H : Nat} {x cd : Chan α σ ρ} (h : Loose env H x cd) : Near H (Chan.prefill env z x).core (Chan.prefill env z cd) := by
  obtain ⟨h1, h2, h3, h4⟩ := h
  refine ⟨h1, ?_⟩
  have e1 : cd.outbuf = x.outbuf := by rw [← h4]
  have e2 : cd.resampler = x.resampler := by rw [← h4]
  have e3 : cd.resamplebufSize = x.resamplebufSize := by rw [← h4]
  unfold Chan.prefill Chan.reset
  simp only [Chan.core, e1, e2, e3, h2, Fifo.reset, h3]

omit [Zero α] in
theorem Loose.reset {H : Nat} {x cd : Chan α σ ρ} (h : Loose env H x cd) : Loose env H (Chan.reset env x).core (Chan.reset env cd) := by
  obtain ⟨h1, h2, h3, h4⟩ := h
  have e1 : cd.outbuf = x.outbuf := by rw [← h4]
  have e2 : cd.resampler = x.resampler := by rw [← h4]
  have e3 : cd.resamplebufSize = x.resamplebufSize := by rw [← h4]
  refine ⟨h1, ?_, h3, ?_⟩
  · exact congrArg env.specReset h2
  · unfold Chan.reset
    simp only [Chan.core, e1, e2, e3, h2, Fifo.reset]

omit [Zero α] in
theorem Loose.withResampler {H : Nat} {x cd : Chan α σ ρ} (h : Loose env H x cd) : Loose env H (Chan.withResampler p env z x).core (Chan.withResampler p env z cd) := by
  obtain ⟨h1, h2, h3, h4⟩ := h
  have e2 : cd.resampler = x.resampler := by rw [← h4]
  have e0 : x.prevIncrement = 0 := by rw [← h4]
  unfold Chan.withResampler
  rw [e2]
  split
  · refine ⟨h1, h2, h3, ?_⟩
    conv_rhs => rw [← h4]
  · exact ⟨h1, h2, h3, by conv_rhs => rw [← h4]⟩

omit [Zero α] in
theorem Loose.trans {H : Nat} {x y cd : Chan α σ ρ} (h : Loose env H x y) (h' : Loose env H y.core cd) : Loose env H x cd := by
  obtain ⟨h1, h2, h3, h4⟩ := h
  obtain ⟨k1, k2, k3, k4⟩ := h'
  refine ⟨fun i hi => (k1 i hi).trans (h1 i hi), k2.trans h2, k3.trans h3, ?_⟩
  rw [← h4]
  have := congrArg (fun c : Chan α σ ρ => ({ c with fltbuf := x.fltbuf, spec := x.spec, inbuf := x.inbuf } : Chan α σ ρ)) k4
  exact this

/-- What the code assures of the sizes. -/
structure Wide (z : Sizes) : Prop where
  window : 1 ≤ z.window
  fft : z.fftSize ≤ z.window

omit [Zero α] in
/-- Unless something is to be processed that does not reach beyond half a window, `processChunks` does the same to both, or nothing. -/
theorem chunks_near (hz : Wide z) {incs : List Int} {x cd : Chan α σ ρ} (h : Near (z.window / 2) x cd) (hd : x.draining = false) (hr : x.inputSize.isSome = true → z.window / 2 < x.inbuf.readSpace) :
    if (testInbuf z x).2 = true then processChunks p env z incs cd.core = processChunks p env z incs x
    else processChunks p env z incs cd = some cd ∧ processChunks p env z incs x = some x := by
  obtain ⟨f1, f2, f3, f4, f5, f6⟩ := h.field
  have hw := hz.window
  have ht : ∀ y : Chan α σ ρ, y.inbuf = x.inbuf → y.draining = x.draining → y.inputSize = x.inputSize → testInbuf z y = (y, (testInbuf z x).2) := by
    intro y y1 y2 y3
    have hnone : x.inputSize.isNone = !x.inputSize.isSome := by cases x.inputSize <;> rfl
    unfold testInbuf
    rw [y1, y2, y3, hnone]
    simp only
    cases hs : x.inputSize.isSome with
    | false => simp only [Bool.not_false, if_true]; split <;> rfl
    | true =>
      have := hr hs
      simp only [Bool.not_true, Bool.false_eq_true, if_false]
      have h0 : ¬ x.inbuf.readSpace = 0 := by omega
      have h1 : ¬ x.inbuf.readSpace < z.window / 2 := by omega
      simp only [h0, h1, if_false]
      split <;> rfl
  have hx := ht x rfl rfl rfl
  have hc := ht cd f1 f3 f4
  have hcc := ht cd.core f1 f3 f4
  split
  · rename_i hready
    have hlong : z.window / 2 < min z.window x.inbuf.readSpace := by
      cases hs : x.inputSize.isSome with
      | true => have := hr hs; omega
      | false =>
        have hnone : x.inputSize.isNone = true := by rw [← Option.not_isSome, hs]; rfl
        by_cases hlt : x.inbuf.readSpace < z.window
        · unfold testInbuf at hready
          simp only [hlt, hd, hnone, and_self, if_true, Bool.false_eq_true] at hready
        · omega
    have htake : takeFrame z cd.core = takeFrame z x := by
      unfold takeFrame
      have e1 : cd.core.draining = false := f3.trans hd
      rw [if_neg (by rw [e1]; simp), if_neg (by rw [hd]; simp)]
      simp only
      have hf : (fun i => (cd.core.inbuf.peek z.window).getD i (cd.core.fltbuf i)) = fun i => (x.inbuf.peek z.window).getD i (x.fltbuf i) := by
        funext i
        show (cd.inbuf.peek z.window).getD i (cd.fltbuf i) = _
        rw [f1]
        by_cases hi : z.window / 2 < i
        · rw [h.above i hi]
        · have hl : i < (x.inbuf.peek z.window).length := by
            unfold Fifo.peek
            unfold Fifo.readSpace at hlong
            rw [List.length_take]
            omega
          rw [List.getD_eq_getElem?_getD, List.getD_eq_getElem?_getD, List.getElem?_eq_getElem hl]
          rfl
      rw [hf]
      have hi : cd.core.inbuf = x.inbuf := f1
      rw [hi]
      have := congrArg (fun c : Chan α σ ρ => ({ c with fltbuf := fun i => (x.inbuf.peek z.window).getD i (x.fltbuf i), inbuf := x.inbuf.skip z.increment } : Chan α σ ρ)) h.rest
      exact this
    unfold processChunks
    rw [show cd.core.inbuf.readSpace + cd.core.accumulatorFill + z.window + 3 = x.inbuf.readSpace + x.accumulatorFill + z.window + 2 + 1 by
      show cd.inbuf.readSpace + cd.accumulatorFill + z.window + 3 = _
      rw [f1, f6]]
    rw [show x.inbuf.readSpace + x.accumulatorFill + z.window + 3 = x.inbuf.readSpace + x.accumulatorFill + z.window + 2 + 1 from rfl]
    rw [hready] at hcc hx
    have hround : chunkRound p env z incs cd.core = chunkRound p env z incs x := by
      unfold chunkRound
      rw [hcc, hx]
      simp only [if_true, htake]
    show (chunkRound p env z incs cd.core).bind _ = (chunkRound p env z incs x).bind _
    rw [hround]
  · rename_i hready
    have hready : (testInbuf z x).2 = false := by simpa using hready
    have go : ∀ y : Chan α σ ρ, testInbuf z y = (y, (testInbuf z x).2) → processChunks p env z incs y = some y := by
      intro y hy
      unfold processChunks
      rw [show y.inbuf.readSpace + y.accumulatorFill + z.window + 3 = y.inbuf.readSpace + y.accumulatorFill + z.window + 2 + 1 from rfl]
      unfold chunkLoop chunkRound
      rw [hy, hready]
      rfl
    exact ⟨go cd hc, go x hx⟩

end

end Verif.R2
