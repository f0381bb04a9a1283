import Verif.FFTProps
import Verif.Guide
import Verif.Round
/-!
# Formants

What both engines do to the magnitudes of a frame to keep or to move the formants: the cepstrum, cut off; the envelope; and the magnitudes set by it.  Over the reals and exact (the code uses `double`), with
the built-in Fourier transform.  `none` is an access outside an array.  Sample rate, pitch scale and formant scale are rational.
-/
namespace Verif.Formant
open Verif.FFT (Builtin times inverseCepstral transformF)
open Verif.MovingMedian (setAt)

noncomputable section

/-- An element multiplied by `x` (for division by 2: `x` is 1/2). -/
def scaleAt (x : ℝ) (i : Nat) (l : List ℝ) : Option (List ℝ) := do
  let v ← l[i]?
  setAt l i (v * x)

/-- `v_exp`, `v_square` and the like (VectorOps.h): the first `count` elements replaced by their values under `g`. -/
def applied (g : ℝ → ℝ) (count : Nat) (l : List ℝ) : Option (List ℝ) :=
  times count (fun i l => do
    let v ← l[i]?
    setAt l i (g v)) l

/-- R3Stretcher.cpp:1472-1477 (R3LiveShifter.cpp:1001-1006, StretcherProcess.cpp:923-930): the cepstrum cut off and scaled. -/
def cutOff (n cutoff : Nat) (cep : List ℝ) : Option (List ℝ) := do
  let cep ← scaleAt (1 / 2) 0 cep
  let cep ← if cutoff = 0 then none else scaleAt (1 / 2) (cutoff - 1) cep
  let cep ← times (n - cutoff) (fun i l => setAt l (cutoff + i) 0) cep
  times cutoff (scaleAt (1 / n)) cep

/-! ### The finer engine -/

/-- R3Stretcher.h:189-212 `FormantData`. -/
structure Data where
  fftSize : Nat
  cepstra : List ℝ
  envelope : List ℝ
  spare : List ℝ

/-- R3Stretcher.cpp:1469-1470. -/
def cutoff (rate : Rat) : Nat := if (rate / 650).floor < 1 then 1 else (rate / 650).floor.toNat

/-- R3Stretcher.cpp:1453-1487 `analyseFormant` (R3LiveShifter.cpp:982-1016), given the magnitudes of the scale of the size of the data and its FFT object. -/
def analyse (rate : Rat) (mag : List ℝ) (o : Builtin) (f : Data) : Option (Builtin × Data) := do
  let (o, cep) ← inverseCepstral o mag f.cepstra
  let cep ← cutOff f.fftSize (cutoff rate) cep
  let (o, envelope, spare) ← transformF o cep f.envelope f.spare
  let binCount := f.fftSize / 2 + 1
  let envelope ← applied Real.exp binCount envelope
  let envelope ← applied (fun v => v * v) binCount envelope
  let envelope ← applied (fun v => if v > 10 ^ 10 then 10 ^ 10 else v) binCount envelope
  some (o, { f with cepstra := cep, envelope := envelope, spare := spare })

/-- R3Stretcher.h:201-211 `envelopeAt`. -/
def envelopeAt (f : Data) (bin : Rat) : Option ℝ :=
  let b0 := bin.floor
  let b1 := bin.ceil
  if b0 < 0 ∨ b0 > (f.fftSize / 2 : Nat) then some 0
  else if b1 = b0 ∨ b1 > (f.fftSize / 2 : Nat) then f.envelope[b0.toNat]?
  else do
    let diff : ℝ := ((bin - b0 : Rat) : ℝ)
    let u ← f.envelope[b0.toNat]?
    let v ← f.envelope[b1.toNat]?
    some (u * (1 - diff) + v * diff)

/-- R3Stretcher.cpp:1515-1520: the ratio by which a magnitude is multiplied. -/
def limited (ratio : ℝ) : ℝ :=
  let ratio := if ratio < 1 / 60 then 1 / 60 else ratio
  if ratio > 60 then 60 else ratio

/-- R3Stretcher.cpp:1512-1521: bin `i`. -/
def adjustBin (f : Data) (sourceFactor targetFactor : Rat) (i : Nat) (mag : List ℝ) : Option (List ℝ) := do
  let source ← envelopeAt f (i * sourceFactor)
  let target ← envelopeAt f (i * targetFactor)
  if target > 0 then scaleAt (limited (source / target)) i mag else some mag

/-- R3Stretcher.cpp:1501-1521: a scale.  `b0min` is never negative. -/
def adjustScale (p : Guide.Params) (pitchScale formantScale : Rat) (f : Data) (fftSize : Nat) (mag : List ℝ) : Option (List ℝ) :=
  let highBin := ((fftSize * 10000 : Nat) / p.rate).floor
  let targetFactor : Rat := f.fftSize / fftSize
  let formantScale := if formantScale = 0 then 1 / pitchScale else formantScale
  let sourceFactor := targetFactor / formantScale
  (Guide.bandLimits p).foldlM (fun mag band =>
    if band.fftSize ≠ fftSize then some mag
    else times (min band.b1max highBin - band.b0min).toNat (fun j => adjustBin f sourceFactor targetFactor (band.b0min.toNat + j)) mag) mag

/-- R3Stretcher.cpp:1489-1524 `adjustFormant` (R3LiveShifter.cpp:1018-1053): all scales, by their size. -/
def adjust (p : Guide.Params) (pitchScale formantScale : Rat) (f : Data) : List (Nat × List ℝ) → Option (List (Nat × List ℝ))
  | [] => some []
  | (n, mag) :: scales => do
    let mag ← adjustScale p pitchScale formantScale f n mag
    let scales ← adjust p pitchScale formantScale f scales
    some ((n, mag) :: scales)

/-- R3Stretcher.cpp:1340-1343 in `analyseChannel` (R3LiveShifter.cpp:869-872): formants.  `preserved` is `OptionFormantPreserved`; `scales` are the magnitudes of the scales by their size. -/
def formants (p : Guide.Params) (preserved : Bool) (pitchScale formantScale : Rat) (o : Builtin) (f : Data) (scales : List (Nat × List ℝ)) : Option (Builtin × Data × List (Nat × List ℝ)) :=
  if preserved then do
    let mag ← scales.lookup f.fftSize
    let (o, f) ← analyse p.rate mag o f
    let scales ← adjust p pitchScale formantScale f scales
    some (o, f, scales)
  else some (o, f, scales)

/-! ### The faster engine -/

/-- StretcherProcess.cpp:939-949: the envelope made lower, in place. -/
def lowered (hs : Nat) (pitchScale : Rat) (envelope : List ℝ) : Option (List ℝ) :=
  times (hs + 1) (fun target l =>
    let source := (Round.lrint (target * pitchScale)).toNat
    if source > hs then setAt l target 0
    else do
      let v ← l[source]?
      setAt l target v) envelope

/-- StretcherProcess.cpp:950-957: the envelope made higher, in place; `j` counts the rounds. -/
def raised (hs : Nat) (pitchScale : Rat) (envelope : List ℝ) : Option (List ℝ) :=
  times hs (fun j l => do
    let target := hs - j - 1
    let v ← l[(Round.lrint (target * pitchScale)).toNat]?
    setAt l target v) envelope

/-- `v_divide`, `v_multiply` (VectorOps.h): the first `count` elements of `mag`, with those of `envelope`. -/
def combined (g : ℝ → ℝ → ℝ) (count : Nat) (mag envelope : List ℝ) : Option (List ℝ) :=
  times count (fun i l => do
    let u ← l[i]?
    let v ← envelope[i]?
    setAt l i (g u v)) mag

/-- The arrays and the FFT object of a channel of the faster engine that matter here (StretcherChannelData.h).  What is in `dblbuf` and `envelope` before is overwritten.  `spare` (StretcherProcess.cpp:932) is
taken from the stack. -/
structure Chunk where
  fft : Builtin
  mag : List ℝ
  dblbuf : List ℝ
  envelope : List ℝ

/-- StretcherProcess.cpp:904-960 `formantShiftChunk`; `rate` is an integer here. -/
def formantShiftChunk (rate : Nat) (sz : Nat) (pitchScale : Rat) (c : Chunk) : Option Chunk := do
  let hs := sz / 2
  let (o, dblbuf) ← inverseCepstral c.fft c.mag c.dblbuf
  let dblbuf ← cutOff sz (rate / 700) dblbuf
  let (o, envelope, _) ← transformF o dblbuf c.envelope (List.replicate (hs + 1) 0)
  let envelope ← applied Real.exp (hs + 1) envelope
  let mag ← combined (fun u v => u / v) (hs + 1) c.mag envelope
  let envelope ← if pitchScale > 1 then lowered hs pitchScale envelope else raised hs pitchScale envelope
  let mag ← combined (fun u v => u * v) (hs + 1) mag envelope
  some ⟨o, mag, dblbuf, envelope⟩

/-- StretcherProcess.cpp:968-971: whether this is done. -/
def shifted (preserved : Bool) (rate sz : Nat) (pitchScale : Rat) (c : Chunk) : Option Chunk :=
  if preserved = true ∧ pitchScale ≠ 1 then formantShiftChunk rate sz pitchScale c else some c

end
end Verif.Formant
