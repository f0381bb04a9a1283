import Verif.HistogramFilterProps
import Verif.GuideRanges
/-!
# Model of `src/finer/BinSegmenter.h`

Frequencies are exact rationals.  `none` is an access outside an array.
-/
namespace Verif.Segmenter
open Verif.HistogramFilter Verif.Guide

/-- BinClassifier.h:40-44 `Classification`. -/
inductive Class | harmonic | percussive | residual
  deriving DecidableEq, Repr

/-- BinSegmenter.h:74-81. -/
def numeric : Class → Nat
  | .harmonic => 0
  | .percussive => 1
  | .residual => 2

/-- R3Stretcher.cpp:86-92 (R3LiveShifter.cpp likewise) `classificationBins`: how many bins are classified. -/
def bins (p : Params) : Nat := (Rat.floor (p.classify * (min 16000 (p.rate / 2)) / p.rate)).toNat

/-- BinSegmenter.h:98, 115, 118, 124: the frequency of a bin. -/
def freq (p : Params) (i : Nat) : Rat := frequencyForBin i p.classify p.rate

/-- BinSegmenter.h:93-103, from bin `i` on; `first` is the value at bin 0. -/
def below (p : Params) (first : Nat) : Nat → List Nat → Rat
  | _, [] => 0
  | i, c :: cs => if c ≠ 1 then (if i = 1 ∧ first ≠ 1 then 0 else freq p i) else below p first (i + 1) cs

/-- BinSegmenter.h:108-129, from bin `i` down; the pair is `f1, f2`. -/
def above (p : Params) (v : List Nat) : Nat → Bool → Rat × Rat → Option (Rat × Rat)
  | 0, _, r => some r
  | i + 1, inPercussive, r =>
    match v[i + 1]? with
    | none => none
    | some c =>
      if !inPercussive then
        if c = 2 then above p v i false r
        else if c = 1 then above p v i true (r.1, freq p (i + 1))
        else some (freq p (i + 1), freq p (i + 1))
      else if c ≠ 1 then some (freq p (i + 1), r.2)
      else above p v i true r

/-- BinSegmenter.h:130-132. -/
def lowest (p : Params) (r : Rat × Rat) : Rat := if r.1 = p.nyquist ∧ r.2 < p.nyquist then 0 else r.1

/-- BinSegmenter.h:92-136: the boundaries, from the filtered values. -/
def bounds (p : Params) (v : List Nat) : Option Segmentation :=
  (above p v (v.length - 1) false (p.nyquist, p.nyquist)).map fun r => ⟨below p (v.headD 0) 1 v.tail, lowest p r, r.2⟩

/-- BinSegmenter.h:68-137 `segment`; also gives the filtered values. -/
def segment (p : Params) (f : HF) (c : List Class) : Option (HF × List Nat × Segmentation) := do
  let (f, v) ← filter true f (c.map numeric)
  let s ← bounds p v
  pure (f, v, s)

/-- A segmenter used for a sequence of frames (BinSegmenter.h:61-66 the constructor; R3Stretcher.cpp:94-96 its parameters): the filter it is left with. -/
def session (p : Params) : List (List Class) → Option HF
  | [] => some (init 3 18)
  | c :: cs => (session p cs).bind fun f => (segment p f c).map fun r => r.1

end Verif.Segmenter
