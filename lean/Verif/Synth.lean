import Verif.PhaseSafe
/-!
# Model of the choice of bins in `R3Stretcher::synthesiseChannel`, and of `adjustPreKick`

Magnitudes are rationals.  Transforms, windows and the accumulator are left out.
-/
namespace Verif.Synth
open Verif.Guide

/-- R3Stretcher.cpp:1593: `if (highBin % 2 == 0 && highBin > 0) --highBin`. -/
def odd (b : Int) : Int := if b % 2 = 0 ∧ b > 0 then b - 1 else b

/-- R3Stretcher.cpp:1596, 1597: `if (b >= n) b = n - 1`. -/
def within (n b : Int) : Int := if b ≥ n then n - 1 else b

/-- R3Stretcher.cpp:1591-1598: `lowBin` and `highBin`, for arrays of `n` elements. -/
def binsOf (rate : Rat) (n : Int) (b : FftBand) : Int × Int :=
  let low := within n (binForFrequency b.f0 b.fftSize rate)
  let high := within n (odd (binForFrequency b.f1 b.fftSize rate))
  (low, if high < low then low else high)

/-- R3Stretcher.cpp:1595, 1600-1616: the magnitudes and phases of the bins from `lowBin` to below `highBin` are put out, all the others are 0. -/
def Puts (rate : Rat) (b : FftBand) (i : Nat) : Prop :=
  (binsOf rate ((b.fftSize / 2 + 1 : Nat) : Int) b).1 ≤ i ∧ (i : Int) < (binsOf rate ((b.fftSize / 2 + 1 : Nat) : Int) b).2

/-- R3Stretcher.h:150-158: the arrays of the longest scale that matter here. -/
structure Scale where
  mag : List Rat
  prevMag : List Rat
  pendingKick : List Rat
deriving DecidableEq

/-- An element of an array at an `int` index. -/
def get (l : List Rat) (i : Int) : Option Rat := if i < 0 then none else l[i.toNat]?

/-- A store to such an element. -/
def set (l : List Rat) (i : Int) (x : Rat) : Option (List Rat) := if i < 0 then none else MovingMedian.setAt l i.toNat x

/-- R3Stretcher.cpp:1542-1546: a bin of a frame before a kick. -/
def hold (s : Scale) (i : Int) : Option Scale := do
  let m ← get s.mag i
  let p ← get s.prevMag i
  if m - p > 0 then
    let pending ← set s.pendingKick i (m - p)
    let mag ← set s.mag i (m - (m - p))
    pure { s with mag := mag, pendingKick := pending }
  else pure s

/-- R3Stretcher.cpp:1555-1556: a bin of a kick. -/
def release (s : Scale) (i : Int) : Option Scale := do
  let m ← get s.mag i
  let k ← get s.pendingKick i
  let mag ← set s.mag i (m + k)
  let pending ← set s.pendingKick i 0
  pure { s with mag := mag, pendingKick := pending }

/-- A loop over the bins from `i` on. -/
def over (f : Scale → Int → Option Scale) : (rounds : Nat) → Int → Scale → Option Scale
  | 0, _, s => some s
  | rounds + 1, i, s => (f s i).bind (over f rounds (i + 1))

/-- `for (int i = from; i <= to; ++i)`. -/
def span (f : Scale → Int → Option Scale) (first last : Int) (s : Scale) : Option Scale := over f (last - first + 1).toNat first s

/-- R3Stretcher.cpp:1527-1559 `adjustPreKick`. -/
def adjustPreKick (p : Params) (g : Guidance) (s : Scale) : Option Scale :=
  let first := binForFrequency g.preKick.f0 g.fft0.fftSize p.rate
  let last := binForFrequency g.preKick.f1 g.fft0.fftSize p.rate
  if p.single then some s
  else if g.preKick.present then span hold first last s
  else if g.kick.present then span release first last s
  else some s

/-- R3Stretcher.cpp:1167-1335, 1527-1559, 1578-1581: a frame with these magnitudes, up to `prevMag` being set. -/
def frame (p : Params) (g : Guidance) (mag : List Rat) (s : Scale) : Option Scale :=
  (adjustPreKick p g { s with mag := mag }).map fun s => { s with prevMag := s.mag }

end Verif.Synth
