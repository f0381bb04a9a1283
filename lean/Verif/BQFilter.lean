import Verif.BQResampler
import Mathlib.Analysis.SpecialFunctions.Trigonometric.Basic
import Mathlib.Analysis.SpecialFunctions.Pow.Real

/-!
# The filter of the resampler (BQResampler.cpp:246-348, 447-475)

Over the reals, without rounding.  Buffers that are written once per element are functions of the index.
-/

namespace Verif.BQ

/-- BQResampler.cpp:124 etc. -/
def Quality.kSnr : Quality → Rat
  | .fastest => 70 | .fastestTolerable => 90 | .best => 100
/-- BQResampler.cpp:125 etc. -/
def Quality.kTransition : Quality → Rat
  | .fastest => 2 / 10 | .fastestTolerable => 5 / 100 | .best => 1 / 100

/-- BQResampler.cpp:249-256. -/
def facsquared : List Rat :=
  [0, 1, 4, 36, 576, 14400, 518400, 25401600, 1625702400, 131681894400, 13168189440000, 1593350922240000, 229442532803000000, 38775788043600000000, 7600054456550000000000, 1710012252720000000000000,
    437763136697000000000000000, 126513546506000000000000000000, 40990389067800000000000000000000, 14797530453500000000000000000000000]

/-- BQResampler.cpp:246-265 `bessel0`: the terms from the first on. -/
noncomputable def bessel0 (x : ℝ) : ℝ := 1 + (((facsquared.drop 1).zipIdx 1).map fun f => (x / 2) ^ (2 * f.2) / (f.1 : ℝ)).sum

/-- BQResampler.cpp:271. -/
def halfOf (len : Nat) : Nat := if len % 2 = 0 then len / 2 else (len + 1) / 2

/-- BQResampler.cpp:274-275. -/
noncomputable def kaiserValue (beta : ℝ) (len n : Nat) : ℝ :=
  let k : ℝ := 2 * n / ((len : ℝ) - 1) - 1
  bessel0 (beta * Real.sqrt (1 - k * k)) / bessel0 beta

/-- BQResampler.cpp:267-281 `kaiser`, element `n`: the first half is computed, the others are copied from it (and stay 0 where there is nothing to copy). -/
noncomputable def kaiser (beta : ℝ) (len n : Nat) : ℝ :=
  if n < halfOf len then kaiserValue beta len n else if len - 1 - n < halfOf len then kaiserValue beta len (len - 1 - n) else 0

/-- BQResampler.cpp:289-293 `kaiser_params`: the length. -/
def kaiserLength (attenuation transition : Rat) : Nat :=
  if attenuation > 21 then 1 + ((attenuation - 795 / 100) / (2285 / 1000 * transition)).ceil.toNat else 1 + (579 / 100 / transition).ceil.toNat

/-- BQResampler.cpp:294-300 `kaiser_params`: beta. -/
noncomputable def kaiserBeta (attenuation : Rat) : ℝ :=
  if attenuation > 50 then ((1102 / 10000 * (attenuation - 87 / 10) : Rat) : ℝ)
  else if attenuation > 21 then 0.5842 * ((attenuation : ℝ) - 21) ^ (0.4 : ℝ) + 0.07886 * ((attenuation : ℝ) - 21) else 0

/-- BQResampler.cpp:312-318 `kaiser_for`: the length, adjusted. -/
def kaiserFor (m minlen maxlen : Nat) : Nat :=
  let mb := if 0 < maxlen ∧ m + 1 > maxlen then maxlen - 1 else if 0 < minlen ∧ m < minlen then minlen else m
  if mb % 2 = 0 then mb + 1 else mb

/-- BQResampler.cpp:328-348 `sinc_multiply`: what the element `j` of a buffer of `len` is multiplied by.  The loop reaches the elements `left - i` and `left + i`, each once. -/
noncomputable def sincFactor (peakToZero : Rat) (len j : Nat) : ℝ :=
  if len < 2 then 1
  else
    let left := len / 2
    let right := (len + 1) / 2
    let sinc : Nat → ℝ := fun i => Real.sin (i * (Real.pi / peakToZero)) / (i * (Real.pi / peakToZero))
    if j < left ∧ left - j ≤ right then sinc (left - j) else if left < j ∧ j - left < right then sinc (j - left) else 1

/-- BQResampler.cpp:464-469: the window `v` of `k` elements with a 0 after them, drawn out to `len` elements: the element `i`; `none` if it is read outside. -/
noncomputable def drawnOut (v : Nat → ℝ) (k len i : Nat) : Option ℝ :=
  let ix : Rat := i * (((k - 1 : Nat) : Rat) / ((len - 1 : Nat) : Rat))
  let iix := ix.floor.toNat
  let w : Nat → ℝ := fun n => if n = k then 0 else v n
  if iix + 1 < k + 1 then some (w iix * (1 - ((ix - iix : Rat) : ℝ)) + w (iix + 1) * ((ix - iix : Rat) : ℝ)) else none

/-- BQResampler.cpp:447-475 `make_filter`, element `i`. -/
noncomputable def makeFilter (q : Quality) (len : Nat) (peakToZero : Rat) (i : Nat) : Option ℝ :=
  let k := kaiserFor (kaiserLength q.kSnr q.kTransition) 1 len
  let v := kaiser (kaiserBeta q.kSnr) k
  if k = len then some (v i * sincFactor peakToZero len i) else (drawnOut v k len i).map (· * sincFactor peakToZero len i)

end Verif.BQ
