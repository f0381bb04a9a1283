import Mathlib.Algebra.Order.Field.Basic
import Mathlib.Algebra.BigOperators.Group.List.Basic
import Verif.MovingMedian
/-!
# Model of the detection functions of the faster engine

`src/faster/AudioCurveCalculator.cpp`, `PercussiveAudioCurve.cpp`, `HighFrequencyAudioCurve.cpp` and `CompoundAudioCurve.cpp`, with the `double` calls.  Values are elements of an
ordered field, exact.  The threshold of the percussive curve, `pow(10., 0.15)`, is a parameter `th`.  Arrays of magnitudes are functions; which elements are used is the subject of
`lastPerceivedBin_le`.  `none` is an access outside the arrays of a median filter.
-/
namespace Verif.AudioCurve
open Verif.MovingMedian (MM)

/-- AudioCurveCalculator.cpp:58-69 `recalculateLastPerceivedBin` (without overflow, so for sizes up to 134217). -/
def lastPerceivedBin (sampleRate fftSize : Nat) : Nat :=
  if sampleRate = 0 then 0
  else if 16000 * fftSize / sampleRate > fftSize / 2 then fftSize / 2
  else 16000 * fftSize / sampleRate

variable {K : Type} [Field K] [LinearOrder K] [IsStrictOrderedRing K]

/-! ## The percussive curve -/

/-- PercussiveAudioCurve.cpp:90 `zeroThresh`. -/
def zeroThresh : K := 1 / 100000000

/-- PercussiveAudioCurve.cpp:98-100 `v`. -/
def rise (th : K) (prev mag : K) : K := if prev > zeroThresh then mag / prev else if mag > zeroThresh then th else 0

/-- PercussiveAudioCurve.cpp:92-104 `count`. -/
def risen (th : K) (bins : Nat) (prev mag : Nat → K) : Nat := (List.range bins).countP fun i => decide (rise th (prev (i + 1)) (mag (i + 1)) ≥ th)

/-- PercussiveAudioCurve.cpp:93-104 `nonZeroCount`. -/
def sounding (bins : Nat) (mag : Nat → K) : Nat := (List.range bins).countP fun i => decide (mag (i + 1) > zeroThresh)

/-- PercussiveAudioCurve.cpp:86-110 `processDouble`, its result. -/
def percussive (th : K) (bins : Nat) (prev mag : Nat → K) : K :=
  if sounding bins mag = 0 then 0 else (risen th bins prev mag : K) / (sounding bins mag : K)

/-- PercussiveAudioCurve.cpp:106: `m_prevMag` afterwards. -/
def remembered (bins : Nat) (prev mag : Nat → K) : Nat → K := fun i => if i < bins + 1 then mag i else prev i

/-! ## The high-frequency curve -/

/-- HighFrequencyAudioCurve.cpp:58-70 `processDouble`. -/
def highFrequency (bins : Nat) (mag : Nat → K) : K := ((List.range (bins + 1)).map fun n => mag n * n).sum

/-! ## The compound curve -/

/-- CompoundAudioCurve.h:41-45. -/
inductive Kind where
  | percussive | compound | soft
deriving DecidableEq, Repr

/-- CompoundAudioCurve.h:56-66, with the members of the two curves it is made of (whose `m_lastPerceivedBin` are always the same). -/
structure Curve (K : Type) where
  kind : Kind
  rate : Nat
  bins : Nat
  prevMag : Nat → K
  hfFilter : MM K
  hfDerivFilter : MM K
  lastHf : K
  lastResult : K
  risingCount : Nat

/-- CompoundAudioCurve.cpp:34-45, the constructor. -/
def create (sampleRate fftSize : Nat) : Curve K :=
  { kind := .compound, rate := sampleRate, bins := lastPerceivedBin sampleRate fftSize, prevMag := fun _ => 0, hfFilter := MovingMedian.init 19 85,
    hfDerivFilter := MovingMedian.init 19 90, lastHf := 0, lastResult := 0, risingCount := 0 }

/-- CompoundAudioCurve.cpp:53-57 `setType`. -/
def setType (s : Curve K) (k : Kind) : Curve K := { s with kind := k }

/-- CompoundAudioCurve.cpp:59-68 `reset`. -/
def reset (s : Curve K) : Curve K :=
  { s with
    prevMag := fun _ => 0
    hfFilter := MovingMedian.reset s.hfFilter
    hfDerivFilter := MovingMedian.reset s.hfDerivFilter
    lastHf := 0
    lastResult := 0 }

/-- CompoundAudioCurve.cpp:70-78 `setFftSize`. -/
def setFftSize (s : Curve K) (n : Nat) : Curve K := { s with bins := lastPerceivedBin s.rate n, prevMag := fun _ => 0, lastHf := 0, lastResult := 0 }

/-- CompoundAudioCurve.cpp:139-145 `result`. -/
def excess (hf hfFiltered hfDeriv hfDerivFiltered : K) : K := if hf - hfFiltered > 0 then hfDeriv - hfDerivFiltered else 0

/-- CompoundAudioCurve.cpp:147-148: `rv` before 154. -/
def fallen (result lastResult : K) (risingCount : Nat) : K := if result < lastResult ∧ risingCount > 3 ∧ lastResult > 0 then 1 / 2 else 0

/-- CompoundAudioCurve.cpp:154-158: `rv` from then on. -/
def merged (k : Kind) (percussive rv : K) : K := if k = .compound ∧ percussive > 7 / 20 ∧ percussive > rv then percussive else rv

/-- CompoundAudioCurve.cpp:120-163 `processFiltering`.  The counter is unbounded (an `int`). -/
def processFiltering (s : Curve K) (percussive hf : K) : Option (Curve K × K) :=
  if s.kind = .percussive then some (s, percussive)
  else do
    let f ← MovingMedian.push s.hfFilter (some hf)
    let g ← MovingMedian.push s.hfDerivFilter (some (hf - s.lastHf))
    let hfFiltered ← MovingMedian.get f
    let hfDerivFiltered ← MovingMedian.get g
    let result := excess hf hfFiltered (hf - s.lastHf) hfDerivFiltered
    pure ({ s with
      hfFilter := f
      hfDerivFilter := g
      lastHf := hf
      lastResult := result
      risingCount := if result < s.lastResult then 0 else s.risingCount + 1 }, merged s.kind percussive (fallen result s.lastResult s.risingCount))

/-- CompoundAudioCurve.cpp:100-118 `processDouble`. -/
def process (th : K) (s : Curve K) (mag : Nat → K) : Option (Curve K × K) :=
  match s.kind with
  | .percussive => processFiltering { s with prevMag := remembered s.bins s.prevMag mag } (percussive th s.bins s.prevMag mag) 0
  | .compound => processFiltering { s with prevMag := remembered s.bins s.prevMag mag } (percussive th s.bins s.prevMag mag) (highFrequency s.bins mag)
  | .soft => processFiltering s 0 (highFrequency s.bins mag)

/-- The calls. -/
inductive Op (K : Type) where
  | process (mag : Nat → K)
  | reset
  | setFftSize (n : Nat)
  | setType (k : Kind)

/-- A call, and what it returns. -/
def step (th : K) (s : Curve K) : Op K → Option (Curve K × List K)
  | .process mag => (process th s mag).map fun x => (x.1, [x.2])
  | .reset => some (reset s, [])
  | .setFftSize n => some (setFftSize s n, [])
  | .setType k => some (setType s k, [])

/-- Some calls, and what they return. -/
def run (th : K) (s : Curve K) : List (Op K) → Option (Curve K × List K)
  | [] => some (s, [])
  | c :: cs => (step th s c).bind fun x => (run th x.1 cs).map fun y => (y.1, x.2 ++ y.2)

/-! ## The silent curve -/

/-- SilentAudioCurve.cpp:59-70 `processDouble`, whether it is 1. -/
def silent (bins : Nat) (mag : Nat → K) : Bool := (List.range (bins + 1)).all fun i => decide (mag i ≤ 1 / 1000000)

end Verif.AudioCurve
