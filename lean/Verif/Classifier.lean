import Verif.MovingMedianProps
import Verif.Segmenter
/-!
# Model of `src/finer/BinClassifier.h`

Magnitudes are exact rationals.  `none` is an access outside an array.  The queue of arrays, a ring buffer of pointers, is a list that holds at most as many as its
size; that the ring buffer behaves so is C01.
-/
namespace Verif.Classifier
open Verif.MovingMedian Verif.Segmenter

/-- BinClassifier.h:46-62 `Parameters`. -/
structure Params where
  bins : Nat
  hLength : Nat
  lag : Nat
  vLength : Nat
  harmonicThreshold : Rat := 2
  percussiveThreshold : Rat := 2

/-- BinClassifier.h:147-155; the stack of filters (MovingMedian.h:219-251) as a list. -/
structure BC where
  hFilters : List (MM Rat)
  vFilter : MM Rat
  queue : List (List Rat)

/-- BinClassifier.h:64-79 the constructor; MovingMedian.h:50 gives the percentile. -/
def create (p : Params) : BC := ⟨List.replicate p.bins (init p.hLength 50), init p.vLength 50, List.replicate p.lag (List.replicate p.bins 0)⟩

/-- BinClassifier.h:93-107 `reset`. -/
def reset (p : Params) (s : BC) : BC := ⟨s.hFilters.map MovingMedian.reset, s.vFilter, List.replicate p.lag (List.replicate p.bins 0)⟩

/-- BinClassifier.h:116-119: each filter takes in its bin and gives its median. -/
def pushAll : List (MM Rat) → List Rat → Option (List (MM Rat) × List Rat)
  | [], _ => some ([], [])
  | _ :: _, [] => none
  | f :: fs, x :: xs => do
    let f ← push f (some x)
    let h ← get f
    let (fs, hs) ← pushAll fs xs
    pure (f :: fs, h :: hs)

/-- BinClassifier.h:124-128: the array is swapped for the one written `lag` frames ago. -/
def delay (lag : Nat) (queue : List (List Rat)) (vf : List Rat) : Option (List (List Rat) × List Rat) :=
  if lag > 0 then
    match queue with
    | [] => none
    | q :: qs => some (if qs.length < lag then qs ++ [vf] else qs, q)
  else some (queue, vf)

/-- BinClassifier.h:130-143: the class of a bin. -/
def classOf (p : Params) (hf vf : Rat) : Class :=
  if hf / (vf + 1 / 10000000) > p.harmonicThreshold then .harmonic
  else if vf / (hf + 1 / 10000000) > p.percussiveThreshold then .percussive
  else .residual

/-- BinClassifier.h:109-145 `classify`. -/
def classify (p : Params) (s : BC) (mag : List Rat) : Option (BC × List Class) := do
  let (fs, hf) ← pushAll s.hFilters mag
  let (vFilter, vf) ← filter s.vFilter (mag.take p.bins)
  let (queue, vf) ← delay p.lag s.queue vf
  pure (⟨fs, vFilter, queue⟩, List.zipWith (classOf p) hf vf)

/-- A call. -/
inductive Call
  | classify (mag : List Rat)
  | reset

/-- A call carried out. -/
def call (p : Params) (s : BC) : Call → Option (BC × List Class)
  | .classify mag => classify p s mag
  | .reset => some (reset p s, [])

/-- A history of calls, the last given first. -/
def run (p : Params) : List Call → Option BC
  | [] => some (create p)
  | c :: cs => (run p cs).bind fun s => (call p s c).map fun r => r.1

end Verif.Classifier
