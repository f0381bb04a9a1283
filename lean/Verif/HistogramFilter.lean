import Verif.SingleThreadRingBuffer
import Verif.MovingMedianSpec
/-!
# Model of `src/common/HistogramFilter.h`

Values are natural numbers.  `none` is an access outside the histogram (a value
not below `nValues`), undefined behaviour in C++.
-/
namespace Verif.HistogramFilter

open Verif.RingBuffer (RB)

/-- HistogramFilter.h:185-188, member variables; `mode` is `m_mode`, -1 when
nothing is cached. -/
structure HF where
  buffer : RB Nat
  histogram : List Int
  mode : Int

/-- HistogramFilter.h:45-48 constructor. -/
def init (nValues filterLength : Nat) : HF :=
  { buffer := STRB.init filterLength, histogram := List.replicate nValues 0, mode := -1 }

/-- HistogramFilter.h:51-53. -/
def getFilterLength (f : HF) : Nat := STRB.getSize f.buffer

/-- HistogramFilter.h:55-57. -/
def getNValues (f : HF) : Nat := f.histogram.length

/-- HistogramFilter.h:59-64 `reset`.  `m_mode` is left as it was. -/
def reset (f : HF) : HF :=
  { f with buffer := STRB.reset f.buffer, histogram := List.replicate f.histogram.length 0 }

/-- `m_histogram[i] += d`. -/
def bump (h : List Int) (i : Nat) (d : Int) : Option (List Int) := do
  let x ← h[i]?
  pure (h.set i (x + d))

/-- HistogramFilter.h:67-70: make room in a full window. -/
def makeRoom (f : HF) : Option HF :=
  if STRB.getWriteSpace f.buffer = 0 then do
    let (b, toDrop) ← STRB.readOne f.buffer
    let h ← bump f.histogram toDrop (-1)
    pure { f with buffer := b, histogram := h }
  else some f

/-- HistogramFilter.h:73-77: update of the cached mode. -/
def updateMode (mode : Int) (h : List Int) (value : Nat) (height : Int) : Option Int :=
  if mode ≥ 0 then do
    let top ← h[mode.toNat]?
    if height ≥ top then
      if height > top ∨ (value : Int) < mode then pure (value : Int) else pure mode
    else pure mode
  else some mode

/-- HistogramFilter.h:66-78 `push`. -/
def push (f : HF) (value : Nat) : Option HF := do
  let f ← makeRoom f
  let (b, _) ← STRB.writeOne f.buffer value
  let h ← bump f.histogram value 1
  let height ← h[value]?
  let mode ← updateMode f.mode h value height
  pure { buffer := b, histogram := h, mode := mode }

/-- HistogramFilter.h:80-88 `drop`. -/
def drop (f : HF) : Option HF :=
  if STRB.getReadSpace f.buffer > 0 then do
    let (b, toDrop) ← STRB.readOne f.buffer
    let h ← bump f.histogram toDrop (-1)
    pure { buffer := b, histogram := h, mode := if (toDrop : Int) = f.mode then -1 else f.mode }
  else some f

/-- HistogramFilter.h:96-102, the loop of `getMedian` from bin `i` on. -/
def medianLoop (half : Int) : List Int → (i : Nat) → (acc : Int) → Nat
  | [], _, _ => 0
  | h :: hs, i, acc => if acc + h ≥ half then i else medianLoop half hs (i + 1) (acc + h)

/-- HistogramFilter.h:93-104 `getMedian`. -/
def getMedian (f : HF) : Nat :=
  let half : Int := ((STRB.getReadSpace f.buffer + 1) / 2 : Nat)
  medianLoop half f.histogram 0 0

/-- HistogramFilter.h:117-123, the loop of `getMode` from bin `i` on. -/
def modeLoop : List Int → (i : Nat) → (max : Int) → (mode : Nat) → Nat
  | [], _, _, mode => mode
  | h :: hs, i, max, mode =>
    if i = 0 ∨ h > max then modeLoop hs (i + 1) h i else modeLoop hs (i + 1) max mode

/-- HistogramFilter.h:110-126 `getMode`, which caches its result. -/
def getMode (f : HF) : HF × Nat :=
  if f.mode ≥ 0 then (f, f.mode.toNat)
  else
    let mode := modeLoop f.histogram 0 0 0
    ({ f with mode := mode }, mode)

/-- The calls that change the filter (`getMode` changes the cache). -/
inductive Op where
  | push (v : Nat)
  | drop
  | reset
  | getMode

/-- One call. -/
def step (f : HF) : Op → Option HF
  | .push v => push f v
  | .drop => drop f
  | .reset => some (reset f)
  | .getMode => some (getMode f).1

/-- A history of calls. -/
def run (f : HF) : List Op → Option HF
  | [] => some f
  | op :: ops => do
    let f ← step f op
    run f ops

/-- HistogramFilter.h:137-141: take in or drop a value. -/
def feed (flen n j : Nat) (f : HF) (v : List Nat) : Option HF :=
  if j < n then do
    let x ← v[j]?
    push f x
  else if j ≥ flen then drop f
  else some f

/-- HistogramFilter.h:142-145: put out a value. -/
def emit (modal : Bool) (i : Int) (f : HF) (v : List Nat) : Option (HF × List Nat) :=
  if i ≥ 0 then do
    let (f, m) := if modal then getMode f else (f, getMedian f)
    let v ← MovingMedian.setAt v i.toNat m
    pure (f, v)
  else some (f, v)

/-- HistogramFilter.h:136-149, the loop of `filter`. -/
def filterLoop (modal : Bool) (flen n : Nat) : (fuel : Nat) → (i : Int) → (j : Nat) → HF →
    List Nat → Option (HF × List Nat)
  | fuel, i, j, f, v =>
    if i ≠ (n : Int) then
      match fuel with
      | 0 => none
      | fuel + 1 => do
        let f ← feed flen n j f v
        let (f, v) ← emit modal i f v
        filterLoop modal flen n fuel (i + 1) (j + 1) f v
    else some (f, v)

/-- HistogramFilter.h:132-150 `filter`; `medianFilter` and `modalFilter`
(162-183) call it with `modal` false and true. -/
def filter (modal : Bool) (f : HF) (v : List Nat) : Option (HF × List Nat) :=
  let f := reset f
  let flen := getFilterLength f
  filterLoop modal flen v.length (v.length + flen / 2) (-((flen / 2 : Nat) : Int)) 0 f v

end Verif.HistogramFilter
