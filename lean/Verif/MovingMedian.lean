import Mathlib.Order.Defs.LinearOrder
import Verif.SingleThreadRingBuffer
/-!
# Model of `src/common/MovingMedian.h`

Values are any linear order with a zero (`T()`).  A NaN argument of `push` is
`none`.  `std::lower_bound` on the sorted part is the library's specification:
the number of leading elements below the key (binary search gives that on a
sorted range).  The percentile is an exact rational instead of a `float`.
`none` as a result is an access outside the sort space (undefined behaviour).
-/
namespace Verif.MovingMedian

open Verif.RingBuffer (RB load store)

variable {α : Type}

/-- MovingMedian.h:140-144, member variables. -/
structure MM (α : Type) where
  buffer : RB α
  sortspace : List α
  fill : Nat
  percentile : Rat

/-- MovingMedian.h:50-55 constructor. -/
def init [Zero α] (filterLength : Nat) (percentile : Rat) : MM α :=
  { buffer := STRB.init filterLength, sortspace := List.replicate filterLength 0,
    fill := 0, percentile := percentile }

/-- MovingMedian.h:62-64. -/
def getSize (f : MM α) : Nat := STRB.getSize f.buffer

/-- MovingMedian.h:66-68. -/
def setPercentile (f : MM α) (p : Rat) : MM α := { f with percentile := p }

/-- A single element store. -/
def setAt (l : List α) (i : Nat) (v : α) : Option (List α) :=
  if i < l.length then some (l.set i v) else none

/-- `v_move(sorted + to, sorted + from, count)` (a `memmove`). -/
def move (l : List α) (to from_ count : Nat) : Option (List α) := do
  let block ← load l from_ count
  store l to block

section
variable [LinearOrder α]

/-- `std::lower_bound(sorted, sorted + n, x) - sorted`. -/
def lowerBound (sorted : List α) (n : Nat) (x : α) : Nat :=
  ((sorted.take n).takeWhile (fun y => decide (y < x))).length

/-- MovingMedian.h:169-175, the upward loop of `dropAndPut`, ending with the
store on line 176. -/
def upLoop (toPut : α) (n : Nat) : (fuel i : Nat) → List α → Option (List α)
  | fuel, i, sorted =>
    if i + 1 < n then do
      let next ← sorted[i + 1]?
      if next > toPut then setAt sorted i toPut
      else match fuel with
        | 0 => none
        | fuel + 1 => do
          let sorted ← setAt sorted i next
          upLoop toPut n fuel (i + 1) sorted
    else setAt sorted i toPut

/-- MovingMedian.h:178-185, the downward loop of `dropAndPut` and the final
store.  `k` stands for `i + 1` of the C++ text. -/
def downLoop (toPut : α) : (k : Nat) → List α → Option (List α)
  | 0, sorted => setAt sorted 0 toPut
  | k + 1, sorted => do
    let prev ← sorted[k]?
    if prev < toPut then setAt sorted (k + 1) toPut
    else do
      let sorted ← setAt sorted (k + 1) prev
      downLoop toPut k sorted

/-- MovingMedian.h:147-186 `dropAndPut`. -/
def dropAndPut (f : MM α) (toDrop toPut : α) : Option (MM α) := do
  let n := f.fill
  let first ← f.sortspace[0]?
  let dropIx := if toDrop ≤ first then 0 else lowerBound f.sortspace n toDrop
  if toPut > toDrop then do
    let s ← upLoop toPut n n dropIx f.sortspace
    pure { f with sortspace := s }
  else if toPut < toDrop then do
    let s ← downLoop toPut dropIx f.sortspace
    pure { f with sortspace := s }
  else pure f

/-- MovingMedian.h:196-198, the conditional move in `put`. -/
def openGap (sorted : List α) (n putIx : Nat) : Option (List α) :=
  if putIx < n then move sorted (putIx + 1) putIx (n - putIx) else some sorted

/-- MovingMedian.h:211-213, the conditional move in `drop`. -/
def closeGap (sorted : List α) (n dropIx : Nat) : Option (List α) :=
  if dropIx < n - 1 then move sorted dropIx (dropIx + 1) (n - dropIx - 1) else some sorted

/-- MovingMedian.h:188-201 `put`. -/
def put (f : MM α) (toPut : α) : Option (MM α) := do
  let n := f.fill
  let putIx := lowerBound f.sortspace n toPut
  let s ← openGap f.sortspace n putIx
  let s ← setAt s putIx toPut
  pure { f with sortspace := s, fill := f.fill + 1 }

/-- MovingMedian.h:203-215 `drop(const T &)`. -/
def dropValue (f : MM α) (toDrop : α) : Option (MM α) := do
  let n := f.fill
  let dropIx := lowerBound f.sortspace n toDrop
  let s ← closeGap f.sortspace n dropIx
  pure { f with sortspace := s, fill := f.fill - 1 }

variable [Zero α]

/-- MovingMedian.h:76-81, the branch in `push`. -/
def pushSorted (f : MM α) (value : α) : Option (MM α) :=
  if f.fill = getSize f then do
    let (b, toDrop) ← STRB.readOne f.buffer
    dropAndPut { f with buffer := b } toDrop value
  else put f value

/-- MovingMedian.h:71-83 `push`; `none` stands for NaN. -/
def push (f : MM α) (value : Option α) : Option (MM α) := do
  let value := value.getD 0
  let f ← pushSorted f value
  let (b, _) ← STRB.writeOne f.buffer value
  pure { f with buffer := b }

/-- MovingMedian.h:85-90 `drop`. -/
def drop (f : MM α) : Option (MM α) :=
  if f.fill > 0 then do
    let (b, toDrop) ← STRB.readOne f.buffer
    dropValue { f with buffer := b } toDrop
  else some f

/-- MovingMedian.h:95-104 `get`.  With nothing held, the C++ index is `-1/2 = 0`
for the median and `floor(-p/100)` otherwise; the latter is `-1` for positive
`p`, an access outside the array. -/
def get (f : MM α) : Option α :=
  let n : Int := (f.fill : Int) - 1
  if f.percentile = 50 then f.sortspace[(n.tdiv 2).toNat]?
  else
    let index := ((n : Rat) * f.percentile / 100).floor
    let index := if index ≥ (f.fill : Int) then (f.fill : Int) - 1 else index
    if index < 0 then none else f.sortspace[index.toNat]?

/-- MovingMedian.h:106-110 `reset`. -/
def reset (f : MM α) : MM α :=
  { f with buffer := STRB.reset f.buffer,
           sortspace := List.replicate f.sortspace.length 0, fill := 0 }

/-- The calls that change a filter. -/
inductive Op (α : Type) where
  | push (v : Option α)
  | drop
  | reset
  | setPercentile (p : Rat)

/-- One call. -/
def step (f : MM α) : Op α → Option (MM α)
  | .push v => push f v
  | .drop => drop f
  | .reset => some (reset f)
  | .setPercentile p => some (setPercentile f p)

/-- A history of calls. -/
def run (f : MM α) : List (Op α) → Option (MM α)
  | [] => some f
  | op :: ops => do
    let f ← step f op
    run f ops

/-- MovingMedian.h:122-126: take in or drop a value. -/
def feed (flen n j : Nat) (f : MM α) (v : List α) : Option (MM α) :=
  if j < n then do
    let x ← v[j]?
    push f (some x)
  else if j ≥ flen then drop f
  else some f

/-- MovingMedian.h:127-129: put out a value. -/
def emit (i : Int) (f : MM α) (v : List α) : Option (List α) :=
  if i ≥ 0 then do
    let m ← get f
    setAt v i.toNat m
  else some v

/-- MovingMedian.h:121-132, the loop of `filter`.  `fuel` bounds the rounds. -/
def filterLoop (flen n : Nat) : (fuel : Nat) → (i : Int) → (j : Nat) → MM α → List α →
    Option (MM α × List α)
  | fuel, i, j, f, v =>
    if i ≠ (n : Int) then
      match fuel with
      | 0 => none
      | fuel + 1 => do
        let f ← feed flen n j f v
        let v ← emit i f v
        filterLoop flen n fuel (i + 1) (j + 1) f v
    else some (f, v)

/-- MovingMedian.h:116-133 `filter` (the vector overload, 137-139, passes the
vector's data and size). -/
def filter (f : MM α) (v : List α) : Option (MM α × List α) :=
  let f := reset f
  let flen := getSize f
  filterLoop flen v.length (v.length + flen / 2) (-((flen / 2 : Nat) : Int)) 0 f v

end

end Verif.MovingMedian
