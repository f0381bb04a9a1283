import Verif.RingBuffer
/-!
# Model of `src/common/SingleThreadRingBuffer.h`

The storage representation (array and two indices) is the one of `RingBuffer`,
so the record type `RB` is shared; the operations are modelled separately from
this header's text.  `none` is an access outside the storage.
-/
namespace Verif.STRB

open Verif.RingBuffer (RB)

variable {α : Type}

/-- SingleThreadRingBuffer.h:54-58 constructor: storage is filled with `T()`. -/
def init [Zero α] (n : Nat) : RB α :=
  { buf := List.replicate (n + 1) 0, writer := 0, reader := 0, size := n + 1 }

/-- SingleThreadRingBuffer.h:60-64 default constructor. -/
def initDefault [Zero α] : RB α :=
  { buf := List.replicate 1 0, writer := 0, reader := 0, size := 1 }

/-- SingleThreadRingBuffer.h:75-77. -/
def getSize (b : RB α) : Nat := b.size - 1

/-- SingleThreadRingBuffer.h:82-84. -/
def reset (b : RB α) : RB α := { b with writer := b.reader }

/-- SingleThreadRingBuffer.h:89-93. -/
def getReadSpace (b : RB α) : Nat :=
  if b.writer > b.reader then b.writer - b.reader
  else if b.writer < b.reader then (b.writer + b.size) - b.reader
  else 0

/-- SingleThreadRingBuffer.h:98-102. -/
def getWriteSpace (b : RB α) : Nat :=
  let space := b.reader + b.size - b.writer - 1
  if space ≥ b.size then space - b.size else space

/-- SingleThreadRingBuffer.h:108-115. -/
def readOne [Zero α] (b : RB α) : Option (RB α × α) :=
  if b.writer = b.reader then some (b, 0)
  else do
    let v ← b.buf[b.reader]?
    let r := b.reader + 1
    pure ({ b with reader := if r = b.size then 0 else r }, v)

/-- SingleThreadRingBuffer.h:121-126. -/
def skipOne (b : RB α) : RB α :=
  if b.writer = b.reader then b
  else
    let r := b.reader + 1
    { b with reader := if r = b.size then 0 else r }

/-- SingleThreadRingBuffer.h:133-138. -/
def writeOne (b : RB α) (v : α) : Option (RB α × Nat) :=
  if getWriteSpace b = 0 then some (b, 0)
  else if b.writer < b.buf.length then
    let w := b.writer + 1
    some ({ b with buf := b.buf.set b.writer v, writer := if w = b.size then 0 else w }, 1)
  else none

/-- The public calls. -/
inductive Op (α : Type) where
  | writeOne (v : α)
  | readOne
  | skipOne
  | reset
  | getReadSpace
  | getWriteSpace
  | getSize

/-- What the caller sees: a sample or a number. -/
inductive Out (α : Type) where
  | none
  | sample (v : α)
  | count (n : Nat)
deriving DecidableEq

/-- One call. -/
def step [Zero α] (b : RB α) : Op α → Option (RB α × Out α)
  | .writeOne v => do let (b, n) ← writeOne b v; pure (b, .count n)
  | .readOne => do let (b, v) ← readOne b; pure (b, .sample v)
  | .skipOne => some (skipOne b, .none)
  | .reset => some (reset b, .none)
  | .getReadSpace => some (b, .count (getReadSpace b))
  | .getWriteSpace => some (b, .count (getWriteSpace b))
  | .getSize => some (b, .count (getSize b))

/-- A sequence of calls. -/
def run [Zero α] (b : RB α) : List (Op α) → Option (RB α × List (Out α))
  | [] => some (b, [])
  | op :: ops => do
    let (b, o) ← step b op
    let (b, os) ← run b ops
    pure (b, o :: os)

end Verif.STRB
