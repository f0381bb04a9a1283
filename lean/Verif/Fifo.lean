import Verif.RingBufferSpec
/-!
# The ring buffers of the engines as bounded queues

`RingBuffer` shows its user what a bounded FIFO queue shows (C01, C04), so the models of the
engines use queues.  The theorems below say that the operations are those of that queue.
-/
namespace Verif

/-- A bounded queue, oldest first. -/
structure Fifo (α : Type) where
  cap : Nat
  data : List α
deriving DecidableEq, Repr

namespace Fifo
variable {α : Type}

/-- RingBuffer.h:268-273 `getReadSpace`. -/
def readSpace (q : Fifo α) : Nat := q.data.length

/-- RingBuffer.h:275-280 `getWriteSpace`. -/
def writeSpace (q : Fifo α) : Nat := q.cap - q.data.length

/-- RingBuffer.h:440-473 `write`; what does not fit is not written. -/
def write (q : Fifo α) (xs : List α) : Fifo α := { q with data := q.data ++ xs.take q.writeSpace }

/-- RingBuffer.h:475-506 `zero`. -/
def zero [Zero α] (q : Fifo α) (n : Nat) : Fifo α := q.write (List.replicate n 0)

/-- RingBuffer.h:416-437 `skip`. -/
def skip (q : Fifo α) (n : Nat) : Fifo α := { q with data := q.data.drop n }

/-- RingBuffer.h:371-404 `peek`: the samples put in the destination. -/
def peek (q : Fifo α) (n : Nat) : List α := q.data.take n

/-- RingBuffer.h:256-264 `reset`. -/
def reset (q : Fifo α) : Fifo α := { q with data := [] }

/-- RingBuffer.h:236-253 `resized`. -/
def resized (q : Fifo α) (newSize : Nat) : Fifo α := ⟨newSize, q.data.take newSize⟩

open RingBuffer in
theorem write_eq [Zero α] [Add α] (q : Fifo α) (xs : List α) :
    (q.write xs).data = (Queue.step q.cap q.data (.write xs)).1 := by
  simp only [Queue.step, write, writeSpace]
  rw [List.take_eq_take_iff.mpr]
  omega

open RingBuffer in
theorem zero_eq [Zero α] [Add α] (q : Fifo α) (n : Nat) : (q.zero n).data = (Queue.step q.cap q.data (.zero n)).1 := by
  simp only [Queue.step, zero, write, writeSpace]
  rw [List.take_replicate]
  congr 2
  omega

open RingBuffer in
theorem skip_eq [Zero α] [Add α] (q : Fifo α) (n : Nat) : (q.skip n).data = (Queue.step q.cap q.data (.skip n)).1 := by
  simp only [Queue.step, skip]
  rcases Nat.le_total n q.data.length with h | h
  · rw [Nat.min_eq_left h]
  · rw [Nat.min_eq_right h, List.drop_eq_nil_of_le h, List.drop_eq_nil_of_le (Nat.le_refl _)]

open RingBuffer in
/-- Reading is peeking then skipping. -/
theorem read_eq [Zero α] [Add α] (q : Fifo α) (n : Nat) (dest : List α) :
    (q.skip n).data = (Queue.step q.cap q.data (.read dest n)).1 ∧
      q.peek n = (Queue.step q.cap q.data (.read dest n)).2.data.take (min n q.readSpace) := by
  constructor
  · rw [skip_eq]; rfl
  · simp only [Queue.step, peek, readSpace]
    rw [List.take_append_of_le_length (by simp), List.take_take, Nat.min_self]
    rw [List.take_eq_take_iff.mpr]
    omega

@[simp] theorem write_cap (q : Fifo α) (xs : List α) : (q.write xs).cap = q.cap := rfl
@[simp] theorem skip_cap (q : Fifo α) (n : Nat) : (q.skip n).cap = q.cap := rfl

end Fifo
end Verif
