import Verif.RingBuffer
/-!
# Specification: a bounded FIFO queue

Independent of the ring representation: a list of unread samples, oldest first.
-/
namespace Verif.RingBuffer

variable {α : Type}

namespace Queue

/-- What each call does to a queue `q` (oldest first) of capacity `cap`, and
what the caller sees. -/
def step [Zero α] [Add α] (cap : Nat) (q : List α) : Op α → List α × Out α
  | .write xs =>
      let k := min xs.length (cap - q.length)
      (q ++ xs.take k, ⟨[], k⟩)
  | .zero n =>
      let k := min n (cap - q.length)
      (q ++ List.replicate k 0, ⟨[], k⟩)
  | .read dest n =>
      let k := min n q.length
      (q.drop k, ⟨q.take k ++ dest.drop k, k⟩)
  | .readAdding dest n =>
      let k := min n q.length
      (q.drop k, ⟨List.zipWith (· + ·) (dest.take k) (q.take k) ++ dest.drop k, k⟩)
  | .readOne => match q with
      | [] => ([], ⟨[0], 0⟩)
      | x :: q => (q, ⟨[x], 0⟩)
  | .peek dest n =>
      let k := min n q.length
      (q, ⟨q.take k ++ dest.drop k, k⟩)
  | .peekOne => match q with
      | [] => ([], ⟨[0], 0⟩)
      | x :: q => (x :: q, ⟨[x], 0⟩)
  | .skip n =>
      let k := min n q.length
      (q.drop k, ⟨[], k⟩)
  | .reset => ([], ⟨[], 0⟩)
  | .getReadSpace => (q, ⟨[], q.length⟩)
  | .getWriteSpace => (q, ⟨[], cap - q.length⟩)
  | .getSize => (q, ⟨[], cap⟩)

/-- A sequence of calls on the queue. -/
def run [Zero α] [Add α] (cap : Nat) (q : List α) : List (Op α) → List α × List (Out α)
  | [] => (q, [])
  | op :: ops =>
    let (q, o) := step cap q op
    let (q, os) := run cap q ops
    (q, o :: os)

end Queue

/-- The caller's side of the contract: destination arrays have room for the
number of samples asked for. -/
def Op.Ok : Op α → Prop
  | .read d n => n ≤ d.length
  | .readAdding d n => n ≤ d.length
  | .peek d n => n ≤ d.length
  | _ => True

/-- Samples offered and accepted by a call (none for a reading call). -/
def accepted [Zero α] : Op α → Out α → List α
  | .write xs, o => xs.take o.count
  | .zero _, o => List.replicate o.count 0
  | _, _ => []

end Verif.RingBuffer
