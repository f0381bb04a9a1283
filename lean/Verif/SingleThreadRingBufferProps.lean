import Verif.SingleThreadRingBuffer
import Verif.RingBufferLemmas
/-!
# Single-threaded ring buffer: property C06
-/
namespace Verif.STRB

open Verif.RingBuffer (RB Inv contents)

variable {α : Type}

namespace Queue

/-- Specification: a queue `q`, oldest first, of capacity `cap`. -/
def step [Zero α] (cap : Nat) (q : List α) : Op α → List α × Out α
  | .writeOne v => if q.length < cap then (q ++ [v], .count 1) else (q, .count 0)
  | .readOne => match q with
      | [] => ([], .sample 0)
      | x :: q => (q, .sample x)
  | .skipOne => (q.tail, .none)
  | .reset => ([], .none)
  | .getReadSpace => (q, .count q.length)
  | .getWriteSpace => (q, .count (cap - q.length))
  | .getSize => (q, .count cap)

/-- A sequence of calls on the queue. -/
def run [Zero α] (cap : Nat) (q : List α) : List (Op α) → List α × List (Out α)
  | [] => (q, [])
  | op :: ops =>
    let (q, o) := step cap q op
    let (q, os) := run cap q ops
    (q, o :: os)

end Queue

theorem getReadSpace_eq (b : RB α) : getReadSpace b = RingBuffer.getReadSpace b := rfl
theorem getWriteSpace_eq (b : RB α) : getWriteSpace b = RingBuffer.getWriteSpace b := rfl

theorem readOne_eq [Zero α] (b : RB α) : readOne b = RingBuffer.readOne b := rfl

theorem skipOne_spec {b : RB α} (h : Inv b) :
    Inv (skipOne b) ∧ (skipOne b).size = b.size ∧ contents (skipOne b) = (contents b).tail := by
  unfold skipOne
  split
  · rename_i hz
    exact ⟨h, rfl, by simp [contents, hz]⟩
  · rename_i hz
    have hsz : (if b.reader + 1 = b.size then 0 else b.reader + 1)
        = RingBuffer.wrap b.size (b.reader + 1) := by
      have := h.r
      rw [RingBuffer.wrap_lt_two _ _ (by omega)]
      split <;> split <;> omega
    simp only [hsz]
    have hpos : 1 ≤ RingBuffer.getReadSpace b := by
      obtain ⟨hl, hw, hr⟩ := h
      unfold RingBuffer.getReadSpace RingBuffer.readSpaceFor
      split <;> (try split) <;> omega
    refine ⟨RingBuffer.advance_inv h 1, trivial, ?_⟩
    rw [RingBuffer.contents_advance h 1 hpos, List.drop_one]

theorem writeOne_spec {b : RB α} (h : Inv b) (v : α) :
    ∃ b', writeOne b v = some (b', if (contents b).length < b.size - 1 then 1 else 0) ∧
      Inv b' ∧ b'.size = b.size ∧
      contents b' = if (contents b).length < b.size - 1 then contents b ++ [v] else contents b := by
  have hlen := RingBuffer.contents_length h
  have hsum := RingBuffer.space_sum h
  unfold writeOne
  rw [getWriteSpace_eq]
  by_cases hz : RingBuffer.getWriteSpace b = 0
  · rw [if_pos hz]
    have : ¬ (contents b).length < b.size - 1 := by omega
    simp only [this, if_false]
    exact ⟨b, rfl, h, rfl, rfl⟩
  · rw [if_neg hz]
    have hlt : (contents b).length < b.size - 1 := by omega
    simp only [hlt, if_true]
    obtain ⟨m, hm, hi, hc⟩ := RingBuffer.copyIn_eq h [v] (by simp; omega)
    have hsz : (if b.writer + 1 = b.size then 0 else b.writer + 1)
        = RingBuffer.wrap b.size (b.writer + 1) := by
      have := h.w
      rw [RingBuffer.wrap_lt_two _ _ (by omega)]
      split <;> split <;> omega
    have hmm : m = b.buf.set b.writer v := by
      unfold RingBuffer.copyIn RingBuffer.store at hm
      have h1 := h.w
      have h2 := h.len
      simp only [List.length_singleton, ge_iff_le] at hm
      rw [if_pos (by omega), if_pos (by omega)] at hm
      simp only [Option.some.injEq] at hm
      rw [← hm]
      have h3 : b.writer < b.buf.length := by omega
      clear hm hi hc hsz hsum hlen hlt hz
      rw [List.set_eq_take_append_cons_drop, if_pos h3]
      simp
    rw [if_pos (by have := h.len; have := h.w; omega)]
    refine ⟨_, rfl, ?_, rfl, ?_⟩
    · rw [hsz, ← hmm]; exact hi
    · rw [hsz, ← hmm]; exact hc

theorem step_refines [Zero α] [Add α] {b : RB α} (h : Inv b) (op : Op α) :
    ∃ b', step b op = some (b', (Queue.step (b.size - 1) (contents b) op).2) ∧
      Inv b' ∧ b'.size = b.size ∧
      contents b' = (Queue.step (b.size - 1) (contents b) op).1 := by
  have hlen := RingBuffer.contents_length h
  have hsum := RingBuffer.space_sum h
  cases op with
  | writeOne v =>
    obtain ⟨b', h1, h2, h3, h4⟩ := writeOne_spec h v
    refine ⟨b', ?_, h2, h3, ?_⟩
    · simp only [step, h1, Queue.step]
      split <;> rfl
    · rw [h4]; simp only [Queue.step]; split <;> rfl
  | readOne =>
    obtain ⟨b', h1, h2, h3, h4⟩ := RingBuffer.step_refines h .readOne trivial
    simp only [RingBuffer.step, Option.bind_eq_bind, Option.pure_def, Option.bind_eq_some_iff] at h1
    obtain ⟨⟨b1, v⟩, hr, he⟩ := h1
    simp only [Option.some.injEq, Prod.mk.injEq] at he
    obtain ⟨rfl, he⟩ := he
    refine ⟨b1, ?_, h2, h3, ?_⟩
    · simp only [step, readOne_eq, hr]
      cases hc : contents b with
      | nil => rw [hc] at he; simp only [RingBuffer.Queue.step] at he; injection he with he; simp at he; simp [Queue.step, he]
      | cons x q => rw [hc] at he; simp only [RingBuffer.Queue.step] at he; injection he with he; simp at he; simp [Queue.step, he]
    · rw [h4]
      cases hc : contents b <;> rfl
  | skipOne =>
    obtain ⟨h1, h2, h3⟩ := skipOne_spec h
    exact ⟨_, rfl, h1, h2, h3⟩
  | reset =>
    refine ⟨reset b, rfl, ⟨h.len, h.r, h.r⟩, rfl, ?_⟩
    simp [reset, contents, Queue.step]
  | getReadSpace => exact ⟨b, by simp [step, Queue.step, hlen, getReadSpace_eq], h, rfl, rfl⟩
  | getWriteSpace =>
    refine ⟨b, ?_, h, rfl, rfl⟩
    simp only [step, Queue.step, getWriteSpace_eq]
    rw [show RingBuffer.getWriteSpace b = b.size - 1 - (contents b).length by omega]
  | getSize => exact ⟨b, rfl, h, rfl, rfl⟩

theorem run_refines [Zero α] [Add α] (ops : List (Op α)) {b : RB α} (h : Inv b) :
    ∃ b', run b ops = some (b', (Queue.run (b.size - 1) (contents b) ops).2) ∧
      Inv b' ∧ b'.size = b.size ∧
      contents b' = (Queue.run (b.size - 1) (contents b) ops).1 := by
  induction ops generalizing b with
  | nil => exact ⟨b, rfl, h, rfl, rfl⟩
  | cons op ops ih =>
    obtain ⟨b1, hs, hi, hz, hc⟩ := step_refines h op
    obtain ⟨b2, hs2, hi2, hz2, hc2⟩ := ih hi
    refine ⟨b2, ?_, hi2, hz2.trans hz, ?_⟩
    · simp only [run, hs, Option.bind_eq_bind, Option.bind_some, hs2, Queue.run, hz, hc]
      rfl
    · rw [hc2, hz, hc]; rfl

theorem init_inv [Zero α] (n : Nat) : Inv (init n : RB α) :=
  ⟨by simp [init], by simp [init], by simp [init]⟩

theorem contents_init [Zero α] (n : Nat) : contents (init n : RB α) = [] := by
  simp [contents, init]

/-- **C06.**  Any list of calls on a single-threaded ring buffer of capacity `n`
stays inside its storage and shows the caller what a queue of capacity `n`
shows: a write to a full buffer is refused and changes nothing, a read from an
empty one gives zero and changes nothing, and values come out in order, once. -/
theorem C06_fifo [Zero α] [Add α] (n : Nat) (ops : List (Op α)) :
    ∃ b', run (init n) ops = some (b', (Queue.run n [] ops).2) := by
  obtain ⟨b', h, _⟩ := run_refines ops (init_inv (α := α) n)
  rw [contents_init] at h
  exact ⟨b', h⟩

/-- The default constructor gives a buffer of capacity 0. -/
theorem C06_default [Zero α] [Add α] (ops : List (Op α)) :
    ∃ b', run initDefault ops = some (b', (Queue.run 0 [] ops).2) := C06_fifo 0 ops

/-- A history with overflow, wrap-around and underflow. -/
example : ((run (init 2) [.writeOne 1, .writeOne 2, .writeOne 3, .readOne, .writeOne 4,
    .getReadSpace, .skipOne, .readOne, .readOne] : Option (RB Int × _)).map (·.2)) =
    some [.count 1, .count 1, .count 0, .sample 1, .count 1, .count 2, .none, .sample 4,
      .sample 0] := by decide

end Verif.STRB
