import Mathlib.Tactic.Ring
import Mathlib.Tactic.Linarith
/-!
# Model of `src/common/Allocators.h`

A heap of blocks, with what each element holds.  A request to the system may fail.  An access outside a block, an access to a block that has been given back, giving back twice and following something that is not a
pointer are `none`.  Exceptions are `thrown`.

Simplified: blocks are told apart by the number of the request they come from and are never given the number of another (the code does not compare pointers); each block holds elements of one type; what is
allocated needs no construction (numbers and pointers: `new (typed_ptr + i) T` does nothing to them).
-/
namespace Verif.Alloc

variable {α β γ : Type}

/-- What an element of a block holds: nothing that was put there, a value or a pointer. -/
inductive Cell (α : Type) where
  | raw
  | val (x : α)
  | ptr (a : Nat)

/-- A block: its size, and its elements. -/
structure Block (α : Type) where
  bytes : Nat
  cells : Nat → Cell α

/-- The blocks by their addresses (0 is the null pointer), and how many requests there have been. -/
structure Heap (α : Type) where
  block : Nat → Option (Block α)
  asked : Nat

/-- The system: whether the request with this number, for so many bytes, fails. -/
abbrev Sys := Nat → Nat → Bool

/-- How a call ends. -/
inductive Res (α β : Type) where
  | ok (h : Heap α) (b : β)
  | thrown (h : Heap α)

/-- Programs. -/
def M (α β : Type) := Heap α → Option (Res α β)

/-- One after the other, until an exception. -/
def M.andThen (m : M α β) (f : β → M α γ) : M α γ := fun h =>
  match m h with
  | none => none
  | some (.thrown h') => some (.thrown h')
  | some (.ok h' b) => f b h'

instance : Monad (M α) where
  pure b := fun h => some (.ok h b)
  bind := M.andThen

/-- A statement under a condition. -/
def upon (b : Prop) [Decidable b] (m : M α Unit) : M α Unit := if b then m else pure ()

/-- An exception. -/
def throw : M α β := fun h => some (.thrown h)

def Heap.set (h : Heap α) (a : Nat) (b : Option (Block α)) : Heap α := { h with block := fun i => if i = a then b else h.block i }

/-- `size_t` arithmetic. -/
def size (n : Nat) : Nat := n % 2 ^ 64

/-- `malloc`, `posix_memalign`: the null pointer if there is no memory. -/
def malloc (sys : Sys) (bytes : Nat) : M α Nat := fun h =>
  if sys h.asked bytes then some (.ok { h with asked := h.asked + 1 } 0)
  else some (.ok { (h.set (h.asked + 1) (some ⟨bytes, fun _ => .raw⟩)) with asked := h.asked + 1 } (h.asked + 1))

/-- Allocators.h:72-151 `allocate`, for elements of `w` bytes. -/
def allocate (sys : Sys) (w count : Nat) : M α Nat := do
  let p ← malloc sys (size (count * w))
  if p = 0 then throw else pure p

/-- Reading an element. -/
def peek (w p i : Nat) : M α (Cell α) := fun h =>
  match h.block p with
  | some b => if (i + 1) * w ≤ b.bytes then some (.ok h (b.cells i)) else none
  | none => none

/-- Writing an element. -/
def write (w p i : Nat) (c : Cell α) : M α Unit := fun h =>
  match h.block p with
  | some b => if (i + 1) * w ≤ b.bytes then some (.ok (h.set p (some { b with cells := fun j => if j = i then c else b.cells j })) ()) else none
  | none => none

/-- Reading a pointer. -/
def follow (p i : Nat) : M α Nat := do
  match ← peek 8 p i with
  | .ptr a => pure a
  | _ => fun _ => none

/-- VectorOps.h:58-66 `v_zero` (which sets to any given value here): `n` elements from `i` on. -/
def fill (w p : Nat) (c : Cell α) (i : Nat) : Nat → M α Unit
  | 0 => pure ()
  | n + 1 => do
    write w p i c
    fill w p c (i + 1) n

/-- VectorOps.h:116-124 `v_copy`: `n` elements from `i` on. -/
def copy (w q p i : Nat) : Nat → M α Unit
  | 0 => pure ()
  | n + 1 => do
    let c ← peek w p i
    write w q i c
    copy w q p (i + 1) n

/-- Allocators.h:163-169 `allocate_and_zero`. -/
def allocateAndZero (sys : Sys) (zero : α) (w count : Nat) : M α Nat := do
  let p ← allocate sys w count
  fill w p (.val zero) 0 count
  pure p

/-- Allocators.h:171-198 `deallocate`. -/
def deallocate (p : Nat) : M α Unit := fun h =>
  if p = 0 then some (.ok h ())
  else match h.block p with
    | some _ => some (.ok (h.set p none) ())
    | none => none

/-- Allocators.h:210-220 `reallocate`. -/
def reallocate (sys : Sys) (w p old count : Nat) : M α Nat := do
  let q ← allocate sys w count
  upon (old ≠ 0 ∧ p ≠ 0) (copy w q p 0 (min old count))
  upon (p ≠ 0) (deallocate p)
  pure q

/-- Allocators.h:222-229 `reallocate_and_zero`. -/
def reallocateAndZero (sys : Sys) (zero : α) (w p old count : Nat) : M α Nat := do
  let q ← reallocate sys w p old count
  fill w q (.val zero) 0 count
  pure q

/-- Allocators.h:231-238 `reallocate_and_zero_extension`. -/
def reallocateAndZeroExtension (sys : Sys) (zero : α) (w p old count : Nat) : M α Nat := do
  let q ← reallocate sys w p old count
  upon (count > old) (fill w q (.val zero) old (count - old))
  pure q

/-- Allocators.h:244-246, 254-256: the loop, from channel `c` on. -/
def channelLoop (make : M α Nat) (p c : Nat) : Nat → M α Unit
  | 0 => pure ()
  | n + 1 => do
    let q ← make
    write 8 p c (.ptr q)
    channelLoop make p (c + 1) n

/-- Allocators.h:240-248 `allocate_channels`. -/
def allocateChannels (sys : Sys) (w channels count : Nat) : M α Nat := do
  let p ← allocate sys 8 channels
  channelLoop (allocate sys w count) p 0 channels
  pure p

/-- Allocators.h:250-258 `allocate_and_zero_channels`. -/
def allocateAndZeroChannels (sys : Sys) (zero : α) (w channels count : Nat) : M α Nat := do
  let p ← allocate sys 8 channels
  channelLoop (allocateAndZero sys zero w count) p 0 channels
  pure p

/-- Allocators.h:264-266: the loop, from channel `c` on. -/
def freeLoop (p c : Nat) : Nat → M α Unit
  | 0 => pure ()
  | n + 1 => do
    let q ← follow p c
    deallocate q
    freeLoop p (c + 1) n

/-- Allocators.h:260-268 `deallocate_channels`. -/
def deallocateChannels (p channels : Nat) : M α Unit :=
  if p = 0 then pure ()
  else do
    freeLoop p 0 channels
    deallocate p

/-- Allocators.h:277-281, 294-298: the loops, from channel `c` on.  The pointers are read once for each channel. -/
def copyLoop (w q p m c : Nat) : Nat → M α Unit
  | 0 => pure ()
  | n + 1 => do
    let a ← follow q c
    let b ← follow p c
    copy w a b 0 m
    copyLoop w q p m (c + 1) n

/-- Allocators.h:270-285 `reallocate_channels`. -/
def reallocateChannels (sys : Sys) (w p oldchannels old channels count : Nat) : M α Nat := do
  let q ← allocateChannels sys w channels count
  upon (old ≠ 0 ∧ p ≠ 0) (copyLoop w q p (min old count) 0 (min oldchannels channels))
  upon (p ≠ 0) (deallocateChannels p oldchannels)
  pure q

/-- Allocators.h:287-302 `reallocate_and_zero_extend_channels`. -/
def reallocateAndZeroExtendChannels (sys : Sys) (zero : α) (w p oldchannels old channels count : Nat) : M α Nat := do
  let q ← allocateAndZeroChannels sys zero w channels count
  upon (old ≠ 0 ∧ p ≠ 0) (copyLoop w q p (min old count) 0 (min oldchannels channels))
  upon (p ≠ 0) (deallocateChannels p oldchannels)
  pure q

/-- Allocators.h:337-348, 372-375 `StlAllocator::allocate`, `max_size`; there the exception for a size that is too great is another one. -/
def stlAllocate (sys : Sys) (w n : Nat) : M α Nat :=
  if n = 0 then pure 0
  else if n > (2 ^ 64 - 1) / w then throw
  else allocate sys w n

/-! ### The aligned `malloc` of its own (`USE_OWN_ALIGNED_MALLOC`) -/

/-- Allocators.h:122-123: down to a multiple of 64. -/
def lower : Nat → Nat → Nat
  | 0, a => a
  | fuel + 1, a => if a % 64 ≠ 0 then lower fuel (a - 1) else a

/-- Allocators.h:119-126: from what `malloc` gives for `ownSize` bytes to what is returned.  The loop takes at most 63 rounds; line 125 does nothing. -/
def ownPointer (buf : Nat) : Nat := lower 64 buf + 64

/-- Allocators.h:119. -/
def ownSize (w count : Nat) : Nat := size (size (count * w) + 64)

/-- Allocators.h:126, 189: where the address that `malloc` gave is kept, for `free`; pointers have 8 bytes. -/
def ownSlot (ptr : Nat) : Nat := ptr - 8

end Verif.Alloc
