import Verif.MovingMedian
/-!
# Model of the reordering helpers of `src/common/VectorOps.h` and of
`cutShiftAndFold` in `src/faster/R2Stretcher.h`

`none` is an access outside an array.  Only the generic (non-IPP) versions are
modelled.
-/
namespace Verif.VectorOps
open Verif.MovingMedian (setAt)
open Verif.RingBuffer (load store)

variable {α : Type}

/-- VectorOps.h:766-768 (and 756-758), the inner loop over channels from `j` on. -/
def interleaveFrame (src : List (List α)) (i : Nat) : (rounds j idx : Nat) → List α →
    Option (Nat × List α)
  | 0, _, idx, dst => some (idx, dst)
  | rounds + 1, j, idx, dst => do
    let ch ← src[j]?
    let x ← ch[i]?
    let dst ← setAt dst idx x
    interleaveFrame src i rounds (j + 1) (idx + 1) dst

/-- VectorOps.h:765-769, the outer loop from frame `i` on. -/
def interleaveLoop (src : List (List α)) (channels : Nat) : (rounds i idx : Nat) → List α →
    Option (List α)
  | 0, _, _, dst => some dst
  | rounds + 1, i, idx, dst => do
    let (idx, dst) ← interleaveFrame src i channels 0 idx dst
    interleaveLoop src channels rounds (i + 1) idx dst

/-- VectorOps.h:745-771 `v_interleave`.  The case of 2 channels is the general loop
with the number written out. -/
def v_interleave (dst : List α) (src : List (List α)) (channels count : Nat) :
    Option (List α) :=
  if channels = 2 then interleaveLoop src 2 count 0 0 dst
  else if channels = 1 then do
    let ch ← src[0]?
    let block ← load ch 0 count
    store dst 0 block
  else interleaveLoop src channels count 0 0 dst

/-- VectorOps.h:809-811, the inner loop. -/
def deinterleaveFrame (src : List α) (i : Nat) : (rounds j idx : Nat) → List (List α) →
    Option (Nat × List (List α))
  | 0, _, idx, dst => some (idx, dst)
  | rounds + 1, j, idx, dst => do
    let x ← src[idx]?
    let ch ← dst[j]?
    let ch ← setAt ch i x
    let dst ← setAt dst j ch
    deinterleaveFrame src i rounds (j + 1) (idx + 1) dst

/-- VectorOps.h:808-812, the outer loop. -/
def deinterleaveLoop (src : List α) (channels : Nat) : (rounds i idx : Nat) → List (List α) →
    Option (List (List α))
  | 0, _, _, dst => some dst
  | rounds + 1, i, idx, dst => do
    let (idx, dst) ← deinterleaveFrame src i channels 0 idx dst
    deinterleaveLoop src channels rounds (i + 1) idx dst

/-- VectorOps.h:788-814 `v_deinterleave`. -/
def v_deinterleave (dst : List (List α)) (src : List α) (channels count : Nat) :
    Option (List (List α)) :=
  if channels = 2 then deinterleaveLoop src 2 count 0 0 dst
  else if channels = 1 then do
    let ch ← dst[0]?
    let block ← load src 0 count
    let ch ← store ch 0 block
    setAt dst 0 ch
  else deinterleaveLoop src channels count 0 0 dst

/-- VectorOps.h:836-840, the loop of `v_fftshift` from `i` on. -/
def fftshiftLoop (hs : Nat) : (rounds i : Nat) → List α → Option (List α)
  | 0, _, ptr => some ptr
  | rounds + 1, i, ptr => do
    let t ← ptr[i]?
    let u ← ptr[i + hs]?
    let ptr ← setAt ptr i u
    let ptr ← setAt ptr (i + hs) t
    fftshiftLoop hs rounds (i + 1) ptr

/-- VectorOps.h:831-841 `v_fftshift`. -/
def v_fftshift (ptr : List α) (count : Nat) : Option (List α) :=
  fftshiftLoop (count / 2) (count / 2) 0 ptr

/-- R2Stretcher.h:148 `while (j < 0) j += targetSize;`. -/
def raise (targetSize : Nat) : (fuel : Nat) → (j : Int) → Option Nat
  | fuel, j =>
    if j < 0 then
      match fuel with
      | 0 => none
      | fuel + 1 => raise targetSize fuel (j + targetSize)
    else some j.toNat

/-- R2Stretcher.h:149-152, the folding loop. -/
def foldLoop [Add α] (src : List α) (targetSize : Nat) : (rounds i j : Nat) → List α →
    Option (List α)
  | 0, _, _, target => some target
  | rounds + 1, i, j, target => do
    let x ← src[i]?
    let y ← target[j]?
    let target ← setAt target j (y + x)
    foldLoop src targetSize rounds (i + 1) (if j + 1 = targetSize then 0 else j + 1) target

/-- R2Stretcher.h:136-154 `cutShiftAndFold`.  `window` holds the window's values;
cutting multiplies by them. -/
def cutShiftAndFold [Add α] [Mul α] [Zero α] (target : List α) (targetSize : Nat)
    (src window : List α) : Option (List α) := do
  let windowSize := window.length
  let head ← load src 0 windowSize
  let src := List.zipWith (· * ·) head window ++ src.drop windowSize
  let hs := targetSize / 2
  if windowSize = targetSize then do
    let block ← load src hs hs
    let target ← store target 0 block
    let block ← load src 0 hs
    store target hs block
  else do
    let target ← store target 0 (List.replicate targetSize 0)
    let j ← raise targetSize windowSize ((targetSize : Int) - ((windowSize / 2 : Nat) : Int))
    foldLoop src targetSize windowSize 0 j target

end Verif.VectorOps
