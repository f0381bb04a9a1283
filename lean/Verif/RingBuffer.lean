/-!
# Model of `src/common/RingBuffer.h` (single-threaded view)

The storage is a list of `m_size` elements.  Block accesses (`v_convert`,
`v_zero`, `v_add` on pieces of the array) go through `load` and `store`, which
give `none` when the access would leave the array: `none` is the model's
undefined-behaviour outcome.  `int` values that the code keeps non-negative are
`Nat`; a negative count argument is outside the model (the C++ code would pass
it on to `memcpy`-like loops).  Conversion between sample types `S` and `T` is
simplified away: source, buffer and destination all hold `α`.
-/

namespace Verif.RingBuffer

variable {α : Type}

/-- RingBuffer.h:177-180, the member variables. `buf` is `m_buffer`. -/
structure RB (α : Type) where
  buf : List α
  writer : Nat
  reader : Nat
  size : Nat

/-- A block read of `n` elements starting at `base`; out of range is UB. -/
def load (m : List α) (base n : Nat) : Option (List α) :=
  if base + n ≤ m.length then some ((m.drop base).take n) else none

/-- A block write of `vals` starting at `base`; out of range is UB. -/
def store (m : List α) (base : Nat) (vals : List α) : Option (List α) :=
  if base + vals.length ≤ m.length then
    some (m.take base ++ vals ++ m.drop (base + vals.length))
  else none

/-- RingBuffer.h:182-188 `readSpaceFor`. -/
def readSpaceFor (size w r : Nat) : Nat :=
  if w > r then w - r
  else if w < r then (w + size) - r
  else 0

/-- RingBuffer.h:190-194 `writeSpaceFor`.  The C++ subtraction is on `int`; the
indices are always below `m_size`, so it never goes negative. -/
def writeSpaceFor (size w r : Nat) : Nat :=
  let space := r + size - w - 1
  if space ≥ size then space - size else space

/-- The loop `while (r >= m_size) r -= m_size;` (RingBuffer.h:308, 342, 432,
466, 501), with a bound on the number of rounds. -/
def wrapLoop (size : Nat) : (fuel i : Nat) → Nat
  | 0, i => i
  | fuel + 1, i => if i ≥ size then wrapLoop size fuel (i - size) else i

/-- The same loop; `i` rounds are always enough as `m_size = n + 1 ≥ 1`. -/
def wrap (size i : Nat) : Nat := wrapLoop size i i

/-- RingBuffer.h:202-212 constructor.  The storage comes from `allocate` and is
uninitialised, so its contents `junk` are arbitrary. -/
def init (n : Nat) (junk : List α) : RB α :=
  { buf := junk, writer := 0, reader := 0, size := n + 1 }

/-- RingBuffer.h:226-233 `getSize`. -/
def getSize (b : RB α) : Nat := b.size - 1

/-- RingBuffer.h:269-272. -/
def getReadSpace (b : RB α) : Nat := readSpaceFor b.size b.writer b.reader

/-- RingBuffer.h:276-279. -/
def getWriteSpace (b : RB α) : Nat := writeSpaceFor b.size b.writer b.reader

/-- RingBuffer.h:257-265 `reset`. -/
def reset (b : RB α) : RB α := { b with writer := b.reader }

/-- The block copy out of the ring shared by `read`, `readAdding` and `peek`
(RingBuffer.h:297-305, 331-339, 386-394): one piece, or two if it wraps.
Gives the samples in destination order. -/
def copyOut (b : RB α) (n : Nat) : Option (List α) :=
  let here := b.size - b.reader
  if here ≥ n then load b.buf b.reader n
  else do
    let first ← load b.buf b.reader here
    let second ← load b.buf 0 (n - here)
    pure (first ++ second)

/-- RingBuffer.h:284-313 `read`, on a destination array `dest`.  Result: the
new ring, the new destination, the returned count. -/
def read (b : RB α) (dest : List α) (n : Nat) : Option (RB α × List α × Nat) :=
  let available := readSpaceFor b.size b.writer b.reader
  let n := if n > available then available else n
  if n = 0 then some (b, dest, n)
  else do
    let data ← copyOut b n
    let dest ← store dest 0 data
    pure ({ b with reader := wrap b.size (b.reader + n) }, dest, n)

/-- RingBuffer.h:318-347 `readAdding`: as `read`, adding to the destination. -/
def readAdding [Add α] (b : RB α) (dest : List α) (n : Nat) :
    Option (RB α × List α × Nat) :=
  let available := readSpaceFor b.size b.writer b.reader
  let n := if n > available then available else n
  if n = 0 then some (b, dest, n)
  else do
    let data ← copyOut b n
    let old ← load dest 0 n
    let dest ← store dest 0 (List.zipWith (· + ·) old data)
    pure ({ b with reader := wrap b.size (b.reader + n) }, dest, n)

/-- RingBuffer.h:351-368 `readOne`; `T()` is `0`. -/
def readOne [Zero α] (b : RB α) : Option (RB α × α) :=
  if b.writer = b.reader then some (b, 0)
  else do
    let v ← b.buf[b.reader]?
    let r := b.reader + 1
    let r := if r = b.size then 0 else r
    pure ({ b with reader := r }, v)

/-- RingBuffer.h:373-397 `peek`. -/
def peek (b : RB α) (dest : List α) (n : Nat) : Option (List α × Nat) :=
  let available := readSpaceFor b.size b.writer b.reader
  let n := if n > available then available else n
  if n = 0 then some (dest, n)
  else do
    let data ← copyOut b n
    let dest ← store dest 0 data
    pure (dest, n)

/-- RingBuffer.h:401-414 `peekOne`. -/
def peekOne [Zero α] (b : RB α) : Option α :=
  if b.writer = b.reader then some 0 else b.buf[b.reader]?

/-- RingBuffer.h:418-437 `skip`. -/
def skip (b : RB α) (n : Nat) : RB α × Nat :=
  let available := readSpaceFor b.size b.writer b.reader
  let n := if n > available then available else n
  if n = 0 then (b, n)
  else ({ b with reader := wrap b.size (b.reader + n) }, n)

/-- The block copy into the ring shared by `write` and `zero`
(RingBuffer.h:455-463, 490-498). -/
def copyIn (b : RB α) (vals : List α) : Option (List α) :=
  let here := b.size - b.writer
  if here ≥ vals.length then store b.buf b.writer vals
  else do
    let m ← store b.buf b.writer (vals.take here)
    store m 0 (vals.drop here)

/-- RingBuffer.h:442-473 `write` of the `n` samples at `source`; the samples are
given as the list `xs` of length `n`. -/
def write (b : RB α) (xs : List α) : Option (RB α × Nat) :=
  let available := writeSpaceFor b.size b.writer b.reader
  let n := if xs.length > available then available else xs.length
  if n = 0 then some (b, n)
  else do
    let m ← copyIn b (xs.take n)
    pure ({ b with buf := m, writer := wrap b.size (b.writer + n) }, n)

/-- RingBuffer.h:477-508 `zero`. -/
def zero [Zero α] (b : RB α) (n : Nat) : Option (RB α × Nat) :=
  let available := writeSpaceFor b.size b.writer b.reader
  let n := if n > available then available else n
  if n = 0 then some (b, n)
  else do
    let m ← copyIn b (List.replicate n 0)
    pure ({ b with buf := m, writer := wrap b.size (b.writer + n) }, n)

/-- RingBuffer.h:246-250, the copying loop of `resized`.  `fuel` bounds the
iterations; running out of fuel is reported as `none` (it would mean the loop
does not end, since at most `m_size - 1` elements are unread). -/
def resizedLoop (b : RB α) : (fuel r : Nat) → RB α → Option (RB α)
  | fuel, r, nb =>
    if r = b.writer then some nb
    else match fuel with
      | 0 => none
      | fuel + 1 => do
        let v ← b.buf[r]?
        let (nb, _) ← write nb [v]
        let r := r + 1
        resizedLoop b fuel (if r = b.size then 0 else r) nb

/-- RingBuffer.h:237-253 `resized`. -/
def resized (b : RB α) (newSize : Nat) (junk : List α) : Option (RB α) :=
  resizedLoop b b.size b.reader (init newSize junk)

/-- The public calls. -/
inductive Op (α : Type) where
  | write (xs : List α)
  | zero (n : Nat)
  | read (dest : List α) (n : Nat)
  | readAdding (dest : List α) (n : Nat)
  | readOne
  | peek (dest : List α) (n : Nat)
  | peekOne
  | skip (n : Nat)
  | reset
  | getReadSpace
  | getWriteSpace
  | getSize

/-- What a caller sees: the destination array (or single sample as a one-element
list) after the call, and the returned number. -/
structure Out (α : Type) where
  data : List α
  count : Nat
deriving DecidableEq

/-- One call on the model. -/
def step [Zero α] [Add α] (b : RB α) : Op α → Option (RB α × Out α)
  | .write xs => do let (b, n) ← write b xs; pure (b, ⟨[], n⟩)
  | .zero n => do let (b, n) ← zero b n; pure (b, ⟨[], n⟩)
  | .read d n => do let (b, d, n) ← read b d n; pure (b, ⟨d, n⟩)
  | .readAdding d n => do let (b, d, n) ← readAdding b d n; pure (b, ⟨d, n⟩)
  | .readOne => do let (b, v) ← readOne b; pure (b, ⟨[v], 0⟩)
  | .peek d n => do let (d, n) ← peek b d n; pure (b, ⟨d, n⟩)
  | .peekOne => do let v ← peekOne b; pure (b, ⟨[v], 0⟩)
  | .skip n => let (b, n) := skip b n; some (b, ⟨[], n⟩)
  | .reset => some (reset b, ⟨[], 0⟩)
  | .getReadSpace => some (b, ⟨[], getReadSpace b⟩)
  | .getWriteSpace => some (b, ⟨[], getWriteSpace b⟩)
  | .getSize => some (b, ⟨[], getSize b⟩)

/-- A sequence of calls; `none` if any of them is undefined behaviour. -/
def run [Zero α] [Add α] (b : RB α) : List (Op α) → Option (RB α × List (Out α))
  | [] => some (b, [])
  | op :: ops => do
    let (b, o) ← step b op
    let (b, os) ← run b ops
    pure (b, o :: os)

end Verif.RingBuffer
