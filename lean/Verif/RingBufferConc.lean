import Verif.RingBuffer
/-!
# Model of `src/common/RingBuffer.h` with one writer and one reader thread

Each call is split into atomic steps: the load of `m_writer`, the load of
`m_reader`, one step per element copied, and the store of the updated index.
The steps of the two threads interleave arbitrarily, and each thread may begin
any call whenever it is idle, so every pair of programs and every schedule is a
path of `Step`.  Element copies of one call may happen in any order (as a
vectorised or `memcpy`-based `v_convert` may do).  The interleaving model is
sequentially consistent; the source uses sequentially consistent atomics for
the indices, and `C02_race_free` shows the element accesses never race, which is
what makes a sequentially consistent view of them legitimate.
-/
namespace Verif.RingBuffer.Conc

variable {α : Type}

/-- Calls of the writing thread. `zero n` (RingBuffer.h:477-508) is the same code
as `write` with zeros for source, so it is `write (replicate n 0)` here. -/
inductive WCall (α : Type) where
  | write (xs : List α)
  | space

/-- Calls of the reading thread.  `readOne` (RingBuffer.h:351-368) is `read 1`
and `readAdding` takes the same samples as `read`. -/
inductive RCall where
  | read (n : Nat)
  | peek (n : Nat)
  | skip (n : Nat)
  | space

/-- A completed writing call: samples offered and number accepted. -/
inductive WRes (α : Type) where
  | write (xs : List α) (count : Nat)
  | space (k : Nat)

/-- A completed reading call: number requested and samples obtained. -/
inductive RRes (α : Type) where
  | read (n : Nat) (got : List α)
  | peek (n : Nat) (got : List α)
  | skip (n : Nat) (count : Nat)
  | space (k : Nat)

/-- Where the writing thread is inside a call. -/
inductive WPC (α : Type) where
  | idle
  | loaded (c : WCall α) (w : Nat)
  | copying (xs : List α) (w n : Nat) (wrote : Nat → Bool)

/-- Where the reading thread is inside a call. -/
inductive RPC (α : Type) where
  | idle
  | loaded (c : RCall) (w : Nat)
  | reading (req r n : Nat) (got : Nat → Option α)
  | peeking (req r n : Nat) (got : Nat → Option α)
  | skipping (req r n : Nat)

/-- Shared memory, the two threads' positions, their completed calls (newest
first), and a flag raised by any access outside an array. -/
structure St (α : Type) where
  buf : List α
  writer : Nat
  reader : Nat
  size : Nat
  wpc : WPC α
  rpc : RPC α
  wlog : List (WRes α)
  rlog : List (RRes α)
  fault : Bool

/-- Storage slot of the `j`-th element of a transfer starting at index `base`:
the first `m_size - base` elements run to the end of the array, the others
start again at 0 (RingBuffer.h:297-305, 455-463). -/
def slot (size base j : Nat) : Nat :=
  if j < size - base then base + j else j - (size - base)

/-- The construction state (RingBuffer.h:202-212). -/
def start (n : Nat) (junk : List α) : St α :=
  { buf := junk, writer := 0, reader := 0, size := n + 1, wpc := .idle, rpc := .idle,
    wlog := [], rlog := [], fault := false }

/-- Writer, after loading both indices (RingBuffer.h:445-453; 276-279). -/
def wLoadR (s : St α) (c : WCall α) (w : Nat) : St α :=
  match c with
  | .write xs =>
    let available := writeSpaceFor s.size w s.reader
    let n := if xs.length > available then available else xs.length
    if n = 0 then { s with wpc := .idle, wlog := .write xs 0 :: s.wlog }
    else { s with wpc := .copying xs w n (fun _ => false) }
  | .space =>
    { s with wpc := .idle, wlog := .space (writeSpaceFor s.size w s.reader) :: s.wlog }

/-- Writer: copy element `j` (RingBuffer.h:458-463). -/
def wCopy (s : St α) (xs : List α) (w n : Nat) (wrote : Nat → Bool) (j : Nat) : St α :=
  match xs[j]? with
  | some v =>
    if slot s.size w j < s.buf.length then
      { s with buf := s.buf.set (slot s.size w j) v,
               wpc := .copying xs w n (fun i => if i = j then true else wrote i) }
    else { s with fault := true }
  | none => { s with fault := true }

/-- Writer: publish the new index (RingBuffer.h:465-472). -/
def wPublish (s : St α) (xs : List α) (w n : Nat) : St α :=
  { s with writer := wrap s.size (w + n), wpc := .idle, wlog := .write xs n :: s.wlog }

/-- Reader, after loading both indices (RingBuffer.h:286-295, 375-384, 420-429;
269-272).  In `getReadSpace` C++ leaves the order of the two loads open; the
reader's own index does not change meanwhile, so the order does not matter. -/
def rLoadR (s : St α) (c : RCall) (w : Nat) : St α :=
  let available := readSpaceFor s.size w s.reader
  match c with
  | .read req =>
    let n := if req > available then available else req
    if n = 0 then { s with rpc := .idle, rlog := .read req [] :: s.rlog }
    else { s with rpc := .reading req s.reader n (fun _ => none) }
  | .peek req =>
    let n := if req > available then available else req
    if n = 0 then { s with rpc := .idle, rlog := .peek req [] :: s.rlog }
    else { s with rpc := .peeking req s.reader n (fun _ => none) }
  | .skip req =>
    let n := if req > available then available else req
    if n = 0 then { s with rpc := .idle, rlog := .skip req 0 :: s.rlog }
    else { s with rpc := .skipping req s.reader n }
  | .space => { s with rpc := .idle, rlog := .space available :: s.rlog }

/-- Reader: copy element `j` out (RingBuffer.h:300-305); `mk` rebuilds the
position with the enlarged set of copied elements. -/
def rCopy (s : St α) (mk : (Nat → Option α) → RPC α) (r : Nat) (got : Nat → Option α)
    (j : Nat) : St α :=
  match s.buf[slot s.size r j]? with
  | some v => { s with rpc := mk (fun i => if i = j then some v else got i) }
  | none => { s with fault := true }

/-- The samples of a finished copy in order. -/
def gathered (n : Nat) (got : Nat → Option α) : List α := (List.range n).filterMap got

/-- One atomic step of either thread. -/
inductive Step : St α → St α → Prop
  /-- The writer begins a call and loads `m_writer`. -/
  | wStart {s : St α} (c : WCall α) : s.wpc = .idle →
      Step s { s with wpc := .loaded c s.writer }
  | wLoadR {s : St α} {c w} : s.wpc = .loaded c w → Step s (wLoadR s c w)
  | wCopy {s : St α} {xs w n wrote} (j : Nat) : s.wpc = .copying xs w n wrote →
      j < n → wrote j = false → Step s (wCopy s xs w n wrote j)
  | wPublish {s : St α} {xs w n wrote} : s.wpc = .copying xs w n wrote →
      (∀ j, j < n → wrote j = true) → Step s (wPublish s xs w n)
  /-- The reader begins a call and loads `m_writer`. -/
  | rStart {s : St α} (c : RCall) : s.rpc = .idle →
      Step s { s with rpc := .loaded c s.writer }
  | rLoadR {s : St α} {c w} : s.rpc = .loaded c w → Step s (rLoadR s c w)
  | rCopy {s : St α} {q r n got} (j : Nat) : s.rpc = .reading q r n got →
      j < n → got j = none → Step s (rCopy s (.reading q r n) r got j)
  | rPeekCopy {s : St α} {q r n got} (j : Nat) : s.rpc = .peeking q r n got →
      j < n → got j = none → Step s (rCopy s (.peeking q r n) r got j)
  /-- The reader stores `m_reader` (RingBuffer.h:307-312). -/
  | rPublish {s : St α} {q r n got} : s.rpc = .reading q r n got →
      (∀ j, j < n → got j ≠ none) →
      Step s { s with reader := wrap s.size (r + n), rpc := .idle,
                      rlog := .read q (gathered n got) :: s.rlog }
  /-- The end of `peek` (RingBuffer.h:396): no store. -/
  | rPeekEnd {s : St α} {q r n got} : s.rpc = .peeking q r n got →
      (∀ j, j < n → got j ≠ none) →
      Step s { s with rpc := .idle, rlog := .peek q (gathered n got) :: s.rlog }
  /-- The store of `skip` (RingBuffer.h:431-436). -/
  | rSkip {s : St α} {q r n} : s.rpc = .skipping q r n →
      Step s { s with reader := wrap s.size (r + n), rpc := .idle,
                      rlog := .skip q n :: s.rlog }

/-- States reachable from construction by any schedule. -/
inductive Reachable (n : Nat) (junk : List α) : St α → Prop
  | start : Reachable n junk (start n junk)
  | step {s s'} : Reachable n junk s → Step s s' → Reachable n junk s'

end Verif.RingBuffer.Conc
