import Verif.R2
/-!
# Model of the faster engine with threads

Offline with more than one channel the faster engine runs a thread for each channel (`ProcessThread`), while its user calls `process`, `available` and `retrieve`.  Here the threads and the user take turns in any order.  A step
touches at most one thing that another thread writes (the read or write space of a ring buffer, the samples in it, `inputSize`, `outputComplete`, the pointer to the output buffer), so that every interleaving of these accesses is
an order of steps.  Ring buffers with one reader and one writer are queues also when used by two threads (C02).  `inputSize`, `draining` and `outputComplete` are `std::atomic`.

Simplified: signals and waits, which have no effect on the data and are bounded in time (StretcherProcess.cpp:69-79, R2Stretcher.cpp:1340-1350), are not there, a thread that waits being one that is not given a turn; the threads
are there before the first `process` (with nothing to do), rather than from it on (R2Stretcher.cpp:1269-1283); `reset` and destruction while threads run are left out, and so are pitch shifting with a mutex around the resampler, and the
freeing of replaced buffers.
-/
namespace Verif.R2.Threads
open Verif.R2

variable {α σ ρ κ : Type}

/-! ## Threads -/

/-- What `testInbufReadSpace` is called for: by `processChunks` in the loop of the thread (StretcherProcess.cpp:65) or after it (88), or before waiting (76). -/
inductive Asker where
  | loop | after | waiting
deriving DecidableEq, Repr

/-- A chunk in the middle of `processChunkForChannel`: whether it is for the call of `processChunks` after the loop, `tmp`, what is left of an overlong increment, the shift increment, and whether it is the last chunk. -/
structure Writing (α : Type) where
  after : Bool
  tmp : Nat → α
  todo : List Incs
  si : Nat
  last : Bool

/-- Where a thread is: what it is about to do. -/
inductive Pc (α : Type) where
  /-- StretcherProcess.cpp:60: load `inputSize`. -/
  | top
  /-- StretcherProcess.cpp:61: load the read space. -/
  | left
  /-- StretcherProcess.cpp:383: load the read space. -/
  | test (k : Asker)
  /-- StretcherProcess.cpp:385-419: load `inputSize`. -/
  | tested (k : Asker) (rs : Nat)
  /-- StretcherProcess.cpp:288-290: look at what there is. -/
  | take (after : Bool)
  /-- StretcherProcess.cpp:291: give up what is not needed any more. -/
  | skip (after : Bool)
  /-- StretcherProcess.cpp:300-318: process the next piece. -/
  | piece (after : Bool) (tmp : Nat → α) (todo : List Incs) (last : Bool)
  /-- StretcherProcess.cpp:499-500: copy the output buffer into one twice as long. -/
  | grow (w : Writing α)
  /-- StretcherProcess.cpp:500: use the new one. -/
  | swap (w : Writing α) (new : Fifo α)
  /-- StretcherProcess.cpp:1058-1061: load `inputSize`. -/
  | limit (w : Writing α)
  /-- StretcherProcess.cpp:1063-1104: write the output. -/
  | emit (w : Writing α) (theoretical : Nat)
  /-- StretcherProcess.cpp:1106-1121: move up, and store `outputComplete`. -/
  | settle (w : Writing α)
  | done

/-- A channel with its thread.  `cd.outbuf` is the buffer in use, `old` those that were replaced, in order. -/
structure Worker (α σ ρ : Type) where
  cd : Chan α σ ρ
  old : List (Fifo α)
  pc : Pc α

/-- StretcherProcess.cpp:308-318: an overlong increment is broken down. -/
def broken (z : Sizes) : (fuel done : Nat) → Incs → List Incs
  | 0, _, _ => []
  | fuel + 1, done, i =>
    if done < i.shift then
      ⟨i.phase + done, if done + z.window / 4 > i.shift then i.shift - done else z.window / 4, i.reset⟩ :: broken z fuel (done + z.window / 4) { i with reset := false }
    else []

/-- StretcherProcess.cpp:298-318: the pieces of a chunk. -/
def pieces (z : Sizes) (i : Incs) : List Incs := if i.shift ≤ z.window then [i] else broken z i.shift 0 i

/-- StretcherProcess.cpp:278-283: out of input. -/
def Asker.no : Asker → Pc α
  | .loop => .test .waiting
  | .after => .done
  | .waiting => .top

/-- StretcherProcess.cpp:285 and 80-86. -/
def Asker.yes : Asker → Pc α
  | .loop => .take false
  | .after => .take true
  | .waiting => .top

/-- The call of `testInbufReadSpace` in the loop of `processChunks`. -/
def asker (after : Bool) : Asker := if after then .after else .loop

/-- StretcherProcess.cpp:274-328, 65-67 and 87-94: after a chunk. -/
def next (after last : Bool) : Pc α := if last then (if after then .done else .test .after) else .test (asker after)

/-- StretcherProcess.cpp:483-487: what is required in the output buffer. -/
def required (z : Sizes) (si : Nat) : Nat := if z.pitchScale ≠ 1 then ((si : Rat) / z.pitchScale).floor.toNat + 1 else si

/-- StretcherProcess.cpp:421-489: the spectral processing of a piece, and whether there is room for its output. -/
def beginPiece (env : Env α σ ρ κ) (z : Sizes) (after : Bool) (tmp : Nat → α) (i : Incs) (todo : List Incs) (w : Worker α σ ρ) : Worker α σ ρ :=
  let cd := spectral env z i { w.cd with fltbuf := tmp }
  if cd.draining && cd.accumulatorFill == 0 then { w with cd := cd, pc := .piece after tmp todo true }
  else
    let si := if cd.draining && i.shift == 0 then z.increment else i.shift
    let last := cd.draining && decide (cd.accumulatorFill ≤ si)
    let x : Writing α := ⟨after, tmp, todo, if last then cd.accumulatorFill else si, last⟩
    { w with cd := cd, pc := if cd.outbuf.writeSpace < required z x.si then .grow x else .limit x }

/-- A step of a thread (StretcherProcess.cpp:54-94, 262-328, 375-519, 1033-1189). -/
def Worker.step (p : Params) (env : Env α σ ρ κ) (z : Sizes) (incs : List Int) (w : Worker α σ ρ) : Option (Worker α σ ρ) :=
  match w.pc with
  | .top => some { w with pc := if w.cd.inputSize.isNone then .test .loop else .left }
  | .left => some { w with pc := if w.cd.inbuf.readSpace > 0 then .test .loop else .test .after }
  | .test k => some { w with pc := .tested k w.cd.inbuf.readSpace }
  | .tested k rs =>
    if rs < z.window ∧ w.cd.draining = false then
      if w.cd.inputSize.isNone then some { w with pc := k.no }
      else if rs = 0 then some { w with pc := k.no }
      else if rs < z.window / 2 then some { w with cd := { w.cd with draining := true }, pc := k.yes }
      else some { w with pc := k.yes }
    else some { w with pc := k.yes }
  | .take after =>
    if w.cd.draining then some { w with pc := .skip after }
    else
      let frame := w.cd.inbuf.peek z.window
      some { w with cd := { w.cd with fltbuf := fun i => frame.getD i (w.cd.fltbuf i) }, pc := .skip after }
  | .skip after =>
    let cd := if w.cd.draining then w.cd else { w.cd with inbuf := w.cd.inbuf.skip z.increment }
    let (cd, i, _) := getIncrements z incs cd
    let cd := analyseChunk env z cd
    some { w with cd := cd, pc := .piece after cd.fltbuf (pieces z i) false }
  | .piece after _ [] last => some { w with cd := { w.cd with chunkCount := w.cd.chunkCount + 1 }, pc := next after last }
  | .piece after tmp (i :: todo) _ => some (beginPiece env z after tmp i todo w)
  | .grow x => some { w with pc := .swap x (w.cd.outbuf.resized (w.cd.outbuf.cap * 2)) }
  | .swap x new => some { w with cd := { w.cd with outbuf := new }, old := w.old ++ [w.cd.outbuf], pc := .limit x }
  | .limit x => some { w with pc := .emit x (theoreticalOut z w.cd) }
  | .emit x theoretical =>
    if x.si > w.cd.accumulatorFill then none
    else
      let (cd, out) := resampled p env z w.cd ((List.range x.si).map (env.emit w.cd.spec)) x.last
      let cd := writeOutput (startSkip p z) theoretical cd out
      some { w with cd := cd, pc := .settle x }
  | .settle x => some { w with cd := lessFill x.si { w.cd with spec := env.shift w.cd.spec w.cd.accumulatorFill x.si }, pc := .piece x.after x.tmp x.todo x.last }
  | .done => some w

/-! ## The user -/

/-- A call that the user makes. -/
inductive Req (α : Type) where
  | process (input : List (Frame α)) (final : Bool)
  | available
  | retrieve (n : Nat)

/-- Where the user is. -/
inductive User (α : Type) where
  | idle
  /-- StretcherProcess.cpp:161: load the write space of channel `c`.  `used` is `consumed` (R2Stretcher.cpp:1292). -/
  | consume (input : List (Frame α)) (final : Bool) (used : List Nat) (c : Nat)
  /-- StretcherProcess.cpp:241-258: write. -/
  | write (input : List (Frame α)) (final : Bool) (used : List Nat) (c writable : Nat)
  /-- R2Stretcher.cpp:1319-1328: store `inputSize`. -/
  | mark (input : List (Frame α)) (final : Bool) (used : List Nat) (c : Nat)
  /-- StretcherProcess.cpp:1243-1245: load the read space of channel `c`. -/
  | asking (c least : Nat) (consumed : Bool)
  /-- StretcherProcess.cpp:1246: load `outputComplete`. -/
  | asked (c least : Nat) (consumed : Bool)
  /-- StretcherProcess.cpp:1276: load the pointer to the output buffer of channel `c`. -/
  | point (n got c : Nat) (outs : List (List α))
  /-- StretcherProcess.cpp:1276: read from it. -/
  | read (n got c : Nat) (outs : List (List α)) (place : Nat)

/-- What the user has been told: the result of `available`; what `retrieve` of so many put in the arrays, and its result. -/
inductive Reply (α : Type) where
  | available (n : Int)
  | retrieved (n : Nat) (outs : List (List α)) (got : Nat)

/-- All there is.  The replies are the newest first. -/
structure Sys (α σ ρ : Type) where
  workers : List (Worker α σ ρ)
  user : User α
  finished : Bool
  replies : List (Reply α)

/-- The buffer at a place: one that was replaced or the one in use. -/
def Worker.bufAt (w : Worker α σ ρ) (place : Nat) : Fifo α := (w.old[place]?).getD w.cd.outbuf

/-- Another buffer at a place. -/
def Worker.setBuf (w : Worker α σ ρ) (place : Nat) (q : Fifo α) : Worker α σ ρ :=
  if place < w.old.length then { w with old := w.old.set place q } else { w with cd := { w.cd with outbuf := q } }

/-- StretcherProcess.cpp:1249-1265: the result of `available`. -/
def answer (z : Sizes) (workers : List (Worker α σ ρ)) (least : Nat) (consumed : Bool) : Int :=
  if least = 0 ∧ consumed = true then -1
  else if z.pitchScale = 1 then least
  else if workers.any (fun w => w.cd.resampler.isSome) then least
  else ((least : Rat) / z.pitchScale).floor

/-- A call begins (R2Stretcher.cpp:1248-1250, 1290-1297; StretcherProcess.cpp:1198-1241, 1270-1274). -/
def Sys.call (s : Sys α σ ρ) : Req α → Sys α σ ρ
  | .process input final => if s.finished then s else { s with user := .consume input final (List.replicate s.workers.length 0) 0 }
  | .available => { s with user := .asking 0 0 true }
  | .retrieve n => { s with user := .point n n 0 [] }

/-- A step of the user in a call. -/
def Sys.userStep [Add α] [Sub α] (p : Params) (env : Env α σ ρ κ) (z : Sizes) (s : Sys α σ ρ) : Option (Sys α σ ρ) :=
  match s.user with
  | .idle => none
  | .consume input final used c =>
    match s.workers[c]? with
    | none =>
      if used.all fun n => decide (n ≥ input.length) then some { s with user := .idle, finished := final }
      else some { s with user := .consume input final used 0 }
    | some w => some { s with user := .write input final used c w.cd.inbuf.writeSpace }
  | .write input final used c writable =>
    match s.workers[c]? with
    | none => none
    | some w =>
      let n := used.getD c 0
      let toWrite := min writable (input.length - n)
      some { s with
        workers := s.workers.set c { w with cd := { w.cd with inbuf := w.cd.inbuf.write (((input.drop n).take toWrite).map (prepared p env c)), inCount := w.cd.inCount + toWrite } }
        user := .mark input final (used.set c (n + toWrite)) c }
  | .mark input final used c =>
    match s.workers[c]? with
    | none => none
    | some w =>
      some { s with
        workers := s.workers.set c (if used.getD c 0 ≥ input.length ∧ final = true then { w with cd := { w.cd with inputSize := some w.cd.inCount } } else w)
        user := .consume input final used (c + 1) }
  | .asking c least consumed =>
    match s.workers[c]? with
    | none => some { s with user := .idle, replies := .available (answer z s.workers least consumed) :: s.replies }
    | some w => some { s with user := .asked c (if c = 0 ∨ w.cd.outbuf.readSpace < least then w.cd.outbuf.readSpace else least) consumed }
  | .asked c least consumed =>
    match s.workers[c]? with
    | none => none
    | some w => some { s with user := .asking (c + 1) least (consumed && w.cd.outputComplete) }
  | .point n got c outs =>
    match s.workers[c]? with
    | none =>
      some { s with user := .idle, replies := .retrieved n (if p.channelsTogether && decide (p.channels ≥ 2) then decode got outs else outs) got :: s.replies }
    | some w => some { s with user := .read n got c outs w.old.length }
  | .read n got c outs place =>
    match s.workers[c]? with
    | none => none
    | some w =>
      let q := w.bufAt place
      let here := q.peek got
      some { s with
        workers := s.workers.set c (w.setBuf place (q.skip got))
        user := .point n (if here.length < got then here.length else got) (c + 1) (outs ++ [here]) }

/-! ## All together -/

/-- Whose turn it is: the user begins a call, the user goes on with one, the thread of a channel. -/
inductive Event (α : Type) where
  | call (r : Req α)
  | user
  | thread (c : Nat)

/-- One turn.  `none` is a turn that cannot be taken, or undefined behaviour. -/
def Sys.step [Add α] [Sub α] (p : Params) (env : Env α σ ρ κ) (z : Sizes) (incs : List Int) (s : Sys α σ ρ) : Event α → Option (Sys α σ ρ)
  | .call r => match s.user with
    | .idle => some (s.call r)
    | _ => none
  | .user => s.userStep p env z
  | .thread c => (s.workers[c]?).bind fun w => (w.step p env z incs).map fun w => { s with workers := s.workers.set c w }

/-- Any number of turns. -/
def Sys.run [Add α] [Sub α] (p : Params) (env : Env α σ ρ κ) (z : Sizes) (incs : List Int) : Sys α σ ρ → List (Event α) → Option (Sys α σ ρ)
  | s, [] => some s
  | s, e :: es => (s.step p env z incs e).bind fun s => Sys.run p env z incs s es

/-- The stretcher when the threads have been started, `t` being the state without threads: the output buffers are sixteen times as long (R2Stretcher.cpp:547-553). -/
def start (t : State α σ ρ κ) : Sys α σ ρ where
  workers := t.chans.map fun cd => ⟨{ cd with outbuf := { cd.outbuf with cap := 16 * cd.outbuf.cap } }, [], .top⟩
  user := .idle
  finished := false
  replies := []

/-! ## What the user sees -/

/-- All that was given to `process`, up to and including a final block. -/
def given : List (Event α) → List (Frame α)
  | [] => []
  | .call (.process input final) :: es => if final then input else input ++ given es
  | _ :: es => given es

/-- Whether a final block was among it. -/
def ends : List (Event α) → Bool
  | [] => false
  | .call (.process _ final) :: es => final || ends es
  | _ :: es => ends es

/-- All that was retrieved of a channel. -/
def heard (c : Nat) : List (Reply α) → List α
  | [] => []
  | .available _ :: l => heard c l
  | .retrieved _ outs got :: l => heard c l ++ (outs.getD c []).take got

/-- How much is left of what `available` gave last. -/
def allowance : List (Reply α) → Nat
  | [] => 0
  | .available n :: _ => n.toNat
  | .retrieved n _ _ :: l => allowance l - n

/-! ## How the user behaves -/

/-- Whether a thread has copied its output buffer and not yet put the copy in its place. -/
def Worker.swapping (w : Worker α σ ρ) : Bool :=
  match w.pc with
  | .swap _ _ => true
  | _ => false

/-- Whether the user is not about to read from an output buffer that is being replaced. -/
def Sys.calm (s : Sys α σ ρ) : Bool :=
  match s.user with
  | .read _ _ c _ _ => (s.workers[c]?).all fun w => !w.swapping
  | _ => true

/-- Whether no more is asked for than `available` said there was. -/
def Sys.heeds (s : Sys α σ ρ) : Event α → Bool
  | .call (.retrieve n) => decide (n ≤ allowance s.replies)
  | _ => true

/-- Whether nothing is ever read from a buffer that is being replaced (which the user cannot know). -/
def Sys.calmly [Add α] [Sub α] (p : Params) (env : Env α σ ρ κ) (z : Sizes) (incs : List Int) : Sys α σ ρ → List (Event α) → Bool
  | s, [] => s.calm
  | s, e :: es => s.calm && match s.step p env z incs e with
    | none => true
    | some s => Sys.calmly p env z incs s es

/-- Whether never more is asked for than `available` said there was. -/
def Sys.heeding [Add α] [Sub α] (p : Params) (env : Env α σ ρ κ) (z : Sizes) (incs : List Int) : Sys α σ ρ → List (Event α) → Bool
  | _, [] => true
  | s, e :: es => s.heeds e && match s.step p env z incs e with
    | none => true
    | some s => Sys.heeding p env z incs s es

end Verif.R2.Threads
