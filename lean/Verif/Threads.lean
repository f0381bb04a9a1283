import Mathlib.Logic.Function.Basic
import Mathlib.Data.List.Basic

/-!
# Mutex and Condition (src/common/Thread.cpp, the version for POSIX, lines 375-563)

Each access of a thread to something shared is one step, and the steps of the threads are interleaved in any order.  The memory is sequentially consistent: for C++ the unguarded reads of `m_locked` and `m_lockedBy`
(Thread.cpp:401, 423, 426) are data races, and what compilers make of them is not modelled.  Threads are numbers.  Messages for debugging are left out.
-/

namespace Verif.Threads

/-! ## The mutex -/

/-- Where a thread is in the calls of `Mutex` (Thread.cpp:396-461).  `idle`: in none of them. -/
inductive MPc where
  | idle
  /-- `lock`, line 401: about to read `m_locked`. -/
  | lockTest
  /-- `lock`, line 401: about to read `m_lockedBy`. -/
  | lockOwner
  /-- `lock`, line 408: in `pthread_mutex_lock`. -/
  | lockWait
  /-- `lock`, line 410. -/
  | lockBy
  /-- `lock`, line 411. -/
  | lockMark
  /-- `unlock`, line 423. -/
  | unTest
  /-- `unlock`, line 426. -/
  | unOwner
  /-- `unlock`, line 435. -/
  | unClear
  /-- `unlock`, line 437. -/
  | unFree
  /-- `trylock`, line 446. -/
  | tryWait
  /-- `trylock`, line 453. -/
  | tryBy
  /-- `trylock`, line 454. -/
  | tryMark
  deriving DecidableEq

/-- What can be observed: returns of the calls, and the messages on the error output (Thread.cpp:402, 424, 427). -/
inductive Event where
  /-- `lock` returned. -/
  | locked (t : Nat)
  /-- `trylock` returned `b`. -/
  | tried (t : Nat) (b : Bool)
  /-- `unlock` returned without a message. -/
  | unlocked (t : Nat)
  /-- "Deadlock on mutex" (line 402). -/
  | deadlock (t : Nat)
  /-- "not locked in unlock" (line 424), and `unlock` returned. -/
  | notLocked (t : Nat)
  /-- "not owned by unlocking thread" (line 427), and `unlock` returned. -/
  | notOwned (t : Nat)
  deriving DecidableEq

/-- Whose event it is. -/
def Event.who : Event → Nat
  | .locked t | .tried t _ | .unlocked t | .deadlock t | .notLocked t | .notOwned t => t

/-- The state of a `Mutex` (Thread.h:97-110), of the threads, and what was observed, the latest first. -/
structure MState where
  /-- Who has the `pthread_mutex_t`. -/
  os : Option Nat
  /-- `m_lockedBy`. -/
  lockedBy : Nat
  /-- `m_locked`. -/
  locked : Bool
  pc : Nat → MPc
  seen : List Event
  /-- A thread has called `pthread_mutex_unlock` for a mutex that it did not have, which is undefined. -/
  bad : Bool

/-- `Mutex::Mutex` (Thread.cpp:375-386). -/
def MState.start : MState := ⟨none, 0, false, fun _ => .idle, [], false⟩

/-- The calls. -/
inductive Call where
  | lock
  | unlock
  | trylock

/-- A thread goes to another place. -/
def MState.go (s : MState) (t : Nat) (p : MPc) : MState := { s with pc := Function.update s.pc t p }

/-- Something is observed. -/
def MState.note (s : MState) (e : Event) : MState := { s with seen := e :: s.seen }

/-- A step of the thread `t` (Thread.cpp:396-461).  If it is in no call, it makes the call `c`.  In `pthread_mutex_lock` it stays where it is while the mutex is taken (also by itself: a mutex of the default kind for
which this is undefined in POSIX, and blocks in the usual implementations). -/
def MState.step (s : MState) (t : Nat) (c : Call) : MState :=
  match s.pc t with
  | .idle => match c with
    | .lock => s.go t .lockTest
    | .unlock => s.go t .unTest
    | .trylock => s.go t .tryWait
  | .lockTest => if s.locked then s.go t .lockOwner else s.go t .lockWait
  | .lockOwner => if s.lockedBy = t then (s.note (.deadlock t)).go t .lockWait else s.go t .lockWait
  | .lockWait => if s.os = none then { s with os := some t }.go t .lockBy else s
  | .lockBy => { s with lockedBy := t }.go t .lockMark
  | .lockMark => ({ s with locked := true }.note (.locked t)).go t .idle
  | .unTest => if s.locked then s.go t .unOwner else (s.note (.notLocked t)).go t .idle
  | .unOwner => if s.lockedBy = t then s.go t .unClear else (s.note (.notOwned t)).go t .idle
  | .unClear => { s with locked := false }.go t .unFree
  | .unFree => ({ s with os := none, bad := s.bad || decide (s.os ≠ some t) }.note (.unlocked t)).go t .idle
  | .tryWait => if s.os = none then { s with os := some t }.go t .tryBy else (s.note (.tried t false)).go t .idle
  | .tryBy => { s with lockedBy := t }.go t .tryMark
  | .tryMark => ({ s with locked := true }.note (.tried t true)).go t .idle

/-- Any number of threads make any calls, and take turns in any order. -/
inductive MState.Reach : MState → Prop where
  | start : MState.Reach .start
  | step {s : MState} (t : Nat) (c : Call) : MState.Reach s → MState.Reach (s.step t c)

/-! ## The condition -/

/-- Where a thread is in the calls of `Condition` (Thread.cpp:490-563).  `out`: in none of them, and it has not locked.  `within`: in none of them, and `lock` or `wait` was the last that returned. -/
inductive CPc where
  | out
  | within
  /-- `lock`, line 496: in `pthread_mutex_lock`. -/
  | locking
  /-- `lock`, line 497. -/
  | lockMark
  /-- `wait`, line 527 or 547: it has released the mutex and waits. -/
  | waiting
  /-- `wait`, line 527 or 547: it has been woken, or the time is over, and needs the mutex. -/
  | woken
  /-- `wait`, line 553. -/
  | waitMark
  /-- `unlock`, line 506. -/
  | unTest
  /-- `unlock`, line 515. -/
  | unClear
  /-- `unlock`, line 516. -/
  | unFree
  deriving DecidableEq

/-- The state of a `Condition` (Thread.h:157-159) and of the threads. -/
structure CState where
  /-- Who has the `pthread_mutex_t`. -/
  os : Option Nat
  /-- `m_locked`. -/
  locked : Bool
  pc : Nat → CPc
  /-- An `unlock` has returned without doing anything, since `m_locked` was not set (line 510). -/
  ignored : Bool
  /-- A thread has released a mutex that it did not have, in `pthread_mutex_unlock` or `pthread_cond_wait`. -/
  bad : Bool

/-- `Condition::Condition` (Thread.cpp:463-478). -/
def CState.start : CState := ⟨none, false, fun _ => .out, false, false⟩

def CState.go (s : CState) (t : Nat) (p : CPc) : CState := { s with pc := Function.update s.pc t p }

/-- What a thread does next when it has a choice. -/
inductive CAct where
  | lock
  | unlock
  | wait
  /-- `signal`, which wakes the thread given, if one waits. -/
  | signal (w : Nat)
  /-- It goes on with the call that it is in. -/
  | go

/-- `pthread_cond_signal` (Thread.cpp:562): wakes the thread `w` if it waits; if it does not, nobody is woken. -/
def CState.wake (s : CState) (w : Nat) : CState := if s.pc w = .waiting then s.go w .woken else s

/-- A step of the thread `t` (Thread.cpp:490-563).  It makes calls only as the comment in Thread.h:123-135 says: `unlock` and `wait` only if it has locked; where it may not, nothing happens.  A thread that waits goes on when
it likes: because the time is over (line 547) or because it was woken for no reason, which POSIX allows. -/
def CState.step (s : CState) (t : Nat) (a : CAct) : CState :=
  match s.pc t with
  | .out => match a with
    | .lock => s.go t .locking
    | .signal w => s.wake w
    | _ => s
  | .within => match a with
    | .unlock => s.go t .unTest
    | .wait => { s with os := none, bad := s.bad || decide (s.os ≠ some t) }.go t .waiting
    | .signal w => s.wake w
    | _ => s
  | .locking => if s.os = none then { s with os := some t }.go t .lockMark else s
  | .lockMark => { s with locked := true }.go t .within
  | .waiting => s.go t .woken
  | .woken => if s.os = none then { s with os := some t }.go t .waitMark else s
  | .waitMark => { s with locked := true }.go t .within
  | .unTest => if s.locked then s.go t .unClear else { s with ignored := true }.go t .out
  | .unClear => { s with locked := false }.go t .unFree
  | .unFree => { s with os := none, bad := s.bad || decide (s.os ≠ some t) }.go t .out

/-- Any number of threads make any calls that they may, and take turns in any order. -/
inductive CState.Reach : CState → Prop where
  | start : CState.Reach .start
  | step {s : CState} (t : Nat) (a : CAct) : CState.Reach s → CState.Reach (s.step t a)

/-! ## A thread that waits for something, and others that provide it -/

/-- How far a user of the condition has got. -/
inductive Stage where
  | idle
  /-- The thread that waits has found that there is nothing yet. -/
  | nothing
  /-- A thread that provides has provided, and has not signalled yet. -/
  | provided
  /-- It has signalled. -/
  | told
  deriving DecidableEq

/-- A condition, whether there is something, and the users.  The thread 0 waits, all the others provide. -/
structure Users where
  c : CState
  ready : Bool
  stage : Nat → Stage

def Users.start : Users := ⟨.start, false, fun _ => .idle⟩

def Users.to (s : Users) (t : Nat) (g : Stage) : Users := { s with stage := Function.update s.stage t g }

/-- What a user does next. -/
inductive Do where
  /-- Goes on within the call it is in. -/
  | go
  | lock
  /-- The thread that waits looks whether there is something (StretcherProcess.cpp:76). -/
  | look
  /-- It waits, having found nothing (line 77). -/
  | wait
  /-- It takes what there is. -/
  | take
  /-- Another provides something (without the lock, as R2Stretcher.cpp:1318-1322 does). -/
  | provide
  | signal
  | unlock

/-- A thread goes on within its call (in no call, it does nothing). -/
def Users.inner (s : Users) (t : Nat) : Users := { s with c := s.c.step t .go }

/-- A step of the thread that waits (StretcherProcess.cpp:75-79: lock, look, wait if there is nothing, unlock; it may look again before it unlocks). -/
def Users.waiter (s : Users) : Do → Users
  | .go => s.inner 0
  | .lock => if s.c.pc 0 = .out then { s with c := s.c.step 0 .lock } else s
  | .look => if s.c.pc 0 = .within then s.to 0 (if s.ready then .idle else .nothing) else s
  | .wait => if s.c.pc 0 = .within ∧ s.stage 0 = .nothing then { s with c := s.c.step 0 .wait }.to 0 .idle else s
  | .take => if s.c.pc 0 = .within ∨ s.c.pc 0 = .out then { s with ready := false } else s
  | .unlock => if s.c.pc 0 = .within then { s with c := s.c.step 0 .unlock }.to 0 .idle else s
  | _ => s

/-- A step of a thread that provides (R2Stretcher.cpp:1318-1342 with StretcherProcess.cpp:96-102: provide, lock, signal, unlock).  As only the thread 0 ever waits, it is the one that a signal wakes. -/
def Users.provider (s : Users) (t : Nat) : Do → Users
  | .go => s.inner t
  | .provide => if s.c.pc t = .out ∧ s.stage t = .idle then { s with ready := true }.to t .provided else s
  | .lock => if s.c.pc t = .out ∧ s.stage t = .provided then { s with c := s.c.step t .lock } else s
  | .signal => if s.c.pc t = .within ∧ s.stage t = .provided then { s with c := s.c.step t (.signal 0) }.to t .told else s
  | .unlock => if s.c.pc t = .within ∧ s.stage t = .told then { s with c := s.c.step t .unlock }.to t .idle else s
  | _ => s

def Users.step (s : Users) (t : Nat) (d : Do) : Users := if t = 0 then s.waiter d else s.provider t d

inductive Users.Reach : Users → Prop where
  | start : Users.Reach .start
  | step {s : Users} (t : Nat) (d : Do) : Users.Reach s → Users.Reach (s.step t d)

/-! ## The time until which to wait -/

/-- Thread.cpp:535-538: whole seconds are carried over.  The fuel is more than the loop needs. -/
def carry : Nat → Nat → Nat → Nat × Nat
  | 0, sec, usec => (sec, usec)
  | f + 1, sec, usec => if usec > 1000000 then carry f (sec + 1) (usec - 1000000) else (sec, usec)

/-- `tv_sec` and `tv_nsec` of the time given to `pthread_cond_timedwait` by `wait(us)` at the time `sec`, `usec` (Thread.cpp:531-542), for `us` positive. -/
def deadline (sec usec us : Nat) : Nat × Nat :=
  let r := carry (usec + us) sec (usec + us)
  (r.1, r.2 * 1000)

/-- What `pthread_cond_timedwait` does with it: a number of nanoseconds of 1000000000 or more is an error (`EINVAL`), and it returns at once; otherwise it waits until that time, in nanoseconds. -/
def waitsUntil (d : Nat × Nat) : Option Nat := if d.2 < 1000000000 then some (d.1 * 1000000000 + d.2) else none

end Verif.Threads
