/-!
# The scavenger with threads

Model of `src/common/Scavenger.h` with several threads that claim and one that scavenges, a step for each access to a shared variable, in any order (sequential consistency is assumed: the variables are not atomic).  What is done under
the mutex is one step.  Objects are numbers (their addresses); a claimed pointer is never null.  Each call is given the time that its `gettimeofday` reads, in whole seconds.  The counters do not wrap; `m_asExcess` is left out.
-/
namespace Verif.ScavengerConc

/-- Scavenger.h:77, an entry of `m_objects`: the object, unless it is null, and the time. -/
structure Slot where
  obj : Option Nat
  time : Int

/-- Where a thread is in `claim` (Scavenger.h:160-183). -/
inductive Claimer where
  | idle
  /-- Line 168-170: about to see whether slot `i` is free, or, past the last, to put the object on the list of excess ones. -/
  | look (t : Nat) (now : Int) (i : Nat)
  /-- Line 171. -/
  | stamp (t : Nat) (now : Int) (i : Nat)
  /-- Line 172. -/
  | put (t : Nat) (now : Int) (i : Nat)
  /-- Line 173: about to read `m_claimed`. -/
  | count
  /-- Line 173: about to write it, having read this. -/
  | counted (v : Nat)

/-- Where the other thread is in `scavenge` (Scavenger.h:187-215). -/
inductive Sweeper where
  | idle
  /-- Line 193. -/
  | check (clearNow : Bool) (now : Int)
  /-- Line 200-202: about to see whether there is anything in slot `i`, or to go on after the last. -/
  | look (clearNow : Bool) (now : Int) (i : Nat) (anything : Bool)
  /-- Line 203. -/
  | age (clearNow : Bool) (now : Int) (i : Nat) (anything : Bool)
  /-- Line 204. -/
  | fetch (clearNow : Bool) (now : Int) (i : Nat)
  /-- Line 205, having read the object. -/
  | clear (clearNow : Bool) (now : Int) (i : Nat) (t : Option Nat)
  /-- Line 206-207. -/
  | delete (clearNow : Bool) (now : Int) (i : Nat) (t : Option Nat)
  /-- Line 212. -/
  | excess (clearNow : Bool) (now : Int) (anything : Bool)
  /-- Line 213, 231-246. -/
  | sweep (clearNow : Bool) (now : Int)

/-- Scavenger.h:75-90, the members, with the threads.  `given`, `spilled` and `deleted` record what has been claimed and when, what has been put on the list of excess objects, and what has been deleted and, if because of its age, when. -/
structure State where
  slots : List Slot
  sec : Int
  excess : List Nat
  lastExcess : Int
  claimed : Nat
  scavenged : Nat
  claimers : Nat → Claimer
  sweeper : Sweeper
  given : List (Nat × Int)
  spilled : List Nat
  deleted : List (Nat × Option Int)

/-- Scavenger.h:129-138 constructor.  What is in a slot at first but the null pointer does not matter; `std::vector` makes it 0. -/
def init (sec : Int) (n : Nat) : State := ⟨List.replicate n ⟨none, 0⟩, sec, [], 0, 0, 0, fun _ => .idle, .idle, [], [], []⟩

/-- What can happen next. -/
inductive Step where
  /-- Thread `c` calls `claim(t)`. -/
  | claim (c : Nat) (t : Nat) (now : Int)
  /-- Thread `c` goes on; `now` is the time if it asks for it (Scavenger.h:223-225). -/
  | go (c : Nat) (now : Int)
  | scavenge (clearNow : Bool) (now : Int)
  /-- The thread that scavenges goes on. -/
  | on

/-- A thread is somewhere else now. -/
def at_ (s : State) (c : Nat) (x : Claimer) : State := { s with claimers := fun d => if d = c then x else s.claimers d }

/-- A step of `claim`. -/
def goOn (s : State) (c : Nat) (later : Int) : Claimer → State
  | .idle => s
  | .look t now i =>
    match s.slots[i]? with
    | some slot => at_ s c (if slot.obj.isSome then .look t now (i + 1) else .stamp t now i)
    | none => at_ { s with excess := s.excess ++ [t], spilled := s.spilled ++ [t], lastExcess := later } c .idle
  | .stamp t now i => at_ { s with slots := s.slots.modify i fun x => { x with time := now } } c (.put t now i)
  | .put t _ i => at_ { s with slots := s.slots.modify i fun x => { x with obj := some t } } c .count
  | .count => at_ s c (.counted s.claimed)
  | .counted v => at_ { s with claimed := v + 1 } c .idle

/-- What to record. -/
def stampFor (clearNow : Bool) (now : Int) : Option Int := if clearNow then none else some now

/-- A step of `scavenge`. -/
def sweepOn (s : State) : Sweeper → State
  | .idle => s
  | .check c now => { s with sweeper := if s.scavenged ≥ s.claimed then .idle else .look c now 0 false }
  | .look c now i any =>
    match s.slots[i]? with
    | some slot => { s with sweeper := if slot.obj.isSome then .age c now i any else .look c now (i + 1) any }
    | none => { s with sweeper := .excess c now any }
  | .age c now i any =>
    match s.slots[i]? with
    | some slot => { s with sweeper := if c || decide (slot.time + s.sec < now) then .fetch c now i else .look c now (i + 1) any }
    | none => s
  | .fetch c now i => { s with sweeper := .clear c now i ((s.slots[i]?).bind Slot.obj) }
  | .clear c now i t => { s with slots := s.slots.modify i fun x => { x with obj := none }, sweeper := .delete c now i t }
  | .delete c now i t => { s with deleted := s.deleted ++ (t.map fun t => (t, stampFor c now)).toList, scavenged := s.scavenged + 1, sweeper := .look c now (i + 1) true }
  | .excess c now any => { s with sweeper := if c || any || decide (now > s.lastExcess + s.sec) then .sweep c now else .idle }
  | .sweep c now => { s with deleted := s.deleted ++ s.excess.map (fun t => (t, stampFor c now)), excess := [], lastExcess := now, sweeper := .idle }

/-- One step.  A thread that is in a call makes no other. -/
def step (s : State) : Step → State
  | .claim c t now => match s.claimers c with
    | .idle => at_ { s with given := s.given ++ [(t, now)] } c (.look t now 0)
    | _ => s
  | .go c now => goOn s c now (s.claimers c)
  | .scavenge clearNow now => match s.sweeper with
    | .idle => { s with sweeper := .check clearNow now }
    | _ => s
  | .on => sweepOn s s.sweeper

/-- Any order of steps. -/
def run (s : State) (steps : List Step) : State := steps.foldl step s

/-- Scavenger.h:141-156, the destructor: what has been deleted in all. -/
def destroyed (s : State) : List Nat :=
  s.deleted.map (·.1) ++ (if s.scavenged < s.claimed then s.slots.filterMap Slot.obj else []) ++ s.excess

/-- No thread is in a call. -/
def State.quiet (s : State) : Prop := (∀ c, s.claimers c = .idle) ∧ s.sweeper = .idle

end Verif.ScavengerConc
