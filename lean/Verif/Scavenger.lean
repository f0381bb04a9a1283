/-!
# Model of `src/common/Scavenger.h`

Objects are named by numbers (their addresses); a claimed pointer is never null.
Every call is given the time `now` its `gettimeofday` reads, in whole seconds.
A claim and a scavenge are each one step (the source says the class is "not really
thread safe"; calls are taken not to overlap).  `deleted` records the deletions in
order: the object, and the time if it was deleted because of its age, or `none`
if it was deleted on demand (`scavenge(true)`) or by the destructor.
The counters do not wrap.
-/
namespace Verif.Scavenger

/-- Scavenger.h:75-90, member variables.  A slot with a null pointer is `none`. -/
structure Sc where
  objects : List (Option (Nat × Int))
  sec : Int
  excess : List Nat
  lastExcess : Int
  claimed : Nat
  scavenged : Nat
  asExcess : Nat
  deleted : List (Nat × Option Int)

/-- Scavenger.h:129-138 constructor. -/
def init (sec : Int) (n : Nat) : Sc :=
  { objects := List.replicate n none, sec := sec, excess := [], lastExcess := 0,
    claimed := 0, scavenged := 0, asExcess := 0, deleted := [] }

/-- Scavenger.h:169-177, the search for a free slot. -/
def place (t : Nat) (now : Int) : List (Option (Nat × Int)) → Option (List (Option (Nat × Int)))
  | [] => none
  | none :: rest => some (some (t, now) :: rest)
  | some o :: rest => (place t now rest).map (some o :: ·)

/-- Scavenger.h:219-227 `pushExcess`. -/
def pushExcess (s : Sc) (t : Nat) (now : Int) : Sc :=
  { s with excess := s.excess ++ [t], lastExcess := now }

/-- Scavenger.h:160-183 `claim`. -/
def claim (s : Sc) (t : Nat) (now : Int) : Sc :=
  match place t now s.objects with
  | some objects => { s with objects := objects, claimed := s.claimed + 1 }
  | none => pushExcess s t now

/-- Scavenger.h:231-246 `clearExcess`; `at_` is what to record. -/
def clearExcess (s : Sc) (now : Int) (at_ : Option Int) : Sc :=
  { s with deleted := s.deleted ++ s.excess.map (fun t => (t, at_)),
           asExcess := s.asExcess + s.excess.length, excess := [], lastExcess := now }

/-- Scavenger.h:200-210, the loop over the slots: new slots, objects deleted. -/
def sweep (clearNow : Bool) (sec now : Int) :
    List (Option (Nat × Int)) → List (Option (Nat × Int)) × List Nat
  | [] => ([], [])
  | none :: rest =>
    let (slots, dead) := sweep clearNow sec now rest
    (none :: slots, dead)
  | some (t, at_) :: rest =>
    let (slots, dead) := sweep clearNow sec now rest
    if clearNow || decide (at_ + sec < now) then (none :: slots, t :: dead)
    else (some (t, at_) :: slots, dead)

/-- What to record for a deletion in `scavenge`. -/
def stamp (clearNow : Bool) (now : Int) : Option Int := if clearNow then none else some now

/-- Scavenger.h:200-210 on the object. -/
def sweepAll (s : Sc) (clearNow : Bool) (now : Int) : Sc × Bool :=
  let (slots, dead) := sweep clearNow s.sec now s.objects
  ({ s with objects := slots, scavenged := s.scavenged + dead.length,
            deleted := s.deleted ++ dead.map (fun t => (t, stamp clearNow now)) },
    !dead.isEmpty)

/-- Scavenger.h:187-215 `scavenge`. -/
def scavenge (s : Sc) (clearNow : Bool) (now : Int) : Sc :=
  if s.scavenged ≥ s.claimed then s
  else
    let (s, anything) := sweepAll s clearNow now
    if clearNow || anything || decide (now > s.lastExcess + s.sec) then
      clearExcess s now (stamp clearNow now)
    else s

/-- Scavenger.h:143-153, the loop of the destructor. -/
def emptySlots (s : Sc) : Sc :=
  let dead := s.objects.filterMap (fun o => o.map (·.1))
  { s with objects := s.objects.map (fun _ => none), scavenged := s.scavenged + dead.length,
           deleted := s.deleted ++ dead.map (fun t => (t, none)) }

/-- Scavenger.h:141-156 destructor. -/
def destroy (s : Sc) : Sc :=
  clearExcess (if s.scavenged < s.claimed then emptySlots s else s) 0 none

/-- The public calls. -/
inductive Op where
  | claim (t : Nat) (now : Int)
  | scavenge (clearNow : Bool) (now : Int)

/-- One call. -/
def step (s : Sc) : Op → Sc
  | .claim t now => claim s t now
  | .scavenge c now => scavenge s c now

/-- A history of calls. -/
def run (s : Sc) (ops : List Op) : Sc := ops.foldl step s

end Verif.Scavenger
