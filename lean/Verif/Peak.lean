import Verif.MovingMedian
/-!
# Model of `src/finer/Peak.h`

`greater` is the comparison the class is instantiated with; nothing is assumed
of it here (with `double` values it fails on NaN).  `none` is an access outside
an array.  The arrays `nearest` and `next` may be null pointers, `none` of
`Option`; they hold bin numbers as integers.
-/
namespace Verif.Peak

variable {α : Type}

/-- Peak.h:76-89, the loop over the neighbours, with `fuel` rounds left
(`i + p + 1 - k`): whether `x` at `i` is a peak. -/
def neighbours (greater : α → α → Bool) (v : List α) (rangeStart n i : Nat) (x : α) :
    (fuel : Nat) → (k : Int) → Option Bool
  | 0, _ => some true
  | fuel + 1, k =>
    if k < rangeStart ∨ k = i then neighbours greater v rangeStart n i x fuel (k + 1)
    else if k ≥ n then some true
    else
      match v[k.toNat]? with
      | none => none
      | some y =>
        if k < i ∧ ¬ greater x y then some false
        else if k > i ∧ greater y x then some false
        else neighbours greater v rangeStart n i x fuel (k + 1)

/-- Peak.h:73-93, from `i` on for `rounds` rounds.  `found` is the filled part of
`m_locations`, which has room for `room` entries. -/
def findLoop (greater : α → α → Bool) (v : List α) (rangeStart n p room : Nat) :
    (rounds i : Nat) → (found : List Nat) → Option (List Nat)
  | 0, _, found => some found
  | rounds + 1, i, found =>
    match v[i]? with
    | none => none
    | some x =>
      match neighbours greater v rangeStart n i x (2 * p + 1) ((i : Int) - p) with
      | none => none
      | some false => findLoop greater v rangeStart n p room rounds (i + 1) found
      | some true =>
        if found.length < room then
          findLoop greater v rangeStart n p room rounds (i + 1) (found ++ [i])
        else none

/-- Peak.h:97-102, the candidate `np`. -/
def candidate (peaks : List Nat) (i j : Nat) : Int :=
  if j < peaks.length then peaks.getD j 0
  else if peaks.length > 0 then peaks.getD (peaks.length - 1) 0
  else i

/-- Peak.h:103-109, the entry for `next[i]`. -/
def nextEntry (peaks : List Nat) (i j : Nat) (pp np : Int) : Int :=
  if pp = i ∨ j ≥ peaks.length then i else np

/-- Peak.h:110-120, the entry for `nearest[i]`. -/
def nearestEntry (i j : Nat) (pp np : Int) : Int :=
  if j = 0 then np
  else if np - i ≤ i - pp then np else pp

/-- Peak.h:121-124, `while (j < nPeaks && m_locations[j] <= i) { pp = np; ++j; }`. -/
def advance (peaks : List Nat) (i : Nat) (np : Int) : (fuel j : Nat) → (pp : Int) → Nat × Int
  | 0, j, pp => (j, pp)
  | fuel + 1, j, pp =>
    if j < peaks.length ∧ peaks.getD j 0 ≤ i then advance peaks i np fuel (j + 1) np
    else (j, pp)

/-- A store into an array that may be absent. -/
def setOpt (a : Option (List Int)) (i : Nat) (x : Int) : Option (Option (List Int)) :=
  match a with
  | none => some none
  | some l => (MovingMedian.setAt l i x).map some

/-- Peak.h:95-125, from `i` on for `rounds` rounds. -/
def mapLoop (peaks : List Nat) : (rounds i j : Nat) → (pp : Int) →
    (nearest next : Option (List Int)) → Option (Option (List Int) × Option (List Int))
  | 0, _, _, _, nearest, next => some (nearest, next)
  | rounds + 1, i, j, pp, nearest, next => do
    let np := candidate peaks i j
    let next ← setOpt next i (nextEntry peaks i j pp np)
    let nearest ← setOpt nearest i (nearestEntry i j pp np)
    let (j, pp) := advance peaks i np peaks.length j pp
    mapLoop peaks rounds (i + 1) j pp nearest next

/-- Peak.h:63-126 `findNearestAndNextPeaks` with a range, on an object made for
length `m_n`.  The overload on lines 51-57 passes the range `0`, `m_n`. -/
def findNearestAndNextPeaks (greater : α → α → Bool) (m_n : Nat) (v : List α)
    (rangeStart rangeCount p : Nat) (nearest next : Option (List Int)) :
    Option (Option (List Int) × Option (List Int)) := do
  let peaks ← findLoop greater v rangeStart (rangeStart + rangeCount) p m_n rangeCount rangeStart []
  mapLoop peaks rangeCount rangeStart 0 ((rangeStart : Int) - 1) nearest next

end Verif.Peak
