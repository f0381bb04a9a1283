import Verif.MovingMedian
/-!
# Specification of moving order statistics
-/
namespace Verif.MovingMedian
variable {α : Type}

/-- The values a filter of length `L` should hold after a call, oldest first. -/
def windowStep [Zero α] (L : Nat) (w : List α) : Op α → List α
  | .push v => (if w.length = L then w.tail else w) ++ [v.getD 0]
  | .drop => w.tail
  | .reset => []
  | .setPercentile _ => w

/-- The values held after a history. -/
def window [Zero α] (L : Nat) (w : List α) (ops : List (Op α)) : List α :=
  ops.foldl (windowStep L) w

/-- The percentile in force after a history. -/
def percentileAfter (p : Rat) (ops : List (Op α)) : Rat :=
  ops.foldl (fun p op => match op with | .setPercentile q => q | _ => p) p

/-- `v` is the element of rank `k` (0-based) of the multiset of values `w`. -/
def IsRank [LinearOrder α] (w : List α) (k : Nat) (v : α) : Prop :=
  ∃ s : List α, s.Perm w ∧ s.Pairwise (· ≤ ·) ∧ s[k]? = some v

/-- The rank asked for by percentile `p` among `m` values. -/
def rank (p : Rat) (m : Nat) : Nat :=
  if p = 50 then (m - 1) / 2 else (((m - 1 : Nat) : Rat) * p / 100).floor.toNat

end Verif.MovingMedian
