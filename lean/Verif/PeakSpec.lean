import Verif.Peak
/-!
# Specification of peaks and nearest peaks
-/
namespace Verif.Peak
variable {α : Type}

/-- `i` is a peak of `v` within the range `[s, n)`: its value is greater than
those of the `p` bins below it and not exceeded by those of the `p` above. -/
def IsPeak (greater : α → α → Bool) (v : List α) (s n p i : Nat) : Prop :=
  s ≤ i ∧ i < n ∧ ∃ x, v[i]? = some x ∧
    (∀ k y, s ≤ k → k < i → i ≤ k + p → v[k]? = some y → greater x y = true) ∧
    (∀ k y, i < k → k < n → k ≤ i + p → v[k]? = some y → greater y x = false)

/-- Distance between bins. -/
def dist (a b : Nat) : Nat := if a ≤ b then b - a else a - b

/-- `q` is the peak nearest to bin `i`, the higher one if two are equally near. -/
def IsNearest (P : Nat → Prop) (i q : Nat) : Prop :=
  P q ∧ ∀ r, P r → dist i q ≤ dist i r ∧ (dist i q = dist i r → r ≤ q)

/-- `q` is the first peak at or above bin `i`. -/
def IsNext (P : Nat → Prop) (i q : Nat) : Prop := P q ∧ i ≤ q ∧ ∀ r, P r → i ≤ r → q ≤ r

end Verif.Peak
