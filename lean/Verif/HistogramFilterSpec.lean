import Verif.HistogramFilter
/-!
# Specification for the histogram filter
-/
namespace Verif.HistogramFilter

/-- The values that should be in a window of length `L` after a call. -/
def windowStep (L : Nat) (w : List Nat) : Op → List Nat
  | .push v => (if w.length = L then w.tail else w) ++ [v]
  | .drop => w.tail
  | .reset => []
  | .getMode => w

/-- The values in the window after a history. -/
def window (L : Nat) (w : List Nat) (ops : List Op) : List Nat := ops.foldl (windowStep L) w

/-- All pushed values lie in the range `[0, nValues)` the filter was made for. -/
def InRange (nValues : Nat) (ops : List Op) : Prop := ∀ v, Op.push v ∈ ops → v < nValues

/-- `v` occurs in `w` most often, and is the smallest such value. -/
def IsMode (w : List Nat) (v : Nat) : Prop :=
  v ∈ w ∧ ∀ u, w.count u ≤ w.count v ∧ (w.count u = w.count v → v ≤ u)

/-- No `push` onto a full window pushes out a value that is the window's mode. -/
def ModeNeverDisplaced (L : Nat) : List Nat → List Op → Prop
  | _, [] => True
  | w, op :: ops =>
    (∀ v x t, op = .push v → w.length = L → w = x :: t → ¬ IsMode w x) ∧
    ModeNeverDisplaced L (windowStep L w op) ops

end Verif.HistogramFilter
