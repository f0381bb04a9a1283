import Mathlib.Data.Rat.Floor
import Mathlib.Tactic.Linarith
import Mathlib.Tactic.Ring
/-!
# Rounding functions of the C library, on exact rationals
-/
namespace Verif.Round

/-- `lrint` with the default rounding mode: to the nearest integer, a tie to the even one. -/
def lrint (x : Rat) : Int :=
  let f := x.floor
  if x - f < 1 / 2 then f
  else if 1 / 2 < x - f then f + 1
  else if f % 2 = 0 then f else f + 1

/-- `round`: to the nearest integer, a tie away from zero. -/
def roundAway (x : Rat) : Int :=
  if 0 ≤ x then (x + 1 / 2).floor else -((-x + 1 / 2).floor)

theorem floor_bounds (x : Rat) : (x.floor : Rat) ≤ x ∧ x < x.floor + 1 := by
  refine ⟨Rat.floor_le x, ?_⟩
  by_contra h
  push Not at h
  have : x.floor + 1 ≤ x.floor := Rat.le_floor_iff.mpr (by push_cast; exact h)
  omega

theorem lrint_bounds (x : Rat) : (lrint x : Rat) ≤ x + 1 / 2 ∧ x - 1 / 2 ≤ lrint x := by
  obtain ⟨h1, h2⟩ := floor_bounds x
  unfold lrint
  simp only
  split
  · constructor <;> linarith
  · split
    · push_cast; constructor <;> linarith
    · split
      · constructor <;> linarith
      · push_cast; constructor <;> linarith

theorem lrint_int (n : Int) : lrint (n : Rat) = n := by
  unfold lrint
  simp

theorem lrint_mono {x y : Rat} (h : x ≤ y) : lrint x ≤ lrint y := by
  rcases lt_or_eq_of_le h with h | h
  · by_contra hc
    push Not at hc
    obtain ⟨a1, a2⟩ := lrint_bounds x
    obtain ⟨b1, b2⟩ := lrint_bounds y
    have e : (lrint y : Rat) + 1 ≤ lrint x := by exact_mod_cast hc
    have : lrint x = lrint y + 1 := by
      have : (lrint x : Rat) < lrint y + 2 := by linarith
      have : lrint x < lrint y + 2 := by exact_mod_cast this
      omega
    have : (lrint x : Rat) = lrint y + 1 := by exact_mod_cast this
    linarith
  · rw [h]

theorem lrint_nonneg {x : Rat} (h : 0 ≤ x) : 0 ≤ lrint x := by
  have := lrint_mono h
  rw [show (0 : Rat) = ((0 : Int) : Rat) by simp, lrint_int] at this
  exact this

theorem lrint_le_int {x : Rat} {n : Int} (h : x ≤ n) : lrint x ≤ n := by
  have := lrint_mono h
  rwa [lrint_int] at this

theorem int_le_lrint {x : Rat} {n : Int} (h : (n : Rat) ≤ x) : n ≤ lrint x := by
  have := lrint_mono h
  rwa [lrint_int] at this

theorem roundAway_bounds (x : Rat) : (roundAway x : Rat) ≤ x + 1 / 2 ∧ x - 1 / 2 ≤ roundAway x := by
  unfold roundAway
  split
  · obtain ⟨h1, h2⟩ := floor_bounds (x + 1 / 2)
    constructor <;> linarith
  · obtain ⟨h1, h2⟩ := floor_bounds (-x + 1 / 2)
    push_cast
    constructor <;> linarith

theorem roundAway_nonneg {x : Rat} (h : 0 ≤ x) : 0 ≤ roundAway x := by
  unfold roundAway
  rw [if_pos h]
  rw [Rat.le_floor_iff]
  push_cast
  linarith

theorem roundAway_int (n : Int) : roundAway (n : Rat) = n := by
  obtain ⟨h1, h2⟩ := roundAway_bounds (n : Rat)
  have a : roundAway (n : Rat) < n + 1 := by
    have : (roundAway (n : Rat) : Rat) < n + 1 := by linarith
    exact_mod_cast this
  have b : n - 1 < roundAway (n : Rat) := by
    have : (n : Rat) - 1 < roundAway (n : Rat) := by linarith
    exact_mod_cast this
  omega

example : lrint (5 / 2) = 2 ∧ lrint (7 / 2) = 4 ∧ lrint (-5 / 2) = -2 ∧ lrint (9 / 4) = 2 := by decide +kernel
example : roundAway (5 / 2) = 3 ∧ roundAway (-5 / 2) = -3 ∧ roundAway (-1 / 4) = 0 := by decide +kernel

end Verif.Round
