import Verif.MathMiscLemmas
/-!
# Rounding and rational approximation: properties C11, C12
-/
namespace Verif.MathMisc

/-- `r` is the least power of two not below `x`. -/
def IsLeastPowerOfTwo (x : Rat) (r : Nat) : Prop :=
  (∃ k, r = 2 ^ k) ∧ x ≤ r ∧ ∀ k : Nat, x ≤ 2 ^ k → r ≤ 2 ^ k

/-- **C11** for `roundUp`, up to the largest value that has an answer in 64 bits. -/
theorem C11_roundUp (n : Nat) (h1 : 1 ≤ n) (h2 : n ≤ 2 ^ 63) :
    ∃ r, roundUp n = some r ∧ IsLeastPowerOfTwo n r := by
  obtain ⟨k, r1, r2, r3⟩ := roundUp_spec h1 h2
  refine ⟨_, r1, ⟨k, rfl⟩, by exact_mod_cast r2, ?_⟩
  intro j hj
  exact r3 j (by exact_mod_cast hj)

/-- **C11** for `roundUpDiv`: for a positive numerator. -/
theorem C11_roundUpDiv (x : Rat) (d : Nat) (hx : 0 < x) (hd : 1 ≤ d) (h2 : x ≤ 2 ^ 63 * d) :
    ∃ r, roundUpDiv x d = some r ∧ IsLeastPowerOfTwo (x / d) r := by
  have hd' : (0 : Rat) < d := by exact_mod_cast hd
  have hq : 0 < x / d := by positivity
  have hc1 : x / d ≤ ((x / d).ceil : Rat) := Rat.le_ceil
  have hcpos : 0 < (x / d).ceil := Rat.lt_ceil_iff.mpr (by exact_mod_cast hq)
  have hle : (x / d).ceil ≤ 2 ^ 63 := by
    have : x / d ≤ ((2 ^ 63 : Int) : Rat) := by
      rw [div_le_iff₀ hd']; push_cast; exact h2
    exact Rat.ceil_le_iff.mpr (by exact_mod_cast this)
  obtain ⟨k, r1, r2, r3⟩ := roundUp_spec (n := (x / d).ceil.toNat) (by omega) (by omega)
  have hcast : (((x / d).ceil.toNat : Nat) : Rat) = ((x / d).ceil : Rat) := by
    have : (((x / d).ceil.toNat : Nat) : Int) = (x / d).ceil := by omega
    exact_mod_cast this
  refine ⟨2 ^ k, ?_, ⟨k, rfl⟩, ?_, ?_⟩
  · unfold roundUpDiv
    rw [if_neg (not_lt.mpr hx.le), if_neg (by omega)]
    simp only
    rw [if_pos (by omega), r1]
  · have : (((x / d).ceil.toNat : Nat) : Rat) ≤ ((2 ^ k : Nat) : Rat) := by exact_mod_cast r2
    linarith
  · intro j hj
    apply r3 j
    have : (x / d).ceil ≤ 2 ^ j := by
      have h : x / d ≤ ((2 ^ j : Int) : Rat) := by push_cast; exact hj
      exact Rat.ceil_le_iff.mpr (by exact_mod_cast h)
    have h2 : ((x / d).ceil.toNat : Int) ≤ ((2 ^ j : Nat) : Int) := by push_cast; omega
    exact_mod_cast h2

example : roundUp 1000 = some 1024 ∧ roundUp 1 = some 1 ∧ roundUp (2 ^ 63 - 5) = some (2 ^ 63) ∧
    roundUpDiv 44100 32 = some 2048 ∧ roundUpDiv 44100 40 = some 2048 ∧
    roundUpDiv (-1) 4 = some 0 := by
  refine ⟨by decide +kernel, by decide, ?_, by decide +kernel, by decide +kernel, by decide +kernel⟩
  decide +kernel

/-- Beyond the range of the theorem the code is undefined (a shift by 64). -/
example : roundUp (2 ^ 63 + 1) = none := by decide +kernel

/-- **C12**, as claimed: an admissible fraction, and none closer. -/
def C12_statement : Prop :=
  ∀ (ratio : Rat) (maxDenom : Nat), 0 ≤ ratio → 1 ≤ maxDenom →
    ∃ num denom, pickNearestRational ratio maxDenom = some (num, denom) ∧
      1 ≤ denom ∧ denom ≤ maxDenom ∧
      ∀ p q : Nat, 1 ≤ q → q ≤ maxDenom →
        |ratio - (num : Rat) / denom| ≤ |ratio - (p : Rat) / q|

/-- C12 is false of the code: after the loop it looks at the *previous* bound on
each side, so the nearer of the current bounds can be missed.  For 0.9 with
denominators up to 1 it gives 0/1 instead of 1/1. -/
theorem C12_violated : ¬ C12_statement := by
  intro h
  obtain ⟨n, d, h1, _, _, h4⟩ := h (9 / 10) 1 (by norm_num) (by norm_num)
  have hv : pickNearestRational (9 / 10) 1 = some (0, 1) := by decide +kernel
  rw [hv] at h1
  have := Option.some.inj h1
  simp only [Prod.mk.injEq] at this
  have hh := h4 1 1 (by norm_num) (by norm_num)
  rw [← this.1, ← this.2] at hh
  norm_num [abs_of_pos] at hh

/-- The same with a larger limit: for 22/21 and denominators up to 10 the code gives
11/10 though 1/1 is nearer. -/
example : pickNearestRational (22 / 21) 10 = some (11, 10) := by decide +kernel

/-- **C12 (partial).**  For every ratio and limit the search ends, the denominator
is admissible, and the fraction is within `1 / maxDenom + 1e-9` of the ratio.
Missing: that none is closer, which is false (`C12_violated`). -/
theorem C12_partial (ratio : Rat) (maxDenom : Nat) (hr : 0 ≤ ratio) (hm : 1 ≤ maxDenom) :
    ∃ num denom, pickNearestRational ratio maxDenom = some (num, denom) ∧
      1 ≤ denom ∧ denom ≤ maxDenom ∧
      |ratio - (num : Rat) / denom| < 1 / maxDenom + 1 / 10 ^ 9 := by
  obtain ⟨r, r1, r2, r3, r4⟩ := pickLoop_good hm _ {} (init_finv hr hm)
    (show measure ratio maxDenom {} < ratio.ceil.toNat + 2 * maxDenom + 2 by
      unfold measure; simp)
  refine ⟨r.1, r.2, r1, r2, r3, ?_⟩
  have : eps = 1 / 10 ^ 9 := by unfold eps; norm_num
  rw [← this]; exact r4

/-- **C12 (partial).**  A positive ratio `p / q` that is itself admissible is met to
within 1e-9, with a denominator no larger than `q`; and exactly if
`maxDenom ^ 2 ≤ 10 ^ 9` (distinct admissible fractions are then further apart). -/
theorem C12_admissible_partial (p q maxDenom : Nat) (hp : 1 ≤ p) (hq : 1 ≤ q)
    (hqm : q ≤ maxDenom) :
    ∃ num denom, pickNearestRational ((p : Rat) / q) maxDenom = some (num, denom) ∧
      1 ≤ denom ∧ denom ≤ q ∧ |(p : Rat) / q - (num : Rat) / denom| < 1 / 10 ^ 9 ∧
      (maxDenom ^ 2 ≤ 10 ^ 9 → (num : Rat) / denom = (p : Rat) / q) := by
  have hq0 : (0 : Rat) < q := by exact_mod_cast hq
  have hr : (0 : Rat) ≤ (p : Rat) / q := by positivity
  have hm : 1 ≤ maxDenom := by omega
  obtain ⟨r, r1, r2, r3, r4⟩ := pickLoop_good hm _ {} (init_finv hr hm)
    (show measure ((p : Rat) / q) maxDenom {} < ((p : Rat) / q).ceil.toNat + 2 * maxDenom + 2 by
      unfold measure; simp)
  obtain ⟨h1, h2⟩ := pickLoop_admissible hq hqm _ {} (init_finv hr hm)
    ⟨by simp; omega, by simp; omega⟩ r r1
  have he : eps = 1 / 10 ^ 9 := by unfold eps; norm_num
  rw [he] at h1
  refine ⟨r.1, r.2, r1, r2, h2, h1, ?_⟩
  intro hsq
  by_contra hne
  have hd0 : (0 : Rat) < r.2 := by exact_mod_cast r2
  rw [div_sub_div _ _ (ne_of_gt hq0) (ne_of_gt hd0), abs_div, abs_of_pos (by positivity : (0 : Rat) < q * r.2),
    div_lt_iff₀ (by positivity)] at h1
  have hint : (1 : Rat) ≤ |(p : Rat) * r.2 - q * r.1| := by
    have hz : ((p : Int) * r.2 - q * r.1) ≠ 0 := by
      intro hz
      apply hne
      rw [div_eq_div_iff (ne_of_gt hd0) (ne_of_gt hq0)]
      have : (p : Int) * r.2 = q * r.1 := by omega
      have h : (p : Rat) * r.2 = q * r.1 := by exact_mod_cast this
      linarith
    have := Int.one_le_abs hz
    exact_mod_cast this
  have hle : (q : Rat) * r.2 ≤ maxDenom ^ 2 := by
    have : q * r.2 ≤ maxDenom ^ 2 := by rw [Nat.pow_two]; exact Nat.mul_le_mul hqm r3
    exact_mod_cast this
  have hsq' : ((maxDenom : Rat)) ^ 2 ≤ 10 ^ 9 := by exact_mod_cast hsq
  have : (1 : Rat) / 10 ^ 9 * (q * r.2) ≤ 1 / 10 ^ 9 * 10 ^ 9 := by
    apply mul_le_mul_of_nonneg_left _ (by norm_num)
    linarith
  norm_num at this h1
  linarith

/-- 44100 to 48000: the ratio 160/147. -/
example : pickNearestRational (48000 / 44100) 16384 = some (160, 147) := by decide +kernel

end Verif.MathMisc
