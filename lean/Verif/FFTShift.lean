import Verif.R3Spectral
import Verif.FFTProps
/-! # Transforms with the halves changed over, and what is lost with the top two bins -/
namespace Verif.R3
open Finset Verif.FFT

theorem turn_halves {f : ℝ} (hf : f * f = 1) {h : Nat} (hh : 0 < h) (k : Nat) : turn f (2 * h) (k * h) = (-1) ^ k := by
  rw [Nat.mul_comm k h, turn_pow hf, turn_half hh]

theorem sum_halves {M : Type} [AddCommMonoid M] (h : Nat) (f : Nat → M) : ∑ j ∈ range (2 * h), f j = ∑ j ∈ range h, f j + ∑ j ∈ range h, f (h + j) := by
  rw [two_mul, sum_range_add]

theorem sign_sq (k : Nat) : ((-1 : ℂ)) ^ k * (-1) ^ k = 1 := by
  rw [← mul_pow]; norm_num

/-- Changing over the halves turns every other bin. -/
theorem spectrum_swap {n : Nat} (hn : n % 2 = 0) (x : Nat → ℝ) (k : Nat) : spectrum n (swapHalves n x) k = (-1) ^ k * spectrum n x k := by
  obtain ⟨h, rfl⟩ : ∃ h, n = 2 * h := ⟨n / 2, by omega⟩
  rcases Nat.eq_zero_or_pos h with rfl | hh
  · simp [FFT.spectrum]
  rw [spectrum_turn, spectrum_turn, sum_halves, sum_halves, mul_add, add_comm]
  have e : 2 * h / 2 = h := by omega
  congr 1
  · rw [mul_sum]
    refine sum_congr rfl fun j hj => ?_
    rw [mem_range] at hj
    unfold swapHalves
    rw [e, if_neg (by omega), Nat.add_sub_cancel_left, Nat.mul_add, turn_add one_sq, turn_halves one_sq hh]
    ring
  · rw [mul_sum]
    refine sum_congr rfl fun j hj => ?_
    rw [mem_range] at hj
    unfold swapHalves
    rw [e, if_pos hj, Nat.mul_add, turn_add one_sq, turn_halves one_sq hh, Nat.add_comm j h]
    linear_combination (-(x (h + j) : ℂ) * turn 1 (2 * h) (k * j)) * sign_sq k

theorem mirrored_sign {n : Nat} (hn : n % 2 = 0) (X : Nat → ℂ) {k : Nat} (hk : k < n) : mirrored n (fun k => (-1) ^ k * X k) k = (-1) ^ k * mirrored n X k := by
  unfold mirrored
  split
  · rfl
  · rw [map_mul, map_pow, map_neg, map_one]
    congr 1
    have : ((-1 : ℂ)) ^ (n - k) * (-1) ^ k = (-1) ^ k * (-1) ^ k := by
      rw [← pow_add, Nat.sub_add_cancel (by omega), sign_sq]
      obtain ⟨h, rfl⟩ : ∃ h, n = 2 * h := ⟨n / 2, by omega⟩
      rw [pow_mul]; norm_num
    have h0 : ((-1 : ℂ)) ^ k ≠ 0 := pow_ne_zero _ (by norm_num)
    exact mul_right_cancel₀ h0 this

/-- The same for the way back. -/
theorem resum_swap {n : Nat} (hn : n % 2 = 0) (X : Nat → ℂ) {j : Nat} (hj : j < n) : swapHalves n (resum n X) j = resum n (fun k => (-1) ^ k * X k) j := by
  obtain ⟨h, rfl⟩ : ∃ h, n = 2 * h := ⟨n / 2, by omega⟩
  have hh : 0 < h := by omega
  have e : 2 * h / 2 = h := by omega
  have key : ∀ i k, k < 2 * h → (j = i + h ∨ i = j + h) → mirrored (2 * h) X k * turn (-1) (2 * h) (i * k) = mirrored (2 * h) (fun k => (-1) ^ k * X k) k * turn (-1) (2 * h) (j * k) := by
    intro i k hk hi
    rw [mirrored_sign (by omega) X hk]
    rcases hi with rfl | rfl
    · rw [Nat.add_mul, turn_add neg_sq', Nat.mul_comm h k, turn_halves neg_sq' hh]
      linear_combination (-mirrored (2 * h) X k * turn (-1) (2 * h) (i * k)) * sign_sq k
    · rw [Nat.add_mul, turn_add neg_sq', Nat.mul_comm h k, turn_halves neg_sq' hh]
      ring
  unfold swapHalves
  rw [e]
  split
  · rw [resum_turn, resum_turn]
    exact congrArg Complex.re (sum_congr rfl fun k hk => key _ k (mem_range.mp hk) (Or.inr rfl))
  · rw [resum_turn, resum_turn]
    exact congrArg Complex.re (sum_congr rfl fun k hk => key _ k (mem_range.mp hk) (Or.inl (by omega)))

theorem mirrored_add (n : Nat) (X Y : Nat → ℂ) (k : Nat) : mirrored n (fun k => X k + Y k) k = mirrored n X k + mirrored n Y k := by
  unfold mirrored
  split <;> simp

theorem mirrored_smul (n : Nat) (a : ℝ) (X : Nat → ℂ) (k : Nat) : mirrored n (fun k => (a : ℂ) * X k) k = a * mirrored n X k := by
  unfold mirrored
  split <;> simp

theorem resum_add (n : Nat) (X Y : Nat → ℂ) (j : Nat) : resum n (fun k => X k + Y k) j = resum n X j + resum n Y j := by
  rw [resum, resum, resum, ← Complex.add_re, ← sum_add_distrib]
  refine congrArg Complex.re (sum_congr rfl fun k _ => ?_)
  rw [mirrored_add, add_mul]

theorem resum_smul (n : Nat) (a : ℝ) (X : Nat → ℂ) (j : Nat) : resum n (fun k => (a : ℂ) * X k) j = a * resum n X j := by
  rw [resum, resum, ← Complex.re_ofReal_mul, mul_sum]
  refine congrArg Complex.re (sum_congr rfl fun k _ => ?_)
  rw [mirrored_smul, mul_assoc]

theorem resum_zero (n : Nat) (j : Nat) : resum n (fun _ => 0) j = 0 := by
  unfold resum mirrored
  simp

/-- What the two uppermost of the `n / 2 + 1` bins of a frame stand for. -/
noncomputable def top (n : Nat) (x : Nat → ℝ) (j : Nat) : ℝ := resum n (fun k => if k + 1 < n / 2 then 0 else spectrum n x k) j / n

/-- The other bins, transformed back. -/
theorem resum_below {n : Nat} (x : Nat → ℝ) {j : Nat} (hj : j < n) : resum n (fun k => if k + 1 < n / 2 then spectrum n x k else 0) j = n * (x j - top n x j) := by
  have h := resum_spectrum x hj
  have e : resum n (spectrum n x) j = resum n (fun k => if k + 1 < n / 2 then spectrum n x k else 0) j + resum n (fun k => if k + 1 < n / 2 then 0 else spectrum n x k) j := by
    rw [← resum_add]
    refine resum_congr (fun k _ => ?_) j
    split <;> simp
  have hn : (n : ℝ) ≠ 0 := by
    have : n ≠ 0 := by omega
    exact_mod_cast this
  rw [h] at e
  unfold top
  field_simp
  linarith

theorem polar_back (z : ℂ) : ((‖z‖ : ℝ) : ℂ) * Complex.exp ((z.arg : ℂ) * Complex.I) = z := Complex.norm_mul_exp_arg_mul_I z

/-- Magnitudes (divided by the size) and phases below the top two bins, scaled and transformed back: the frame without what these stand for. -/
theorem resum_polar {n : Nat} (hn : n % 2 = 0) (x : Nat → ℝ) (a : ℝ) {X : Nat → ℂ}
    (hX : ∀ k < n / 2 + 1, X k = if k + 1 < n / 2 then (((‖transformed n x k‖ * (1 / n)) * a : ℝ) : ℂ) * Complex.exp (((transformed n x k).arg : ℂ) * Complex.I) else 0) {j : Nat} (hj : j < n) :
    swapHalves n (resum n X) j = a * (x j - top n x j) := by
  have h0 : (n : ℝ) ≠ 0 := by
    have : n ≠ 0 := by omega
    exact_mod_cast this
  rw [resum_swap hn _ hj]
  have e : resum n (fun k => (-1) ^ k * X k) j = resum n (fun k => ((a / n : ℝ) : ℂ) * (if k + 1 < n / 2 then spectrum n x k else 0)) j := by
    refine resum_congr (fun k hk => ?_) j
    rw [hX k hk]
    split
    · have hp := polar_back (transformed n x k)
      have : (((‖transformed n x k‖ * (1 / n)) * a : ℝ) : ℂ) * Complex.exp (((transformed n x k).arg : ℂ) * Complex.I) = ((a / n : ℝ) : ℂ) * transformed n x k := by
        push_cast
        linear_combination ((a : ℂ) / n) * hp
      rw [this, transformed, spectrum_swap hn]
      linear_combination (((a / n : ℝ) : ℂ) * spectrum n x k) * sign_sq k
    · simp
  rw [e, resum_smul, resum_below x hj]
  field_simp

/-- Nothing is lost of a frame with nothing there. -/
theorem top_zero {n : Nat} {x : Nat → ℝ} (h : ∀ k, n / 2 ≤ k + 1 → k ≤ n / 2 → spectrum n x k = 0) (j : Nat) : top n x j = 0 := by
  unfold top
  have : resum n (fun k => if k + 1 < n / 2 then 0 else spectrum n x k) j = resum n (fun _ => 0) j := by
    refine resum_congr (fun k hk => ?_) j
    split
    · rfl
    · exact h k (by omega) (by omega)
  rw [this, resum_zero, zero_div]

end Verif.R3
