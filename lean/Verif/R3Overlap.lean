import Verif.R3Spectral
import Verif.R2Gain
/-! # Windows that overlap to a constant -/
namespace Verif.R3
open Finset

/-- `n` is a multiple of `h`, and what is added of `g` at positions `h` apart is the same everywhere. -/
def Overlaps (g : Nat → ℝ) (n h : Nat) : Prop := 0 < h ∧ ∃ k c, n = k * h ∧ c ≠ 0 ∧ ∀ a < h, ∑ j ∈ range k, g (a + j * h) = c

theorem sum_blocks (g : Nat → ℝ) (h : Nat) : ∀ k, ∑ i ∈ range (k * h), g i = ∑ a ∈ range h, ∑ j ∈ range k, g (a + j * h) := by
  intro k
  induction k with
  | zero => simp
  | succ k ih =>
    rw [Nat.succ_mul, sum_range_add, ih, ← sum_add_distrib]
    refine sum_congr rfl fun a _ => ?_
    rw [sum_range_succ, Nat.add_comm a]

theorem Overlaps.one {g : Nat → ℝ} {n h : Nat} (ho : Overlaps g n h) {pos N : Nat} (h1 : pos < N * h) (h2 : n ≤ pos + h) :
    (∑ m ∈ range N, if m * h ≤ pos ∧ pos < m * h + n then h / (∑ i ∈ range n, g i) * g (pos - m * h) else 0) = 1 := by
  obtain ⟨hh, k, c, rfl, hc, ho⟩ := ho
  have hs : ∑ i ∈ range (k * h), g i = h * c := by
    rw [sum_blocks, sum_congr rfl (fun a ha => ho a (mem_range.mp ha)), sum_const, card_range, nsmul_eq_mul]
  have hh0 : (h : ℝ) ≠ 0 := by exact_mod_cast (by omega : h ≠ 0)
  have hd := Nat.div_add_mod pos h
  rw [Nat.mul_comm] at hd
  have ha := Nat.mod_lt pos hh
  have hq : pos / h < N := (Nat.div_lt_iff_lt_mul hh).mpr h1
  have hg := R2.gather (fun i => h / (h * c) * g i) (w := k * h) (h := h) (k := k) (r := 0) (a := pos % h) (q := pos / h) (n := N) (by omega) hh ha hq (by rw [Nat.succ_mul]; omega)
  rw [hd] at hg
  rw [hs, hg, if_neg (by omega), add_zero, ← mul_sum, ho _ ha]
  field_simp

/-- The products of the Niemitalo windows. -/
theorem pair_overlaps {n h : Nat} (hn : n % 8 = 0) (hh : 0 < h) (hd : h ∣ n / 4) (h0 : 0 < n) : Overlaps (Window.pair n) n h := by
  obtain ⟨q, hq⟩ := hd
  have hq0 : 0 < q := by
    rcases Nat.eq_zero_or_pos q with rfl | h
    · omega
    · exact h
  have e : n = 4 * q * h := by
    have : n = 4 * (n / 4) := by omega
    rw [hq] at this
    rw [this]; ring
  refine ⟨hh, 4 * q, q, e, by exact_mod_cast (by omega : q ≠ 0), fun a ha => ?_⟩
  have lt : ∀ j, j < q → j * h + a < n / 4 := by
    intro j hj
    have : (j + 1) * h ≤ q * h := Nat.mul_le_mul_right _ hj
    rw [Nat.succ_mul] at this
    rw [hq, Nat.mul_comm h q]
    omega
  have qh : q * h = n / 4 := by rw [hq, Nat.mul_comm]
  rw [show 4 * q = q + q + q + q by ring, sum_range_add, sum_range_add, sum_range_add]
  have z1 : ∑ j ∈ range q, Window.pair n (a + j * h) = 0 := by
    refine sum_eq_zero fun j hj => Window.pair_outside hn (Or.inl ?_)
    have := lt j (mem_range.mp hj)
    omega
  have z4 : ∑ j ∈ range q, Window.pair n (a + (q + q + q + j) * h) = 0 := by
    refine sum_eq_zero fun j hj => Window.pair_outside hn (Or.inr ?_)
    rw [Nat.add_mul, Nat.add_mul, Nat.add_mul, qh]
    omega
  rw [z1, z4, zero_add, add_zero, ← sum_add_distrib]
  have : ∀ j ∈ range q, Window.pair n (a + (q + j) * h) + Window.pair n (a + (q + q + j) * h) = 1 := by
    intro j hj
    have l := lt j (mem_range.mp hj)
    rw [← Window.pair_quarter hn (i := j * h + a) l]
    congr 2
    · rw [Nat.add_mul, qh]; omega
    · rw [Nat.add_mul, Nat.add_mul, qh]; omega
  rw [sum_congr rfl this, sum_const, card_range, nsmul_eq_mul, mul_one]

/-- Hann windows squared. -/
theorem hann_overlaps {n h k : Nat} (hh : 0 < h) (hn : n = k * h) (hk : 3 ≤ k) : Overlaps (fun i => Window.hann n i * Window.hann n i) n h := by
  refine ⟨hh, k, k * (3 / 8), hn, ?_, fun a _ => ?_⟩
  · have : (k : ℝ) ≠ 0 := by exact_mod_cast (by omega : k ≠ 0)
    positivity
  · have e : ∀ j, Window.hann n (a + j * h) * Window.hann n (a + j * h) = R2.hann n (a + j * h) * R2.hann n (a + j * h) := fun _ => rfl
    simp only [e, R2.hann_square]
    rw [sum_add_distrib, sum_sub_distrib, ← mul_sum, ← mul_sum, sum_const, card_range, nsmul_eq_mul]
    have c1 := R2.cos_sum_near (m := 1) (by omega) (by omega : 1 < k) (r := 0) (by omega : n = k * h + 0) hh (2 * Real.pi * a / n)
    have c2 := R2.cos_sum_near (m := 2) (by omega) (by omega : 2 < k) (r := 0) (by omega : n = k * h + 0) hh (2 * Real.pi * a / n)
    rw [Nat.cast_zero, mul_zero, zero_div] at c1 c2
    rw [abs_nonpos_iff.mp c1, abs_nonpos_iff.mp c2]
    ring

end Verif.R3
