import Verif.R2Spectral
import Mathlib.RingTheory.RootsOfUnity.Complex
import Mathlib.Algebra.Ring.GeomSum
import Mathlib.Analysis.SpecialFunctions.Trigonometric.Bounds
import Mathlib.Analysis.Real.Pi.Bounds
/-!
# Sums of Hann windows

The sums of windows `h` apart, over the reals: how far they are from what they would be if `h` divided the size of the window.
-/
namespace Verif.R2
open Finset

theorem hann_nonneg (n i : Nat) : 0 ≤ hann n i := by
  have := Real.cos_le_one (2 * Real.pi * i / n)
  unfold hann
  linarith

theorem hann_le_one (n i : Nat) : hann n i ≤ 1 := by
  have := Real.neg_one_le_cos (2 * Real.pi * i / n)
  unfold hann
  linarith

theorem hann_sin (n i : Nat) : hann n i = Real.sin (Real.pi * i / n) ^ 2 := by
  have := Real.cos_two_mul (Real.pi * i / n)
  have h2 := Real.sin_sq (Real.pi * i / n)
  rw [show 2 * (Real.pi * i / n) = 2 * Real.pi * i / n by ring] at this
  rw [hann, this, h2]
  ring

theorem hann_pos {n i : Nat} (h0 : 0 < i) (h1 : i < n) : 0 < hann n i := by
  rw [hann_sin]
  have hn : (0 : ℝ) < n := by exact_mod_cast (by omega : 0 < n)
  have hi : (0 : ℝ) < i := by exact_mod_cast h0
  refine pow_pos (Real.sin_pos_of_pos_of_lt_pi (by positivity) ?_) 2
  rw [div_lt_iff₀ hn]
  exact mul_lt_mul_of_pos_left (by exact_mod_cast h1) Real.pi_pos

/-- The cosines of angles equally spaced over `m` circles add up to 0. -/
theorem cos_sum {k m : Nat} (hm : 0 < m) (hk : m < k) (x : ℝ) : ∑ j ∈ range k, Real.cos (x + 2 * Real.pi * (m * j) / k) = 0 := by
  have hk0 : (k : ℂ) ≠ 0 := by exact_mod_cast (by omega : k ≠ 0)
  have hp := Complex.isPrimitiveRoot_exp k (by omega)
  set r := Complex.exp (2 * Real.pi * Complex.I / k) with hr
  have h1 : r ^ m ≠ 1 := hp.pow_ne_one_of_pos_of_lt (by omega) hk
  have h2 : ∑ j ∈ range k, (r ^ m) ^ j = 0 := by
    rw [geom_sum_eq h1, ← pow_mul, Nat.mul_comm, pow_mul, hp.pow_eq_one, one_pow, sub_self, zero_div]
  have h3 : ∀ j : Nat, (Real.cos (x + 2 * Real.pi * (m * j) / k)) = (Complex.exp (x * Complex.I) * (r ^ m) ^ j).re := by
    intro j
    rw [← pow_mul, hr, ← Complex.exp_nat_mul, ← Complex.exp_add, ← Complex.exp_ofReal_mul_I_re]
    congr 2
    push_cast
    ring
  rw [sum_congr rfl fun j _ => h3 j, ← Complex.re_sum, ← mul_sum, h2, mul_zero]
  rfl

theorem area_eq {n : Nat} (hn : 2 ≤ n) : area n = 1 / 2 := by
  have h := cos_sum (k := n) (m := 1) (by omega) (by omega) 0
  have e : ∑ i ∈ range n, hann n i = n * (1 / 2) - 1 / 2 * ∑ j ∈ range n, Real.cos (0 + 2 * Real.pi * ((1 : Nat) * j) / n) := by
    rw [mul_sum, ← nsmul_eq_mul, ← card_range n, ← sum_const, card_range, ← sum_sub_distrib]
    refine sum_congr rfl fun j _ => ?_
    rw [hann, zero_add, Nat.cast_one, one_mul]
  have hn0 : (n : ℝ) ≠ 0 := by exact_mod_cast (by omega : n ≠ 0)
  rw [area, e, h, mul_zero, sub_zero]
  field_simp

theorem cos_near (x y : ℝ) : |Real.cos x - Real.cos y| ≤ |x - y| := Real.abs_cos_sub_cos_le x y

/-- The cosines of angles that are nearly equally spaced nearly add up to 0. -/
theorem cos_sum_near {k m : Nat} (hm : 0 < m) (hk : m < k) {w h r : Nat} (hw : w = k * h + r) (hh : 0 < h) (x : ℝ) :
    |∑ j ∈ range k, Real.cos (m * (x + 2 * Real.pi * (j * h) / w))| ≤ m * Real.pi * (k - 1) * r / w := by
  have hk0 : (0 : ℝ) < k := by exact_mod_cast (by omega : 0 < k)
  have hw0 : (0 : ℝ) < w := by
    have : 0 < k * h := Nat.mul_pos (by omega) hh
    exact_mod_cast (by omega : 0 < w)
  have hwr : (w : ℝ) = k * h + r := by exact_mod_cast hw
  have z := cos_sum hm hk (m * x)
  have e : ∑ j ∈ range k, Real.cos (m * (x + 2 * Real.pi * (j * h) / w)) =
      ∑ j ∈ range k, (Real.cos (m * (x + 2 * Real.pi * (j * h) / w)) - Real.cos (m * x + 2 * Real.pi * (m * j) / k)) := by
    rw [sum_sub_distrib, z, sub_zero]
  rw [e]
  refine (abs_sum_le_sum_abs _ _).trans ?_
  have b : ∀ j ∈ range k, |Real.cos (m * (x + 2 * Real.pi * (j * h) / w)) - Real.cos (m * x + 2 * Real.pi * (m * j) / k)| ≤
      (2 * Real.pi * m * r / (k * w)) * j := by
    intro j _
    refine (cos_near _ _).trans (le_of_eq ?_)
    have : (m : ℝ) * (x + 2 * Real.pi * (j * h) / w) - (m * x + 2 * Real.pi * (m * j) / k) = -((2 * Real.pi * m * r / (k * w)) * j) := by
      have : (h : ℝ) = (w - r) / k := by
        rw [hwr]
        field_simp
        ring
      rw [this]
      field_simp
      ring
    rw [this, abs_neg, abs_of_nonneg]
    have := Real.pi_pos
    positivity
  refine (sum_le_sum b).trans ?_
  rw [← mul_sum]
  have g : ∑ j ∈ range k, (j : ℝ) = k * (k - 1) / 2 := by
    have := Finset.sum_range_id_mul_two k
    have h2 : ((∑ j ∈ range k, j) * 2 : Nat) = ((k * (k - 1) : Nat)) := this
    have h3 : ((∑ j ∈ range k, j : Nat) : ℝ) * 2 = k * ((k - 1 : Nat) : ℝ) := by exact_mod_cast h2
    rw [Nat.cast_sub (by omega), Nat.cast_one] at h3
    push_cast at h3
    linarith
  rw [g]
  refine le_of_eq ?_
  field_simp

/-! ## Where all frames are there -/

/-- The terms of the frames that cover a position, `w = k * h + r`. -/
theorem gather (g : Nat → ℝ) {w h k r a q n : Nat} (hw : w = k * h + r) (hr : r < h) (ha : a < h) (hn : q < n) (hlo : w ≤ (q + 1) * h + a) :
    (∑ m ∈ range n, if m * h ≤ q * h + a ∧ q * h + a < m * h + w then g (q * h + a - m * h) else 0) =
      (∑ j ∈ range k, g (a + j * h)) + if a < r then g (a + k * h) else 0 := by
  have e1 : (∑ m ∈ range n, if m * h ≤ q * h + a ∧ q * h + a < m * h + w then g (q * h + a - m * h) else 0) =
      ∑ m ∈ range (q + 1), if m * h ≤ q * h + a ∧ q * h + a < m * h + w then g (q * h + a - m * h) else 0 := by
    symm
    refine sum_subset (fun x hx => by simp only [mem_range] at hx ⊢; omega) fun x _ hx => if_neg ?_
    simp only [mem_range, not_lt] at hx
    have : (q + 1) * h ≤ x * h := Nat.mul_le_mul_right _ hx
    rw [Nat.succ_mul] at this
    omega
  have e2 : (∑ m ∈ range (q + 1), if m * h ≤ q * h + a ∧ q * h + a < m * h + w then g (q * h + a - m * h) else 0) =
      ∑ j ∈ range (q + 1), if a + j * h < w then g (a + j * h) else 0 := by
    rw [← sum_range_reflect]
    refine sum_congr rfl fun j hj => ?_
    have hj := mem_range.mp hj
    have e : (q + 1 - 1 - j) * h = q * h - j * h := by rw [Nat.add_sub_cancel, Nat.sub_mul]
    have le : j * h ≤ q * h := Nat.mul_le_mul_right _ (by omega)
    have e3 : q * h + a - (q + 1 - 1 - j) * h = a + j * h := by omega
    rw [e3]
    refine if_congr ?_ rfl rfl
    omega
  have low : ∀ j, j < k → a + j * h < w := by
    intro j hj
    have : (j + 1) * h ≤ k * h := Nat.mul_le_mul_right _ hj
    rw [Nat.succ_mul] at this
    omega
  have hk : k ≤ q + 1 := by
    by_contra hc
    have : (q + 2) * h ≤ k * h := Nat.mul_le_mul_right _ (by omega)
    have e : (q + 2) * h = (q + 1) * h + h := Nat.succ_mul _ _
    omega
  rw [e1, e2]
  rcases Nat.eq_or_lt_of_le hk with h0 | h0
  · rw [if_neg (by rw [← h0] at hlo; omega), add_zero, ← h0]
    exact sum_congr rfl fun j hj => if_pos (low j (mem_range.mp hj))
  · have e4 : (∑ j ∈ range (q + 1), if a + j * h < w then g (a + j * h) else 0) = ∑ j ∈ range (k + 1), if a + j * h < w then g (a + j * h) else 0 := by
      symm
      refine sum_subset (fun x hx => by simp only [mem_range] at hx ⊢; omega) fun x _ hx => if_neg ?_
      simp only [mem_range, not_lt] at hx
      have : (k + 1) * h ≤ x * h := Nat.mul_le_mul_right _ hx
      rw [Nat.succ_mul] at this
      omega
    rw [e4, sum_range_succ]
    congr 1
    · exact sum_congr rfl fun j hj => if_pos (low j (mem_range.mp hj))
    · exact if_congr (by omega) rfl rfl

theorem hann_angle (w a j h : Nat) : hann w (a + j * h) = 1 / 2 - 1 / 2 * Real.cos ((1 : Nat) * (2 * Real.pi * a / w + 2 * Real.pi * (j * h) / w)) := by
  rw [hann]
  congr 3
  push_cast
  ring

theorem hann_square (w a j h : Nat) : hann w (a + j * h) * hann w (a + j * h) = 3 / 8 - 1 / 2 * Real.cos ((1 : Nat) * (2 * Real.pi * a / w + 2 * Real.pi * (j * h) / w)) +
    1 / 8 * Real.cos ((2 : Nat) * (2 * Real.pi * a / w + 2 * Real.pi * (j * h) / w)) := by
  rw [hann_angle]
  push_cast
  rw [one_mul, Real.cos_two_mul]
  ring

/-- The last few samples of a window are small. -/
theorem hann_end {w i r : Nat} (h1 : i ≤ w) (h2 : w ≤ i + r) (hw : 0 < w) : hann w i ≤ (Real.pi * r / w) ^ 2 := by
  have hw0 : (0 : ℝ) < w := by exact_mod_cast hw
  have e : Real.pi * i / w = Real.pi - Real.pi * (w - i : Nat) / w := by
    rw [Nat.cast_sub h1]
    field_simp
    ring
  rw [hann_sin, e, Real.sin_pi_sub]
  have h3 : ((w - i : Nat) : ℝ) ≤ r := by exact_mod_cast (by omega : w - i ≤ r)
  have hp := Real.pi_pos
  have h4 : (0 : ℝ) ≤ Real.pi * (w - i : Nat) / w := by positivity
  refine Real.sin_sq_le_sq.trans ?_
  gcongr

/-- The arithmetic of the next theorem. -/
theorem gain_near {k y c e C1 C2 : ℝ} (hk : 4 ≤ k) (hc0 : 0 ≤ c) (hc1 : c ≤ 1 / 4) (hy0 : 0 ≤ y) (hy1 : y ≤ 63 / 80 * c) (he0 : 0 ≤ e) (he1 : e ≤ y ^ 2)
    (a1 : -((k - 1) * y) ≤ C1) (a2 : C1 ≤ (k - 1) * y) (b1 : -(2 * ((k - 1) * y)) ≤ C2) (b2 : C2 ≤ 2 * ((k - 1) * y)) :
    |(k * (3 / 8) - 1 / 2 * C1 + 1 / 8 * C2 + e * e) / ((k * (1 / 2) - 1 / 2 * C1 + e) * (1 / 2 * (3 / 2))) - 1| ≤ c := by
  have hk1 : 0 ≤ k - 1 := by linarith
  have ky : (k - 1) * y ≤ (k - 1) * (63 / 80 * c) := mul_le_mul_of_nonneg_left hy1 hk1
  have kc : (k - 1) * c ≤ (k - 1) * (1 / 4) := mul_le_mul_of_nonneg_left hc1 hk1
  have hy2 : y ≤ 1 / 5 := by linarith
  have he3 : e ≤ 63 / 400 * c := by
    have : y ^ 2 ≤ 1 / 5 * (63 / 80 * c) := by rw [pow_two]; exact mul_le_mul hy2 hy1 hy0 (by norm_num)
    linarith
  have he2 : e * e ≤ e := by
    have : e ≤ 1 := by linarith
    calc e * e ≤ e * 1 := mul_le_mul_of_nonneg_left this he0
      _ = e := mul_one e
  have he4 : 0 ≤ e * e := mul_nonneg he0 he0
  have den : 0 < (k * (1 / 2) - 1 / 2 * C1 + e) * (1 / 2 * (3 / 2)) := by
    refine mul_pos ?_ (by norm_num)
    linarith
  rw [div_sub_one den.ne', abs_div, abs_of_pos den, div_le_iff₀ den, abs_le]
  have t1 : (k - 1) * y * c ≤ (k - 1) * (63 / 80 * c) * (1 / 4) := mul_le_mul ky hc1 hc0 (by positivity)
  have main : 3 / 8 * ((k - 1) * y) + 3 / 4 * e ≤ c * (3 / 8 * (k - (k - 1) * y)) := by
    have e1 : c * (3 / 8 * (k - (k - 1) * y)) = 3 / 8 * (c * k) - 3 / 8 * ((k - 1) * y * c) := by ring
    have e2 : (k - 1) * (63 / 80 * c) = 63 / 80 * (c * k) - 63 / 80 * c := by ring
    have e3 : 4 * c ≤ c * k := by rw [mul_comm c k]; exact mul_le_mul_of_nonneg_right hk hc0
    rw [e1]
    rw [e2] at t1 ky
    linarith
  have lowW : c * (3 / 8 * (k - (k - 1) * y)) ≤ c * ((k * (1 / 2) - 1 / 2 * C1 + e) * (1 / 2 * (3 / 2))) :=
    mul_le_mul_of_nonneg_left (by linarith) hc0
  constructor <;> linarith

/-- **The gain** where all frames that could cover a position are there: near 1, by four times the part of the window that is left when it is divided
into increments. -/
theorem steady_gain {w h k r pos n : Nat} (hw : w = k * h + r) (hr : r < h) (hk : 4 ≤ k) (hs : 16 * r ≤ w) (h1 : w ≤ pos + h) (h2 : pos < n * h) :
    |squares w h n pos / (windows w h n pos * (area w * (3 / 2))) - 1| ≤ 4 * r / w := by
  have hh : 0 < h := by omega
  have hkh : 4 * h ≤ k * h := Nat.mul_le_mul_right _ hk
  have hw0 : (0 : ℝ) < w := by exact_mod_cast (by omega : 0 < w)
  set a := pos % h with ha
  set q := pos / h with hq
  have hpos : q * h + a = pos := by rw [Nat.mul_comm]; exact Nat.div_add_mod pos h
  have hal : a < h := Nat.mod_lt _ hh
  have hqn : q < n := Nat.div_lt_of_lt_mul (by rw [Nat.mul_comm]; exact h2)
  have hlo : w ≤ (q + 1) * h + a := by rw [Nat.succ_mul]; omega
  have s1 := gather (fun i => hann w i) hw hr hal hqn hlo
  have s2 := gather (fun i => hann w i * hann w i) hw hr hal hqn hlo
  rw [hpos] at s1 s2
  have hW : windows w h n pos = _ := s1
  have hS : squares w h n pos = _ := s2
  simp only [hann_square] at hS
  simp only [hann_angle] at hW
  rw [sum_sub_distrib, ← mul_sum, sum_const, card_range, nsmul_eq_mul] at hW
  rw [sum_add_distrib, sum_sub_distrib, ← mul_sum, ← mul_sum, sum_const, card_range, nsmul_eq_mul] at hS
  have c1 := cos_sum_near (m := 1) (by omega) (by omega : 1 < k) hw hh (2 * Real.pi * a / w)
  have c2 := cos_sum_near (m := 2) (by omega) (by omega : 2 < k) hw hh (2 * Real.pi * a / w)
  set C1 := ∑ j ∈ range k, Real.cos ((1 : Nat) * (2 * Real.pi * a / w + 2 * Real.pi * (j * h) / w))
  set C2 := ∑ j ∈ range k, Real.cos ((2 : Nat) * (2 * Real.pi * a / w + 2 * Real.pi * (j * h) / w))
  -- What is added by the last frame, if it is there.
  obtain ⟨e, he0, he1, heW, heS⟩ : ∃ e : ℝ, 0 ≤ e ∧ e ≤ (Real.pi * r / w) ^ 2 ∧ windows w h n pos = k * (1 / 2) - 1 / 2 * C1 + e ∧
      squares w h n pos = k * (3 / 8) - 1 / 2 * C1 + 1 / 8 * C2 + e * e := by
    by_cases hc : a < r
    · refine ⟨hann w (a + k * h), hann_nonneg _ _, hann_end (by omega) (by omega) (by omega), ?_, ?_⟩
      · rw [hW, if_pos hc, hann_angle]
      · rw [hS, if_pos hc, hann_square]
    · refine ⟨0, le_rfl, by positivity, ?_, ?_⟩
      · rw [hW, if_neg hc]
      · rw [hS, if_neg hc, mul_zero]
  rw [area_eq (by omega), heW, heS]
  set y := Real.pi * r / w with hy
  set c := 4 * (r : ℝ) / w with hcdef
  have hp0 := Real.pi_pos
  have hp := Real.pi_lt_d2
  have hyc : y = Real.pi / 4 * c := by rw [hy, hcdef]; field_simp
  have hc0 : 0 ≤ c := by positivity
  have hc1 : c ≤ 1 / 4 := by
    rw [hcdef, div_le_iff₀ hw0]
    have : (16 * r : ℝ) ≤ w := by exact_mod_cast hs
    linarith
  have hy0 : 0 ≤ y := by positivity
  have hy1 : y ≤ 63 / 80 * c := by rw [hyc]; exact mul_le_mul_of_nonneg_right (by linarith) hc0
  have hk4 : (4 : ℝ) ≤ k := by exact_mod_cast hk
  have c1' : |C1| ≤ (k - 1) * y := by
    refine c1.trans (le_of_eq ?_)
    rw [hy]; push_cast; ring
  have c2' : |C2| ≤ 2 * ((k - 1) * y) := by
    refine c2.trans (le_of_eq ?_)
    rw [hy]; push_cast; ring
  obtain ⟨a1, a2⟩ := abs_le.mp c1'
  obtain ⟨b1, b2⟩ := abs_le.mp c2'
  exact gain_near hk4 hc0 hc1 hy0 hy1 he0 he1 a1 a2 b1 b2

end Verif.R2
