import Verif.MathMisc
import Mathlib.Tactic.Linarith
import Mathlib.Tactic.FieldSimp
import Mathlib.Tactic.Ring
import Mathlib.Tactic.Positivity
namespace Verif.MathMisc

theorem countBits_spec (fuel value bits : Nat) (hf : value ≤ fuel) :
    ∃ k, countBits fuel value bits = bits + k ∧ value < 2 ^ k ∧ (value ≠ 0 → 2 ^ k ≤ 2 * value) := by
  induction fuel generalizing value bits with
  | zero => exact ⟨0, by simp [countBits], by simp; omega, by omega⟩
  | succ fuel ih =>
    unfold countBits
    by_cases hv : value ≠ 0
    · rw [if_pos hv]
      have hs : value >>> 1 = value / 2 := by simp [Nat.shiftRight_eq_div_pow]
      rw [hs]
      obtain ⟨k, h1, h2, h3⟩ := ih (value / 2) (bits + 1) (by omega)
      refine ⟨k + 1, by rw [h1]; omega, by rw [Nat.pow_succ]; omega, ?_⟩
      intro _
      by_cases hz : value / 2 = 0
      · have : value = 1 := by omega
        subst this
        have hk : k = 0 := by
          have hc : countBits fuel (1 / 2) (bits + 1) = bits + 1 := by
            cases fuel <;> simp [countBits]
          omega
        subst hk; simp
      · have := h3 hz
        rw [Nat.pow_succ]; omega
    · rw [if_neg hv]
      exact ⟨0, by simp, by simp; omega, fun h => absurd h hv⟩

theorem land_pred_pow (k : Nat) : 2 ^ k &&& (2 ^ k - 1) = 0 := by
  apply Nat.eq_of_testBit_eq
  intro i
  rw [Nat.testBit_and, Nat.testBit_two_pow_sub_one, Nat.testBit_two_pow]
  simp
  omega

theorem land_pred_ne {n k : Nat} (h1 : 2 ^ k < n) (h2 : n < 2 ^ (k + 1)) : n &&& (n - 1) ≠ 0 := by
  intro h
  have := congrArg (fun x => Nat.testBit x k) h
  simp only [Nat.testBit_and, Nat.zero_testBit, Bool.and_eq_false_iff] at this
  have hb : ∀ m, 2 ^ k ≤ m → m < 2 ^ (k + 1) → m.testBit k = true := by
    intro m hm1 hm2
    rw [Nat.testBit_eq_decide_div_mod_eq]
    have : m / 2 ^ k = 1 := by
      rw [Nat.div_eq_iff (by positivity)]
      rw [Nat.pow_succ] at hm2
      omega
    simp [this]
  rcases this with h | h
  · rw [hb n (by omega) h2] at h; simp at h
  · rw [hb (n - 1) (by omega) (by omega)] at h; simp at h

theorem roundUp_spec {n : Nat} (h1 : 1 ≤ n) (h2 : n ≤ 2 ^ 63) :
    ∃ k, roundUp n = some (2 ^ k) ∧ n ≤ 2 ^ k ∧ (∀ j, n ≤ 2 ^ j → 2 ^ k ≤ 2 ^ j) := by
  have hm : (n + 2 ^ 64 - 1) % 2 ^ 64 = n - 1 := by omega
  obtain ⟨k, c1, c2, c3⟩ := countBits_spec n n 0 (Nat.le_refl n)
  have c3' := c3 (by omega)
  have hk : k ≠ 0 := by rintro rfl; simp at c2; omega
  obtain ⟨k, rfl⟩ := Nat.exists_eq_succ_of_ne_zero hk
  simp only [Nat.succ_eq_add_one] at *
  have hp : 2 ^ (k + 1) = 2 * 2 ^ k := by rw [Nat.pow_succ]; omega
  have hk2 : 2 ^ k ≤ n := by omega
  unfold roundUp
  rw [hm]
  by_cases he : n = 2 ^ k
  · rw [he, land_pred_pow, if_pos rfl]
    exact ⟨k, rfl, Nat.le_refl _, fun j hj => hj⟩
  · have hne := land_pred_ne (n := n) (k := k) (by omega) c2
    rw [if_neg hne, c1]
    simp only [Nat.zero_add]
    have hkl : k + 1 < 64 := by
      have : 2 ^ k < 2 ^ 63 := by omega
      have := (Nat.pow_lt_pow_iff_right (by omega)).mp this
      omega
    rw [if_pos hkl, Nat.one_shiftLeft]
    refine ⟨k + 1, rfl, by omega, ?_⟩
    intro j hj
    have : 2 ^ k < 2 ^ j := by omega
    have := (Nat.pow_lt_pow_iff_right (a := 2) (by omega)).mp this
    exact Nat.pow_le_pow_right (by omega) (by omega)

/-! ### The Farey search -/

/-- Invariant of the search for `ratio ≥ 0`. -/
structure FInv (ratio : Rat) (m : Nat) (s : Farey) : Prop where
  det : s.b * s.c = s.a * s.d + 1
  bpos : 1 ≤ s.b
  lo : (s.a : Rat) ≤ ratio * s.b
  hi : ratio * s.d ≤ s.c
  pbm : 1 ≤ s.pb ∧ s.pb ≤ m
  pdm : s.pd ≤ m
  plo : (s.pa : Rat) ≤ ratio * s.pb
  phi : ratio * s.pd ≤ s.pc
  /-- If the lower end has gone past the limit, its predecessor is close. -/
  pnearb : s.b > m → ratio - (s.pa : Rat) / s.pb ≤ 1 / m
  pneard : s.d > m → s.pd ≠ 0 ∧ (s.pc : Rat) / s.pd - ratio ≤ 1 / m
  /-- While the upper end is infinite the lower one is an integer. -/
  d0 : s.d = 0 → s.b = 1 ∧ s.c = 1

theorem init_finv {ratio : Rat} (hr : 0 ≤ ratio) {m : Nat} (hm : 1 ≤ m) : FInv ratio m {} := by
  refine ⟨rfl, Nat.le_refl 1, ?_, ?_, ⟨Nat.le_refl 1, hm⟩, Nat.zero_le m, ?_, ?_, ?_, ?_, ?_⟩
  · simpa using hr
  · simp
  · simpa using hr
  · simp
  · intro h; simp at h; omega
  · intro h; simp at h
  · simp

theorem mediant_pos {ratio : Rat} {m : Nat} {s : Farey} (h : FInv ratio m s) :
    (0 : Rat) < ((s.b + s.d : Nat) : Rat) := by
  have := h.bpos
  exact_mod_cast (by omega : 0 < s.b + s.d)

theorem gap_bound {r : Rat} {p q n e m : Nat} (hp : 1 ≤ q) (he : 1 ≤ e) (hm : 1 ≤ m)
    (hqe : m ≤ q * e) (h : (r * q - p) * e ≤ 1) : r - (p : Rat) / q ≤ 1 / m := by
  have hq : (0 : Rat) < q := by exact_mod_cast hp
  have he' : (0 : Rat) < e := by exact_mod_cast he
  have hm' : (0 : Rat) < m := by exact_mod_cast hm
  have hqe' : (m : Rat) ≤ q * e := by exact_mod_cast hqe
  have h1 : r - (p : Rat) / q = ((r * q - p) * e) / (q * e) := by field_simp
  rw [h1]
  calc ((r * q - p) * e) / (q * e) ≤ 1 / (q * e) := by
        apply div_le_div_of_nonneg_right h (by positivity)
    _ ≤ 1 / m := by apply one_div_le_one_div_of_le hm' hqe'

theorem next_finv {ratio : Rat} {m : Nat} (hm : 1 ≤ m) {s : Farey} (h : FInv ratio m s)
    (hb : s.b ≤ m) (hd : s.d ≤ m) : FInv ratio m (s.next ratio) := by
  obtain ⟨det, bpos, lo, hi, pbm, pdm, plo, phi, pnb, pnd, d0⟩ := h
  have hpos : (0 : Rat) < ((s.b + s.d : Nat) : Rat) := by
    exact_mod_cast (by omega : 0 < s.b + s.d)
  have hdet : (s.b : Rat) * s.c = s.a * s.d + 1 := by exact_mod_cast det
  have hb0 : (0 : Rat) < s.b := by exact_mod_cast bpos
  have hd0 : (0 : Rat) ≤ s.d := Nat.cast_nonneg _
  unfold Farey.next
  split
  · rename_i hc
    have hc' : ((s.a + s.c : Nat) : Rat) < ratio * ((s.b + s.d : Nat) : Rat) := by
      have := (div_lt_iff₀ hpos).mp hc
      exact this
    push_cast at hc'
    refine ⟨by simp only; nlinarith [det], by simp only; omega, ?_, hi, ⟨bpos, hb⟩, pdm, lo, phi, ?_,
      ?_, ?_⟩
    · simp only; push_cast; linarith
    · intro hbm
      simp only at hbm ⊢
      have hdp : 1 ≤ s.d := by
        rcases Nat.eq_zero_or_pos s.d with h | h
        · omega
        · exact h
      apply gap_bound (n := 0) (e := s.d) bpos hdp hm
      · nlinarith
      · have h1 : ratio * s.b * s.d ≤ s.b * s.c := by nlinarith
        have : (ratio * s.b - s.a) * s.d = ratio * s.b * s.d - s.a * s.d := by ring
        rw [this]; linarith
    · intro hdm; simp only at hdm; omega
    · intro hz
      simp only at hz ⊢
      have := d0 hz
      omega
  · rename_i hc
    have hc' : ratio * ((s.b + s.d : Nat) : Rat) ≤ ((s.a + s.c : Nat) : Rat) := by
      have := not_lt.mp hc
      exact (le_div_iff₀ hpos).mp this
    push_cast at hc'
    refine ⟨by simp only; nlinarith [det], bpos, lo, ?_, pbm, hd, plo, hi, ?_, ?_, ?_⟩
    · simp only; push_cast; linarith
    · intro hbm; simp only at hbm; omega
    · intro hdm
      simp only at hdm ⊢
      have hdp : 1 ≤ s.d := by
        rcases Nat.eq_zero_or_pos s.d with h | h
        · have := d0 h; omega
        · exact h
      refine ⟨by omega, ?_⟩
      have hdp' : (0 : Rat) < s.d := by exact_mod_cast hdp
      have hm' : (0 : Rat) < m := by exact_mod_cast hm
      have hqe : (m : Rat) ≤ s.d * s.b := by exact_mod_cast (by nlinarith : m ≤ s.d * s.b)
      have h1 : (s.c : Rat) / s.d - ratio = ((s.c - ratio * s.d) * s.b) / (s.d * s.b) := by
        field_simp
      rw [h1]
      calc ((s.c - ratio * s.d) * s.b) / (s.d * s.b) ≤ 1 / (s.d * s.b) := by
            apply div_le_div_of_nonneg_right _ (by positivity)
            nlinarith
        _ ≤ 1 / m := one_div_le_one_div_of_le hm' hqe
    · intro hz; simp only at hz; omega

/-- What is left of the search. -/
def measure (ratio : Rat) (m : Nat) (s : Farey) : Nat :=
  if s.d = 0 then (ratio.ceil.toNat - s.a) + 2 * m + 1 else 2 * m + 1 - (s.b + s.d)

theorem measure_next {ratio : Rat} {m : Nat} (hm : 1 ≤ m) {s : Farey} (h : FInv ratio m s)
    (hb : s.b ≤ m) (hd : s.d ≤ m) : measure ratio m (s.next ratio) < measure ratio m s := by
  have hbp := h.bpos
  unfold measure Farey.next
  by_cases hz : s.d = 0
  · obtain ⟨hb1, hc1⟩ := h.d0 hz
    rw [if_pos hz]
    split
    · rename_i hc
      have hlt : s.a + 1 ≤ ratio.ceil.toNat := by
        have h1 : ((s.a + 1 : Nat) : Rat) < ratio := by
          have : s.mediant = ((s.a + 1 : Nat) : Rat) := by
            unfold Farey.mediant; rw [hb1, hc1, hz]; simp
          rw [this] at hc; exact hc
        have h2 : (ratio : Rat) ≤ (ratio.ceil : Rat) := by
          exact Rat.le_ceil
        have h3 : ((s.a + 1 : Nat) : Rat) < ((ratio.ceil : Int) : Rat) := by linarith
        have h4 : ((s.a + 1 : Nat) : Int) < ratio.ceil := by exact_mod_cast h3
        omega
      simp only
      omega
    · simp only
      rw [if_neg (by omega)]
      omega
  · rw [if_neg hz]
    split
    · simp only; omega
    · simp only; rw [if_neg (by omega)]; omega

/-- What a result must satisfy. -/
def Good (ratio : Rat) (m : Nat) (r : Nat × Nat) : Prop :=
  1 ≤ r.2 ∧ r.2 ≤ m ∧ |ratio - (r.1 : Rat) / r.2| < 1 / m + eps

theorem eps_pos : 0 < eps := by unfold eps; norm_num

theorem close_good {ratio : Rat} {m : Nat} (hm : 1 ≤ m) {s : Farey} (h : FInv ratio m s)
    (hb : s.b ≤ m) (hd : s.d ≤ m) (hc : |ratio - s.mediant| < eps) :
    Good ratio m (s.close m) := by
  have hm' : (0 : Rat) < m := by exact_mod_cast hm
  have hmi : (0 : Rat) < 1 / m := by positivity
  have hbp := h.bpos
  have hpos := mediant_pos h
  have hb0 : (0 : Rat) < s.b := by exact_mod_cast hbp
  have hdet : (s.b : Rat) * s.c = s.a * s.d + 1 := by exact_mod_cast h.det
  unfold Farey.close
  split
  · refine ⟨by simp only; omega, by assumption, ?_⟩
    have : |ratio - s.mediant| < 1 / m + eps := by linarith
    exact this
  · rename_i hbd
    split
    · rename_i hgt
      refine ⟨by simp only; omega, hd, ?_⟩
      have hd0 : (0 : Rat) < s.d := by exact_mod_cast (by omega : 0 < s.d)
      have hdiff : s.mediant - (s.c : Rat) / s.d = - (1 / (s.d * ((s.b + s.d : Nat) : Rat))) := by
        unfold Farey.mediant
        rw [div_sub_div _ _ (ne_of_gt hpos) (ne_of_gt hd0), ← neg_div]
        rw [div_eq_div_iff (by positivity) (by positivity)]
        push_cast
        have : ((s.a : Rat) + s.c) * s.d - (s.b + s.d) * s.c = -1 := by nlinarith
        rw [this]; ring
      have hle : 1 / ((s.d : Rat) * ((s.b + s.d : Nat) : Rat)) ≤ 1 / m := by
        apply one_div_le_one_div_of_le hm'
        exact_mod_cast (by nlinarith : m ≤ s.d * (s.b + s.d))
      have hnn : 0 < 1 / ((s.d : Rat) * ((s.b + s.d : Nat) : Rat)) := by positivity
      simp only
      have htri : ratio - (s.c : Rat) / s.d = (ratio - s.mediant) + (s.mediant - (s.c : Rat) / s.d) := by
        ring
      rw [htri, hdiff]
      rw [abs_lt] at hc ⊢
      constructor <;> linarith [hc.1, hc.2]
    · refine ⟨hbp, hb, ?_⟩
      have hdiff : s.mediant - (s.a : Rat) / s.b = 1 / (s.b * ((s.b + s.d : Nat) : Rat)) := by
        unfold Farey.mediant
        rw [div_sub_div _ _ (ne_of_gt hpos) (ne_of_gt hb0)]
        rw [div_eq_div_iff (by positivity) (by positivity)]
        push_cast
        have : ((s.a : Rat) + s.c) * s.b - (s.b + s.d) * s.a = 1 := by nlinarith
        rw [this]; ring
      have hle : 1 / ((s.b : Rat) * ((s.b + s.d : Nat) : Rat)) ≤ 1 / m := by
        apply one_div_le_one_div_of_le hm'
        exact_mod_cast (by nlinarith : m ≤ s.b * (s.b + s.d))
      have hnn : 0 < 1 / ((s.b : Rat) * ((s.b + s.d : Nat) : Rat)) := by positivity
      simp only
      have htri : ratio - (s.a : Rat) / s.b = (ratio - s.mediant) + (s.mediant - (s.a : Rat) / s.b) := by
        ring
      rw [htri, hdiff]
      rw [abs_lt] at hc ⊢
      constructor <;> linarith [hc.1, hc.2]

theorem final_good {ratio : Rat} {m : Nat} (hm : 1 ≤ m) {s : Farey} (h : FInv ratio m s)
    (hx : ¬ (s.b ≤ m ∧ s.d ≤ m)) : Good ratio m (s.final ratio) := by
  have hm' : (0 : Rat) < m := by exact_mod_cast hm
  have he := eps_pos
  have hpb0 : (0 : Rat) < s.pb := by exact_mod_cast h.pbm.1
  have hloN : 0 ≤ ratio - (s.pa : Rat) / s.pb := by
    have := (div_le_iff₀ hpb0).mpr h.plo
    linarith
  have hhiN : s.pd ≠ 0 → 0 ≤ (s.pc : Rat) / s.pd - ratio := by
    intro hz
    have hz' : (0 : Rat) < s.pd := by exact_mod_cast Nat.pos_of_ne_zero hz
    have := (le_div_iff₀ hz').mpr h.phi
    linarith
  have habs1 : |ratio - (s.pa : Rat) / s.pb| = ratio - (s.pa : Rat) / s.pb := abs_of_nonneg hloN
  have habs2 : s.pd ≠ 0 → |ratio - (s.pc : Rat) / s.pd| = (s.pc : Rat) / s.pd - ratio := by
    intro hz
    rw [abs_sub_comm]; exact abs_of_nonneg (hhiN hz)
  unfold Farey.final
  split
  · rename_i hc
    refine ⟨by simp only; omega, h.pdm, ?_⟩
    simp only
    rcases Nat.lt_or_ge m s.b with hb | hb
    · have := h.pnearb hb
      rw [habs1] at hc
      linarith [hc.2]
    · have := h.pneard (by omega)
      rw [habs2 this.1]
      linarith [this.2]
  · rename_i hc
    refine ⟨h.pbm.1, h.pbm.2, ?_⟩
    simp only
    rcases Nat.lt_or_ge m s.b with hb | hb
    · have := h.pnearb hb
      rw [habs1]
      linarith
    · have hn := h.pneard (by omega)
      have : ¬ |ratio - (s.pc : Rat) / s.pd| < |ratio - (s.pa : Rat) / s.pb| := fun hl => hc ⟨hn.1, hl⟩
      rw [habs2 hn.1] at this
      have := not_lt.mp this
      linarith [hn.2]

theorem turn_cases (s : Farey) (ratio : Rat) (m : Nat) :
    (¬ (s.b ≤ m ∧ s.d ≤ m) ∧ s.turn ratio m = .inl (s.final ratio)) ∨
    ((s.b ≤ m ∧ s.d ≤ m) ∧ |ratio - s.mediant| < eps ∧ s.turn ratio m = .inl (s.close m)) ∨
    ((s.b ≤ m ∧ s.d ≤ m) ∧ ¬ |ratio - s.mediant| < eps ∧ s.turn ratio m = .inr (s.next ratio)) := by
  unfold Farey.turn
  by_cases hc : s.b ≤ m ∧ s.d ≤ m
  · right
    by_cases he : |ratio - s.mediant| < eps
    · left; exact ⟨hc, he, by rw [if_pos hc, if_pos he]⟩
    · right; exact ⟨hc, he, by rw [if_pos hc, if_neg he]⟩
  · left; exact ⟨hc, by rw [if_neg hc]⟩

theorem pickLoop_good {ratio : Rat} {m : Nat} (hm : 1 ≤ m) (fuel : Nat) (s : Farey)
    (h : FInv ratio m s) (hf : measure ratio m s < fuel) :
    ∃ r, pickLoop ratio m fuel s = some r ∧ Good ratio m r := by
  induction fuel generalizing s with
  | zero => omega
  | succ fuel ih =>
    unfold pickLoop
    rcases turn_cases s ratio m with ⟨hc, ht⟩ | ⟨hc, he, ht⟩ | ⟨hc, he, ht⟩
    · rw [ht]; exact ⟨_, rfl, final_good hm h hc⟩
    · rw [ht]; exact ⟨_, rfl, close_good hm h hc.1 hc.2 he⟩
    · rw [ht]
      have := measure_next hm h hc.1 hc.2
      exact ih _ (next_finv hm h hc.1 hc.2) (by omega)

/-- If the ratio is itself an admissible positive fraction `p / q`, the search
keeps it strictly between its ends until it meets it. -/
structure Strict (p q : Nat) (s : Farey) : Prop where
  lo : s.a * q < p * s.b
  hi : p * s.d < s.c * q

theorem strict_bound {p q : Nat} {s : Farey} (hdet : s.b * s.c = s.a * s.d + 1)
    (h : Strict p q s) : s.b + s.d ≤ q := by
  obtain ⟨h1, h2⟩ := h
  -- q = q (bc - ad) = b (qc - pd) + d (pb - qa)
  zify at *
  nlinarith

theorem pickLoop_admissible {p q m : Nat} (hq : 1 ≤ q) (hqm : q ≤ m) (fuel : Nat) (s : Farey)
    (h : FInv ((p : Rat) / q) m s) (hs : Strict p q s)
    (r : Nat × Nat) (hr : pickLoop ((p : Rat) / q) m fuel s = some r) :
    |(p : Rat) / q - (r.1 : Rat) / r.2| < eps ∧ r.2 ≤ q := by
  have hq0 : (0 : Rat) < q := by exact_mod_cast hq
  induction fuel generalizing s with
  | zero => simp [pickLoop] at hr
  | succ fuel ih =>
    have hb := strict_bound h.det hs
    unfold pickLoop at hr
    rcases turn_cases s ((p : Rat) / q) m with ⟨hc, ht⟩ | ⟨hc, he, ht⟩ | ⟨hc, he, ht⟩
    · exact absurd (show s.b ≤ m ∧ s.d ≤ m by omega) hc
    · rw [ht] at hr
      unfold Farey.close at hr
      rw [if_pos (by omega)] at hr
      have := (Option.some.inj hr).symm
      subst this
      exact ⟨he, hb⟩
    · rw [ht] at hr
      have hpos := mediant_pos h
      refine ih _ (next_finv (by omega) h (by omega) (by omega)) ?_ hr
      have hne : (p : Rat) / q ≠ s.mediant := by
        intro heq; rw [heq] at he; simp at he; exact absurd eps_pos (not_lt.mpr he)
      unfold Farey.next
      split
      · rename_i hc
        unfold Farey.mediant at hc
        have hc' := (div_lt_div_iff₀ hpos hq0).mp hc
        refine ⟨?_, hs.hi⟩
        simp only
        exact_mod_cast hc'
      · rename_i hc
        have hlt : (p : Rat) / q < s.mediant := lt_of_le_of_ne (not_lt.mp hc) hne
        unfold Farey.mediant at hlt
        have hc' := (div_lt_div_iff₀ hq0 hpos).mp hlt
        refine ⟨hs.lo, ?_⟩
        simp only
        have : p * (s.b + s.d) < (s.a + s.c) * q := by exact_mod_cast hc'
        rw [Nat.add_comm s.d, Nat.add_comm s.c]; exact this

end Verif.MathMisc
