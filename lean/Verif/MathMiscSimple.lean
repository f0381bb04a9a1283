import Verif.MathMiscProps
import Mathlib.Tactic.Linarith
import Mathlib.Tactic.LinearCombination
/-!
# Rational approximation: simple fractions are never passed over (part of C12)

`pickNearestRational` does not always give the nearest admissible fraction.  But a fraction whose
denominator is small beside the limit never lies between the ratio and what it gives.
-/
namespace Verif.MathMisc

/-- `u / v` is at the ratio, or between it and the result, and is not the result. -/
def PassedOver (ratio : Rat) (r : Nat × Nat) (u v : Nat) : Prop :=
  (ratio * v ≤ u ∧ u * r.2 < r.1 * v) ∨ ((u : Rat) ≤ ratio * v ∧ r.1 * v < u * r.2)

/-- More of the invariant of the search, for a positive ratio. -/
structure GInv (ratio : Rat) (s : Farey) : Prop where
  det : s.b * s.c = s.a * s.d + 1
  bpos : 1 ≤ s.b
  lo : (s.a : Rat) < ratio * s.b
  hi : ratio * s.d < s.c
  plo : (s.pa : Rat) < ratio * s.pb
  phi : ratio * s.pd < s.pc
  pb : 1 ≤ s.pb ∧ s.pb ≤ s.b
  pd : s.pd ≤ s.d
  pa : s.pa = s.a ∧ s.pb = s.b ∨ s.a * s.pb = s.pa * s.b + 1
  pc : s.pc = s.c ∧ s.pd = s.d ∨ s.pc * s.d = s.c * s.pd + 1

theorem init_ginv {ratio : Rat} (hr : 0 < ratio) : GInv ratio {} := by
  refine ⟨rfl, Nat.le_refl 1, ?_, ?_, ?_, ?_, ⟨Nat.le_refl 1, Nat.le_refl 1⟩, Nat.le_refl 0, Or.inl ⟨rfl, rfl⟩, Or.inl ⟨rfl, rfl⟩⟩ <;>
    simp [hr]

theorem ginv_pos {ratio : Rat} {s : Farey} (h : GInv ratio s) : (0 : Rat) < ((s.b + s.d : Nat) : Rat) := by
  have := h.bpos
  exact_mod_cast (by omega : 0 < s.b + s.d)

theorem next_ginv {ratio : Rat} {s : Farey} (h : GInv ratio s) (he : ¬ |ratio - s.mediant| < eps) :
    GInv ratio (s.next ratio) := by
  have hpos := ginv_pos h
  obtain ⟨det, bpos, lo, hi, plo, phi, pb, pd, pa, pc⟩ := h
  unfold Farey.next
  split
  · rename_i hc
    have hc' := (div_lt_iff₀ hpos).mp hc
    push_cast at hc'
    refine ⟨by simp only; nlinarith, by simp only; omega, by simp only; push_cast; linarith, hi, lo, phi,
      ⟨bpos, by simp only; omega⟩, pd, Or.inr ?_, pc⟩
    simp only; nlinarith
  · rename_i hc
    have hne : ratio ≠ s.mediant := by
      intro heq
      rw [heq] at he
      simp only [sub_self, abs_zero] at he
      exact he eps_pos
    have hlt : ratio < s.mediant := lt_of_le_of_ne (not_lt.mp hc) hne
    have hc' := (lt_div_iff₀ hpos).mp hlt
    push_cast at hc'
    refine ⟨by simp only; nlinarith, bpos, lo, by simp only; push_cast; linarith, plo, hi, pb,
      by simp only; omega, pa, Or.inr ?_⟩
    simp only; nlinarith

/-- A fraction between the ends of the search, neither of them, has a denominator not below the sum of theirs. -/
theorem between_ends {ratio : Rat} {s : Farey} (h : GInv ratio s) {u v : Nat} (h1 : s.a * v < u * s.b)
    (h2 : u * s.d < s.c * v) : s.b + s.d ≤ v := strict_bound h.det ⟨h1, h2⟩

theorem above_lo {ratio : Rat} {a b : Nat} (h : (a : Rat) < ratio * b) {u v : Nat} (hv : 1 ≤ v)
    (hu : ratio * v ≤ u) : a * v < u * b := by
  have hv' : (0 : Rat) < v := by exact_mod_cast hv
  have hb : (0 : Rat) ≤ b := Nat.cast_nonneg _
  have : (a : Rat) * v < u * b := by nlinarith [mul_lt_mul_of_pos_right h hv', mul_le_mul_of_nonneg_right hu hb]
  exact_mod_cast this

theorem below_hi {ratio : Rat} {c d : Nat} (h : ratio * d < c) {u v : Nat} (hv : 1 ≤ v)
    (hu : (u : Rat) ≤ ratio * v) : u * d < c * v := by
  have hv' : (0 : Rat) < v := by exact_mod_cast hv
  have hd : (0 : Rat) ≤ d := Nat.cast_nonneg _
  have : (u : Rat) * d < c * v := by nlinarith [mul_lt_mul_of_pos_right h hv', mul_le_mul_of_nonneg_right hu hd]
  exact_mod_cast this

/-- Neither end of the search passes over a fraction with a denominator below the sum of theirs. -/
theorem lo_not {ratio : Rat} {s : Farey} (h : GInv ratio s) {u v : Nat} (hv : 1 ≤ v) (hs : v < s.b + s.d) :
    ¬ PassedOver ratio (s.a, s.b) u v := by
  rintro (⟨h1, h2⟩ | ⟨h1, h2⟩)
  · have := above_lo h.lo hv h1
    simp only at h2
    omega
  · simp only at h2
    have := between_ends h h2 (below_hi h.hi hv h1)
    omega

theorem hi_not {ratio : Rat} {s : Farey} (h : GInv ratio s) {u v : Nat} (hv : 1 ≤ v) (hs : v < s.b + s.d) :
    ¬ PassedOver ratio (s.c, s.d) u v := by
  rintro (⟨h1, h2⟩ | ⟨h1, h2⟩)
  · simp only at h2
    have := between_ends h (above_lo h.lo hv h1) h2
    omega
  · have := below_hi h.hi hv h1
    simp only at h2
    omega

theorem close_not {ratio : Rat} {m V : Nat} (hV : V * m < 1000000000) {s : Farey} (h : GInv ratio s)
    (hVm : V ≤ m) (he : |ratio - s.mediant| < eps) {u v : Nat} (hv : 1 ≤ v) (hvV : v ≤ V) :
    ¬ PassedOver ratio (s.close m) u v := by
  unfold Farey.close
  split
  · rename_i hle
    intro hp
    have hpos := ginv_pos h
    have hv' : (0 : Rat) < v := by exact_mod_cast hv
    -- the fraction is within `eps` of the mediant, and another fraction
    have hdiff : (1 : Rat) ≤ |(u : Rat) * ((s.b + s.d : Nat) : Rat) - ((s.a + s.c : Nat) : Rat) * v| := by
      have hz : ((u : Int) * ((s.b + s.d : Nat) : Int) - ((s.a + s.c : Nat) : Int) * v) ≠ 0 := by
        intro hz
        have : u * (s.b + s.d) = (s.a + s.c) * v := by
          have : (u : Int) * ((s.b + s.d : Nat) : Int) = ((s.a + s.c : Nat) : Int) * v := by omega
          exact_mod_cast this
        rcases hp with ⟨_, h2⟩ | ⟨_, h2⟩ <;> simp only at h2 <;> omega
      have := Int.one_le_abs hz
      exact_mod_cast this
    have hwithin : |(u : Rat) / v - s.mediant| < eps := by
      have hm' : s.mediant = ((s.a + s.c : Nat) : Rat) / ((s.b + s.d : Nat) : Rat) := rfl
      rw [abs_lt] at he ⊢
      rcases hp with ⟨h1, h2⟩ | ⟨h1, h2⟩
      · simp only at h2
        have h2' : (u : Rat) / v < s.mediant := by
          rw [hm', div_lt_div_iff₀ hv' hpos]; exact_mod_cast h2
        have h1' : ratio ≤ (u : Rat) / v := (le_div_iff₀ hv').mpr h1
        constructor <;> linarith [he.1, he.2]
      · simp only at h2
        have h2' : s.mediant < (u : Rat) / v := by
          rw [hm', div_lt_div_iff₀ hpos hv']; exact_mod_cast h2
        have h1' : (u : Rat) / v ≤ ratio := (div_le_iff₀ hv').mpr h1
        constructor <;> linarith [he.1, he.2]
    have heq : (u : Rat) / v - s.mediant =
        ((u : Rat) * ((s.b + s.d : Nat) : Rat) - ((s.a + s.c : Nat) : Rat) * v) / (v * ((s.b + s.d : Nat) : Rat)) := by
      unfold Farey.mediant
      rw [div_sub_div _ _ (ne_of_gt hv') (ne_of_gt hpos)]
      congr 1
      ring
    rw [heq, abs_div, abs_of_pos (by positivity : (0 : Rat) < v * ((s.b + s.d : Nat) : Rat)),
      div_lt_iff₀ (by positivity)] at hwithin
    have hprod : (v : Rat) * ((s.b + s.d : Nat) : Rat) < 1000000000 := by
      have : v * (s.b + s.d) ≤ V * m := Nat.mul_le_mul hvV hle
      exact_mod_cast (by omega : v * (s.b + s.d) < 1000000000)
    unfold eps at hwithin
    linarith
  · split
    · exact hi_not h hv (by omega)
    · exact lo_not h hv (by omega)

/-- Two fractions with determinant one. -/
theorem det_sub {a b c d : Nat} (hb : 1 ≤ b) (hd : 1 ≤ d) (h : b * c = a * d + 1) :
    (c : Rat) / d - (a : Rat) / b = 1 / (b * d) := by
  have hb' : (0 : Rat) < b := by exact_mod_cast hb
  have hd' : (0 : Rat) < d := by exact_mod_cast hd
  have h' : (b : Rat) * c = a * d + 1 := by exact_mod_cast h
  rw [div_sub_div _ _ (ne_of_gt hd') (ne_of_gt hb'), div_eq_div_iff (by positivity) (by positivity)]
  linear_combination ((b : Rat) * d) * h'

theorem one_div_prod_lt {x y d : Nat} (hd : 1 ≤ d) (hx : 1 ≤ x) (h : x < y) :
    (1 : Rat) / (y * d) < 1 / (x * d) := by
  have hd' : (0 : Rat) < d := by exact_mod_cast hd
  have hx' : (0 : Rat) < x := by exact_mod_cast hx
  apply one_div_lt_one_div_of_lt (by positivity)
  have : (x : Rat) < y := by exact_mod_cast h
  nlinarith

theorem final_not {ratio : Rat} {m V : Nat} (hVm : 2 * V ≤ m) {s : Farey} (h : GInv ratio s)
    (hb : s.b ≤ m) (hd : s.d ≤ m) (hx : ¬ ((s.next ratio).b ≤ m ∧ (s.next ratio).d ≤ m))
    {u v : Nat} (hv : 1 ≤ v) (hvV : v ≤ V) : ¬ PassedOver ratio ((s.next ratio).final ratio) u v := by
  have hbpos := h.bpos
  have hb0 : (0 : Rat) < s.b := by exact_mod_cast hbpos
  have hlo : (s.a : Rat) / s.b < ratio := (div_lt_iff₀ hb0).mpr h.lo
  have hpb0 : (0 : Rat) < s.pb := by exact_mod_cast h.pb.1
  have hplo : (s.pa : Rat) / s.pb < ratio := (div_lt_iff₀ hpb0).mpr h.plo
  unfold Farey.next at hx ⊢
  split at hx
  · rename_i hc
    rw [if_pos hc]
    simp only at hx
    have hbd : m < s.b + s.d := by omega
    have hdpos : 1 ≤ s.d := by omega
    have hd0 : (0 : Rat) < s.d := by exact_mod_cast hdpos
    have hhi : ratio < (s.c : Rat) / s.d := (lt_div_iff₀ hd0).mpr h.hi
    unfold Farey.final
    simp only
    split
    · rename_i hf
      rintro (⟨h1, h2⟩ | ⟨h1, h2⟩)
      · simp only at h2
        have hcv : s.c * v ≤ u * s.d := by
          by_contra hlt
          have := between_ends h (above_lo h.lo hv h1) (not_le.mp hlt)
          omega
        rcases h.pc with ⟨e1, e2⟩ | e
        · rw [e1, e2] at h2; omega
        · have hvd : s.d ≤ v := by
            have hv2 : (v : Int) = s.d * (s.pc * v - u * s.pd) + s.pd * (u * s.d - s.c * v) := by
              have e' : (s.pc : Int) * s.d = s.c * s.pd + 1 := by exact_mod_cast e
              linear_combination (-(v : Int)) * e'
            have g1 : (1 : Int) ≤ s.pc * v - u * s.pd := by zify at h2; omega
            have g2 : (0 : Int) ≤ u * s.d - s.c * v := by zify at hcv; omega
            have g3 : (0 : Int) ≤ s.pd := by omega
            have g4 : (0 : Int) ≤ s.d := by omega
            nlinarith [mul_nonneg g3 g2, mul_nonneg g4 (by omega : (0 : Int) ≤ s.pc * v - u * s.pd - 1)]
          have hpd := h.pd
          have hpd1 : 1 ≤ s.pd := by omega
          have hpd0 : (0 : Rat) < s.pd := by exact_mod_cast hpd1
          have d1 := det_sub (a := s.c) (b := s.d) (c := s.pc) (d := s.pd) hdpos hpd1 (by rw [Nat.mul_comm]; exact e)
          have d2 := det_sub hbpos hdpos h.det
          have d3 := one_div_prod_lt (x := s.pd) (y := s.b) (d := s.d) hdpos hpd1 (by omega)
          have hlt := hf.2
          have hphi : ratio < (s.pc : Rat) / s.pd := (lt_div_iff₀ hpd0).mpr h.phi
          rw [abs_sub_comm, abs_of_pos (by linarith), abs_of_pos (by linarith)] at hlt
          rw [mul_comm (s.d : Rat)] at d1
          linarith
      · have := below_hi h.phi hv h1
        simp only at h2
        omega
    · exact lo_not h hv (by omega)
  · rename_i hc
    rw [if_neg hc]
    simp only at hx
    have hbd : m < s.b + s.d := by omega
    have hdpos : 1 ≤ s.d := by omega
    have hd0 : (0 : Rat) < s.d := by exact_mod_cast hdpos
    have hhi : ratio < (s.c : Rat) / s.d := (lt_div_iff₀ hd0).mpr h.hi
    unfold Farey.final
    simp only
    split
    · exact hi_not h hv (by omega)
    · rename_i hf
      rintro (⟨h1, h2⟩ | ⟨h1, h2⟩)
      · have := above_lo h.plo hv h1
        simp only at h2
        omega
      · simp only at h2
        have hcv : u * s.b ≤ s.a * v := by
          by_contra hlt
          have := between_ends h (not_le.mp hlt) (below_hi h.hi hv h1)
          omega
        rcases h.pa with ⟨e1, e2⟩ | e
        · rw [e1, e2] at h2; omega
        · have hvb : s.b ≤ v := by
            have hv2 : (v : Int) = s.b * (u * s.pb - s.pa * v) + s.pb * (s.a * v - u * s.b) := by
              have e' : (s.a : Int) * s.pb = s.pa * s.b + 1 := by exact_mod_cast e
              linear_combination (-(v : Int)) * e'
            have g1 : (1 : Int) ≤ u * s.pb - s.pa * v := by zify at h2; omega
            have g2 : (0 : Int) ≤ s.a * v - u * s.b := by zify at hcv; omega
            have g3 : (0 : Int) ≤ s.pb := by omega
            have g4 : (0 : Int) ≤ s.b := by omega
            nlinarith [mul_nonneg g3 g2, mul_nonneg g4 (by omega : (0 : Int) ≤ u * s.pb - s.pa * v - 1)]
          obtain ⟨hpb1, hpb⟩ := h.pb
          apply hf
          refine ⟨by omega, ?_⟩
          have d1 := det_sub (a := s.pa) (b := s.pb) (c := s.a) (d := s.b) hpb1 hbpos (by rw [Nat.mul_comm]; exact e)
          have d2 := det_sub hbpos hdpos h.det
          have d3 := one_div_prod_lt (x := s.pb) (y := s.d) (d := s.b) hbpos hpb1 (by omega)
          rw [abs_sub_comm, abs_of_pos (by linarith), abs_of_pos (by linarith)]
          rw [mul_comm (s.b : Rat)] at d2
          linarith

theorem pickLoop_not {ratio : Rat} {m V : Nat} (hVm : 2 * V ≤ m) (hV : V * m < 1000000000)
    {u v : Nat} (hv : 1 ≤ v) (hvV : v ≤ V) (fuel : Nat) (s : Farey) (h : GInv ratio s) (hb : s.b ≤ m) (hd : s.d ≤ m)
    (r : Nat × Nat) (hr : pickLoop ratio m fuel s = some r) : ¬ PassedOver ratio r u v := by
  induction fuel generalizing s with
  | zero => simp [pickLoop] at hr
  | succ fuel ih =>
    unfold pickLoop at hr
    rcases turn_cases s ratio m with ⟨hc, ht⟩ | ⟨hc, he, ht⟩ | ⟨hc, he, ht⟩
    · exact absurd ⟨hb, hd⟩ hc
    · rw [ht] at hr
      cases Option.some.inj hr
      exact close_not hV h (by omega) he hv hvV
    · rw [ht] at hr
      simp only at hr
      by_cases hx : (s.next ratio).b ≤ m ∧ (s.next ratio).d ≤ m
      · exact ih _ (next_ginv h he) hx.1 hx.2 hr
      · cases fuel with
        | zero => simp [pickLoop] at hr
        | succ fuel =>
          unfold pickLoop at hr
          have ht' : (s.next ratio).turn ratio m = .inl ((s.next ratio).final ratio) := by
            unfold Farey.turn; rw [if_neg hx]
          rw [ht'] at hr
          cases Option.some.inj hr
          exact final_not hVm h hb hd hx hv hvV

/-- **C12 (partial).**  No fraction whose denominator is at most half the limit (and, with the
limit, small beside 10 ^ 9, the tolerance of the search) lies between a positive ratio and the
result, nor at the ratio when the result is another.  Missing: larger denominators, for which
it is false (`C12_violated`). -/
theorem C12_simple_partial {ratio : Rat} {maxDenom num denom : Nat} (hr : 0 < ratio)
    (h : pickNearestRational ratio maxDenom = some (num, denom)) {u v : Nat} (hv : 1 ≤ v) (hvm : 2 * v ≤ maxDenom)
    (hsmall : v * maxDenom < 1000000000) :
    (ratio ≤ (u : Rat) / v → (num : Rat) / denom ≤ (u : Rat) / v) ∧
      ((u : Rat) / v ≤ ratio → (u : Rat) / v ≤ (num : Rat) / denom) := by
  have hm : 1 ≤ maxDenom := by omega
  have hn := pickLoop_not hvm hsmall hv (Nat.le_refl v) (u := u) _ _ (init_ginv hr) (by simpa using hm)
    (by simp) _ h
  obtain ⟨n', d', e, hd1, _, _⟩ := C12_partial ratio maxDenom hr.le hm
  rw [h] at e
  cases Option.some.inj e
  have hd0 : (0 : Rat) < denom := by exact_mod_cast hd1
  have hv0 : (0 : Rat) < v := by exact_mod_cast hv
  constructor
  · intro h1
    by_contra hc
    apply hn
    left
    refine ⟨(le_div_iff₀ hv0).mp h1, ?_⟩
    have := (div_lt_div_iff₀ hv0 hd0).mp (not_le.mp hc)
    exact_mod_cast this
  · intro h1
    by_contra hc
    apply hn
    right
    refine ⟨(div_le_iff₀ hv0).mp h1, ?_⟩
    have := (div_lt_div_iff₀ hd0 hv0).mp (not_le.mp hc)
    exact_mod_cast this

/-- The square root of one half to a denominator of at most 1000: 5/7 is above the ratio, and above
the result. -/
example : pickNearestRational (7071067811 / 10000000000) 1000 = some (577, 816) ∧
    (5 : Rat) / 7 > 7071067811 / 10000000000 ∧ (577 : Rat) / 816 ≤ 5 / 7 := by
  refine ⟨by decide +kernel, by norm_num, by norm_num⟩

end Verif.MathMisc
