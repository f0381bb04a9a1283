import Verif.FFTLemmas
import Mathlib.RingTheory.RootsOfUnity.Complex
/-! # The built-in Fourier transform: real input and real output -/
namespace Verif.FFT
open Verif.MovingMedian (setAt)
open Finset
open scoped ComplexConjugate

/-! ### What is to be computed -/

/-- The discrete Fourier transform: the part of `x` with `k` periods in `n` samples. -/
noncomputable def spectrum (n : Nat) (x : Nat → ℝ) (k : Nat) : ℂ :=
  ∑ j ∈ range n, (x j : ℂ) * Complex.exp (-(2 * Real.pi * Complex.I * j * k / n))

/-- The bins above the middle are the conjugates of those below. -/
noncomputable def mirrored (n : Nat) (X : Nat → ℂ) (k : Nat) : ℂ :=
  if k ≤ n / 2 then X k else conj (X (n - k))

/-- The samples that the bins stand for, times the number of samples. -/
noncomputable def resum (n : Nat) (X : Nat → ℂ) (j : Nat) : ℝ :=
  (∑ k ∈ range n, mirrored n X k * Complex.exp (2 * Real.pi * Complex.I * j * k / n)).re

theorem turn_exp (n m : Nat) :
    turn 1 n m = Complex.exp (-(2 * Real.pi * Complex.I * m / n)) := by
  have : -(2 * Real.pi * Complex.I * m / n) = ((-(m * (2 * Real.pi / n)) : ℝ) : ℂ) * Complex.I := by
    push_cast; ring
  rw [this]
  apply Complex.ext
  · rw [Complex.exp_ofReal_mul_I_re, Real.cos_neg]; rfl
  · rw [Complex.exp_ofReal_mul_I_im, Real.sin_neg]; simp [turn]

theorem turn_exp' (n m : Nat) :
    turn (-1) n m = Complex.exp (2 * Real.pi * Complex.I * m / n) := by
  have : 2 * Real.pi * Complex.I * m / n = ((m * (2 * Real.pi / n) : ℝ) : ℂ) * Complex.I := by
    push_cast; ring
  rw [this]
  apply Complex.ext
  · rw [Complex.exp_ofReal_mul_I_re]; rfl
  · rw [Complex.exp_ofReal_mul_I_im]; simp [turn]

theorem spectrum_turn (n : Nat) (x : Nat → ℝ) (k : Nat) :
    spectrum n x k = ∑ j ∈ range n, (x j : ℂ) * turn 1 n (k * j) := by
  rw [spectrum]
  apply sum_congr rfl
  intro j _
  rw [turn_exp]
  congr 2
  push_cast; ring

theorem resum_turn (n : Nat) (X : Nat → ℂ) (j : Nat) :
    resum n X j = (∑ k ∈ range n, mirrored n X k * turn (-1) n (j * k)).re := by
  rw [resum]
  congr 1
  apply sum_congr rfl
  intro k _
  rw [turn_exp']
  congr 2
  push_cast; ring

theorem one_sq : (1 : ℝ) * 1 = 1 := by norm_num
theorem neg_sq' : (-1 : ℝ) * -1 = 1 := by norm_num

theorem turn_conj (f : ℝ) (n m : Nat) : conj (turn f n m) = turn (-f) n m := by
  apply Complex.ext <;> simp [turn]

theorem turn_full {f : ℝ} {n : Nat} (hn : 0 < n) : turn f n n = 1 := by
  have h : (n : ℝ) * (2 * Real.pi / n) = 2 * Real.pi := by
    have : (n : ℝ) ≠ 0 := by positivity
    field_simp
  apply Complex.ext <;> simp only [turn, h] <;> simp

theorem turn_wrap {f : ℝ} (hf : f * f = 1) {n : Nat} (hn : 0 < n) (m : Nat) :
    turn f n (n * m) = 1 := by
  rw [turn_pow hf, turn_full hn, one_pow]

theorem turn_norm {f : ℝ} (hf : f * f = 1) (n m : Nat) : turn f n m * conj (turn f n m) = 1 := by
  apply Complex.ext
  · simp only [turn, Complex.mul_re, Complex.conj_re, Complex.conj_im, Complex.one_re]
    have := Real.cos_sq_add_sin_sq (m * (2 * Real.pi / n))
    linear_combination this + Real.sin (m * (2 * Real.pi / n)) ^ 2 * hf
  · simp only [turn, Complex.mul_im, Complex.conj_re, Complex.conj_im, Complex.one_im]
    ring

theorem turn_back {f : ℝ} (hf : f * f = 1) {n : Nat} (hn : 0 < n) {k : Nat} (hk : k ≤ n) (q : Nat) :
    turn f n ((n - k) * q) = conj (turn f n (k * q)) := by
  have h1 : turn f n ((n - k) * q) * turn f n (k * q) = 1 := by
    rw [← turn_add hf, ← Nat.add_mul, Nat.sub_add_cancel hk, turn_wrap hf hn]
  have h2 := turn_norm hf n (k * q)
  calc turn f n ((n - k) * q) = turn f n ((n - k) * q) * (turn f n (k * q) * conj (turn f n (k * q))) := by
        rw [h2, mul_one]
    _ = conj (turn f n (k * q)) := by rw [← mul_assoc, h1, one_mul]

/-! ### Forward -/

/-- The transform of the even samples. -/
noncomputable def evens (h : Nat) (x : Nat → ℝ) (k : Nat) : ℂ :=
  ∑ q ∈ range h, (x (2 * q) : ℂ) * turn 1 h (k * q)

/-- The transform of the odd samples. -/
noncomputable def odds (h : Nat) (x : Nat → ℝ) (k : Nat) : ℂ :=
  ∑ q ∈ range h, (x (2 * q + 1) : ℂ) * turn 1 h (k * q)

theorem spectrum_split (h : Nat) (x : Nat → ℝ) (k : Nat) :
    spectrum (2 * h) x k = evens h x k + turn 1 (2 * h) k * odds h x k := by
  rw [spectrum_turn, sum_even_odd, evens, odds, mul_sum]
  congr 1
  · apply sum_congr rfl
    intro q _
    have : k * (2 * q) = 2 * (k * q) := by ring
    rw [this, turn_double]
  · apply sum_congr rfl
    intro q _
    have : k * (2 * q + 1) = k + 2 * (k * q) := by ring
    rw [this, turn_add one_sq, turn_double]
    ring

theorem evens_back {h : Nat} (hh : 0 < h) (x : Nat → ℝ) {k : Nat} (hk : k ≤ h) :
    evens h x (h - k) = conj (evens h x k) := by
  rw [evens, evens, map_sum]
  apply sum_congr rfl
  intro q _
  rw [turn_back one_sq hh hk, map_mul, Complex.conj_ofReal]

theorem odds_back {h : Nat} (hh : 0 < h) (x : Nat → ℝ) {k : Nat} (hk : k ≤ h) :
    odds h x (h - k) = conj (odds h x k) := by
  rw [odds, odds, map_sum]
  apply sum_congr rfl
  intro q _
  rw [turn_back one_sq hh hk, map_mul, Complex.conj_ofReal]

theorem sumAt_packed (h : Nat) (x : Nat → ℝ) (k : Nat) :
    sumAt 1 h (fun q => ⟨x (2 * q), x (2 * q + 1)⟩) k = evens h x k + Complex.I * odds h x k := by
  rw [sumAt, evens, odds, mul_sum, ← sum_add_distrib]
  apply sum_congr rfl
  intro q _
  rw [Complex.mk_eq_add_mul_I]
  ring

theorem turn_turned {h : Nat} (hh : 0 < h) {k : Nat} (hk : k ≤ h) :
    turn 1 (2 * h) (h - k) = -conj (turn 1 (2 * h) k) := by
  have h1 : turn 1 (2 * h) (h - k) * turn 1 (2 * h) k = -1 := by
    rw [← turn_add one_sq, Nat.sub_add_cancel hk, turn_half hh]
  have h2 := turn_norm one_sq (2 * h) k
  calc turn 1 (2 * h) (h - k)
      = turn 1 (2 * h) (h - k) * (turn 1 (2 * h) k * conj (turn 1 (2 * h) k)) := by rw [h2, mul_one]
    _ = -conj (turn 1 (2 * h) k) := by rw [← mul_assoc, h1]; ring

/-- The factors in `m_sincos_r`. -/
theorem quarter (h k : Nat) :
    Real.cos (Real.pi * ((k : ℝ) / h + 0.5)) = -Real.sin (k * (2 * Real.pi / (2 * h : Nat))) ∧
    Real.sin (Real.pi * ((k : ℝ) / h + 0.5)) = Real.cos (k * (2 * Real.pi / (2 * h : Nat))) := by
  have e : Real.pi * ((k : ℝ) / h + 0.5) = k * (2 * Real.pi / (2 * h : Nat)) + Real.pi / 2 := by
    push_cast
    rw [mul_div_mul_left _ _ (by norm_num)]
    ring
  rw [e]
  exact ⟨Real.cos_add_pi_div_two _, Real.sin_add_pi_div_two _⟩

/-- The table that `twistF` and `twistI` use. -/
def Twists (h : Nat) (t : List ℝ) : Prop :=
  ∀ i < 2 * (h / 2), t[i]? = some (sincosRAt h i)

theorem Twists.sin {h : Nat} {t : List ℝ} (ht : Twists h t) {i : Nat} (hi : i < h / 2) :
    t[2 * i]? = some (Real.cos ((i + 1 : Nat) * (2 * Real.pi / (2 * h : Nat)))) := by
  rw [ht _ (by omega), sincosRAt_0, (quarter h (i + 1)).2]

theorem Twists.cos {h : Nat} {t : List ℝ} (ht : Twists h t) {i : Nat} (hi : i < h / 2) :
    t[2 * i + 1]? = some (-Real.sin ((i + 1 : Nat) * (2 * Real.pi / (2 * h : Nat)))) := by
  rw [ht _ (by omega), sincosRAt_1, (quarter h (i + 1)).1]

/-- What `transformF` makes of two bins of the packed transform. -/
noncomputable def twisted (h k : Nat) (p q : ℂ) : ℂ :=
  (p + conj q - Complex.I * turn 1 (2 * h) k * (p - conj q)) / 2

/-- What `transformF` makes of two bins of the packed transform, for the mirrored bin. -/
noncomputable def twisted' (h k : Nat) (p q : ℂ) : ℂ :=
  conj ((p + conj q + Complex.I * turn 1 (2 * h) k * (p - conj q)) / 2)

theorem twistF_step {h i n : Nat} {t vr vi : List ℝ} {st : Nat × List ℝ × List ℝ} {v z : Nat → ℂ}
    (ht : Twists h t) (hi : i < h / 2) (hix : st.1 = 2 * i)
    (hv : Carries vr vi h v) (hn : h < n) (hc : Carries st.2.1 st.2.2 n z) :
    ∃ st', twistF h t vr vi i st = some st' ∧ st'.1 = 2 * (i + 1) ∧
      Carries st'.2.1 st'.2.2 n (Function.update
        (Function.update z (i + 1) (twisted h (i + 1) (v (i + 1)) (v (h - (i + 1)))))
        (h - (i + 1)) (twisted' h (i + 1) (v (i + 1)) (v (h - (i + 1))))) := by
  obtain ⟨ix, ro, io⟩ := st
  simp only at hix hc
  subst hix
  set A := v (i + 1)
  set B := v (h - (i + 1))
  set θ : ℝ := (i + 1 : Nat) * (2 * Real.pi / (2 * h : Nat)) with hθ
  obtain ⟨ro1, e1, p1⟩ := hc.re.set (i := i + 1) (by omega) ((A.re + B.re + ((A.re - B.re) * -Real.sin θ -
    (A.im - -B.im) * -Real.cos θ)) * 0.5)
  obtain ⟨ro2, e2, p2⟩ := p1.set (i := h - (i + 1)) (by omega) ((A.re + B.re - ((A.re - B.re) * -Real.sin θ -
    (A.im - -B.im) * -Real.cos θ)) * 0.5)
  obtain ⟨io1, e3, p3⟩ := hc.im.set (i := i + 1) (by omega) ((A.im + -B.im + ((A.re - B.re) * -Real.cos θ +
    (A.im - -B.im) * -Real.sin θ)) * 0.5)
  obtain ⟨io2, e4, p4⟩ := p3.set (i := h - (i + 1)) (by omega) ((((A.re - B.re) * -Real.cos θ +
    (A.im - -B.im) * -Real.sin θ) - A.im - -B.im) * 0.5)
  have hr : (turn 1 (2 * h) (i + 1)).re = Real.cos θ := rfl
  have him : (turn 1 (2 * h) (i + 1)).im = -Real.sin θ := by
    rw [show (turn 1 (2 * h) (i + 1)).im = -1 * Real.sin θ from rfl]; ring
  refine ⟨(2 * i + 2, ro2, io2), ?_, by simp only; omega, ?_, ?_⟩
  · simp only [twistF, ht.sin hi, ht.cos hi, ← hθ,
      hv.re.get (show i + 1 < h by omega), hv.im.get (show i + 1 < h by omega),
      hv.re.get (show h - (i + 1) < h by omega), hv.im.get (show h - (i + 1) < h by omega),
      Option.bind_eq_bind, Option.bind_some, A, B] at e1 e2 e3 e4 ⊢
    simp only [e1, e2, e3, e4, Option.bind_some]
  · rw [update_re, update_re]
    convert p2 using 2
    · congr 1
      simp [twisted, hr, him, A, B]
      ring
    · rw [twisted', Complex.conj_re]
      simp [ hr, him, A, B]
      ring
  · rw [update_im, update_im]
    convert p4 using 2
    · congr 1
      simp [twisted, hr, him, A, B]
      ring
    · rw [twisted', Complex.conj_im]
      simp [ hr, him, A, B]
      ring

theorem twisted_packed {h : Nat} (hh : 0 < h) (x : Nat → ℝ) {k : Nat} (hk : k ≤ h) {p q : ℂ}
    (hp : p = evens h x k + Complex.I * odds h x k)
    (hq : q = evens h x (h - k) + Complex.I * odds h x (h - k)) :
    twisted h k p q = spectrum (2 * h) x k := by
  rw [twisted, hp, hq, spectrum_split, evens_back hh x hk, odds_back hh x hk]
  simp only [map_add, map_mul, Complex.conj_conj, Complex.conj_I]
  have := Complex.I_sq
  linear_combination (-turn 1 (2 * h) k * odds h x k) * this

theorem twisted'_packed {h : Nat} (hh : 0 < h) (x : Nat → ℝ) {k : Nat} (hk : k ≤ h) {p q : ℂ}
    (hp : p = evens h x k + Complex.I * odds h x k)
    (hq : q = evens h x (h - k) + Complex.I * odds h x (h - k)) :
    twisted' h k p q = spectrum (2 * h) x (h - k) := by
  have e : spectrum (2 * h) x (h - k) = conj (evens h x k - turn 1 (2 * h) k * odds h x k) := by
    rw [spectrum_split, evens_back hh x hk, odds_back hh x hk, turn_turned hh hk]
    simp only [map_sub, map_mul]
    ring
  rw [twisted', e]
  congr 1
  rw [hp, hq, evens_back hh x hk, odds_back hh x hk]
  simp only [map_add, map_mul, Complex.conj_conj, Complex.conj_I]
  have := Complex.I_sq
  linear_combination (turn 1 (2 * h) k * odds h x k) * this

theorem spectrum_ends {h : Nat} (hh : 0 < h) (x : Nat → ℝ) {p : ℂ}
    (hp : p = evens h x 0 + Complex.I * odds h x 0) :
    spectrum (2 * h) x 0 = ((p.re + p.im : ℝ) : ℂ) ∧
    spectrum (2 * h) x h = ((p.re - p.im : ℝ) : ℂ) := by
  have h1 : evens h x 0 = ((∑ q ∈ range h, x (2 * q) : ℝ) : ℂ) := by
    rw [evens]; push_cast
    exact sum_congr rfl fun q _ => by rw [Nat.zero_mul, turn_zero, mul_one]
  have h2 : odds h x 0 = ((∑ q ∈ range h, x (2 * q + 1) : ℝ) : ℂ) := by
    rw [odds]; push_cast
    exact sum_congr rfl fun q _ => by rw [Nat.zero_mul, turn_zero, mul_one]
  have h3 : evens h x h = evens h x 0 := by
    have := evens_back hh x (Nat.zero_le h)
    rw [Nat.sub_zero] at this
    rw [this, h1, Complex.conj_ofReal]
  have h4 : odds h x h = odds h x 0 := by
    have := odds_back hh x (Nat.zero_le h)
    rw [Nat.sub_zero] at this
    rw [this, h2, Complex.conj_ofReal]
  have hre : p.re = ∑ q ∈ range h, x (2 * q) := by rw [hp, h1, h2]; simp
  have him : p.im = ∑ q ∈ range h, x (2 * q + 1) := by rw [hp, h1, h2]; simp
  constructor
  · rw [spectrum_split, turn_zero, h1, h2, hre, him]; push_cast; ring
  · rw [spectrum_split, turn_half hh, h3, h4, h1, h2, hre, him]; push_cast; ring

theorem split_holds {h : Nat} {ri : List ℝ} {x : Nat → ℝ} {a b : List ℝ}
    (hx : ∀ i < 2 * h, ri[i]? = some (x i)) (ha : a.length = h + 1) (hb : b.length = h + 1) :
    ∃ a' b', times h (splitOne ri) (a, b) = some (a', b') ∧ a'.length = h + 1 ∧
      b'.length = h + 1 ∧ (∀ i < h, a'[i]? = some (x (2 * i))) ∧
      (∀ i < h, b'[i]? = some (x (2 * i + 1))) := by
  obtain ⟨⟨a', b'⟩, e, h1, h2⟩ := times_inv (n := h) (body := splitOne ri) (s := (a, b))
    (fun c s => Holds s.1 (h + 1) (fun i => if i < c then x (2 * i) else a.getD i default) ∧
      Holds s.2 (h + 1) (fun i => if i < c then x (2 * i + 1) else b.getD i default)) (by
      rintro i hi ⟨a1, b1⟩ ⟨h1, h2⟩
      obtain ⟨a2, e1, p1⟩ := h1.extend (by omega) rfl
      obtain ⟨b2, e2, p2⟩ := h2.extend (by omega) rfl
      refine ⟨(a2, b2), ?_, p1, p2⟩
      have g1 : ri[i * 2]? = some (x (2 * i)) := by rw [Nat.mul_comm i 2, hx _ (by omega)]
      have g2 : ri[i * 2 + 1]? = some (x (2 * i + 1)) := by rw [Nat.mul_comm i 2, hx _ (by omega)]
      simp only at e1 e2
      simp only [splitOne, g1, g2, e1, e2, Option.bind_eq_bind, Option.bind_some])
    ⟨by rw [← ha]; simpa using Holds.of_length a, by rw [← hb]; simpa using Holds.of_length b⟩
  refine ⟨a', b', e, h1.1, h2.1, fun i hi => ?_, fun i hi => ?_⟩
  · rw [h1.get (by omega), if_pos hi]
  · rw [h2.get (by omega), if_pos hi]

/-- **Forward transform**: any real input, any contents of the buffers. -/
theorem transformF_spec {b : Nat} {o : Builtin} {ri ro io : List ℝ} {x : Nat → ℝ} (ho : Valid b o)
    (hx : ∀ i < 2 ^ (b + 1), ri[i]? = some (x i)) (hro : ro.length = 2 ^ b + 1)
    (hio : io.length = 2 ^ b + 1) :
    ∃ o' ro' io', transformF o ri ro io = some (o', ro', io') ∧ Valid b o' ∧
      o'.c = o.c ∧ o'.d = o.d ∧
      Carries ro' io' (2 ^ b + 1) (spectrum (2 ^ (b + 1)) x) := by
  have hh : 0 < 2 ^ b := by positivity
  have h2 : 2 ^ (b + 1) = 2 * 2 ^ b := pow_succ' 2 b
  rw [h2] at hx ⊢
  obtain ⟨a', b', e1, la, lb, ga, gb⟩ := split_holds hx ho.a ho.b
  obtain ⟨vr, vi, v, e2, c2, hv⟩ := transformComplex_carries (inv := false) (ri := a') (ii := b')
    (x := fun q => ⟨x (2 * q), x (2 * q + 1)⟩) ho ga gb le_rfl ho.vr ho.vi
  have hv' : ∀ p < 2 ^ b, v p = evens (2 ^ b) x p + Complex.I * odds (2 ^ b) x p := by
    intro p hp
    rw [hv p hp, ← sumAt_packed]
    rfl
  obtain ⟨z, hz⟩ := Carries.of_length hro hio
  obtain ⟨s0, s1⟩ := spectrum_ends hh x (hv' 0 hh)
  obtain ⟨ro1, r1, q1⟩ := hz.re.set (i := 0) (by omega) ((v 0).re + (v 0).im)
  obtain ⟨ro2, r2, q2⟩ := q1.set (i := 2 ^ b) (by omega) ((v 0).re - (v 0).im)
  obtain ⟨io1, r3, q3⟩ := hz.im.set (i := 2 ^ b) (by omega) 0
  obtain ⟨io2, r4, q4⟩ := q3.set (i := 0) (by omega) 0
  obtain ⟨⟨ix, ro3, io3⟩, e3, _, z3, c3, hz3⟩ := times_inv (n := 2 ^ b / 2)
    (body := twistF (2 ^ b) o.sincosR vr vi) (s := (0, ro2, io2))
    (fun i st => st.1 = 2 * i ∧ ∃ z, Carries st.2.1 st.2.2 (2 ^ b + 1) z ∧
      ∀ p ≤ 2 ^ b, (p ≤ i ∨ 2 ^ b - i ≤ p) → z p = spectrum (2 * 2 ^ b) x p) (by
      rintro i hi st ⟨hix, z, hc, hz⟩
      obtain ⟨st', e, hix', hc'⟩ := twistF_step (n := 2 ^ b + 1) ho.sincosR.2 hi hix c2 (by omega) hc
      refine ⟨st', e, hix', _, hc', ?_⟩
      intro p hp hor
      have hk : i + 1 < 2 ^ b := by omega
      by_cases h1 : p = 2 ^ b - (i + 1)
      · subst h1
        rw [Function.update_self]
        exact twisted'_packed hh x (by omega) (hv' _ (by omega)) (hv' _ (by omega))
      · rw [Function.update_of_ne h1]
        by_cases h2 : p = i + 1
        · subst h2
          rw [Function.update_self]
          exact twisted_packed hh x (by omega) (hv' _ (by omega)) (hv' _ (by omega))
        · rw [Function.update_of_ne h2]
          exact hz p hp (by omega))
    ⟨rfl, fun p => if p = 0 then spectrum (2 * 2 ^ b) x 0 else
        if p = 2 ^ b then spectrum (2 * 2 ^ b) x (2 ^ b) else z p, ⟨by
      refine q2.congr fun p _ => ?_
      by_cases h1 : p = 2 ^ b
      · subst h1
        rw [Function.update_self, if_neg (by omega), if_pos rfl, s1, Complex.ofReal_re]
      · rw [Function.update_of_ne h1]
        by_cases h2 : p = 0
        · subst h2
          rw [Function.update_self, if_pos rfl, s0, Complex.ofReal_re]
        · rw [Function.update_of_ne h2, if_neg h2, if_neg h1], by
      refine q4.congr fun p _ => ?_
      by_cases h2 : p = 0
      · subst h2
        rw [Function.update_self, if_pos rfl, s0, Complex.ofReal_im]
      · rw [Function.update_of_ne h2, if_neg h2]
        by_cases h1 : p = 2 ^ b
        · subst h1
          rw [Function.update_self, if_pos rfl, s1, Complex.ofReal_im]
        · rw [Function.update_of_ne h1, if_neg h1]⟩, by
      intro p hp hor
      beta_reduce
      by_cases h2 : p = 0
      · subst h2; rw [if_pos rfl]
      · rw [if_neg h2, if_pos (by omega)]
        congr 1; omega⟩
  refine ⟨{ o with a := a', b := b', vr := vr, vi := vi }, ro3, io3, ?_, ?_, rfl, rfl, ?_⟩
  · simp only [transformF, ho.half, e1, e2, c2.re.get hh, c2.im.get hh, r1, r2, r3, r4, e3,
      Option.bind_eq_bind, Option.bind_some]
  · exact ⟨ho.size, ho.half, ho.table, ho.sincos, ho.sincosR, c2.re.1, c2.im.1, la, lb, ho.c, ho.d⟩
  · refine c3.congr fun p hp => hz3 p (by omega) ?_
    have : 2 ^ b % 2 = 0 ∨ b = 0 := by
      rcases Nat.eq_zero_or_pos b with h | h
      · exact Or.inr h
      · left
        obtain ⟨c, rfl⟩ : ∃ c, b = c + 1 := ⟨b - 1, by omega⟩
        rw [pow_succ]; omega
    rcases this with h | h
    · omega
    · subst h; simp at hp ⊢; omega

/-! ### Inverse -/

/-- The bins that `transformI` uses: the outermost are taken to be real. -/
noncomputable def realEnds (h : Nat) (X : Nat → ℂ) (k : Nat) : ℂ :=
  if k = 0 ∨ k = h then ((X k).re : ℂ) else X k

/-- What `transformI` packs into one bin. -/
noncomputable def packed (h : Nat) (X : Nat → ℂ) (k : Nat) : ℂ :=
  X k + conj (X (h - k)) + Complex.I * turn (-1) (2 * h) k * (X k - conj (X (h - k)))

theorem turn_turned' {h : Nat} (hh : 0 < h) {k : Nat} (hk : k ≤ h) :
    turn (-1) (2 * h) (h - k) = -conj (turn (-1) (2 * h) k) := by
  have := congrArg conj (turn_turned hh hk)
  rw [turn_conj, map_neg, Complex.conj_conj] at this
  rw [this, turn_conj, neg_neg]

theorem packed_back {h : Nat} (hh : 0 < h) (X : Nat → ℂ) {k : Nat} (hk : k ≤ h) :
    packed h X (h - k) = conj (X k + conj (X (h - k)) -
      Complex.I * turn (-1) (2 * h) k * (X k - conj (X (h - k)))) := by
  have e : h - (h - k) = k := by omega
  rw [packed, e, turn_turned' hh hk]
  simp only [map_add, map_sub, map_mul, Complex.conj_conj, Complex.conj_I]
  ring

theorem twistI_step {h i n : Nat} {t ri ii : List ℝ} {st : Nat × List ℝ × List ℝ} {X z : Nat → ℂ}
    (ht : Twists h t) (hi : i < h / 2) (hix : st.1 = 2 * i)
    (hr0 : ri[i + 1]? = some (X (i + 1)).re) (hi0 : ii[i + 1]? = some (X (i + 1)).im)
    (hr1 : ri[h - (i + 1)]? = some (X (h - (i + 1))).re)
    (hi1 : ii[h - (i + 1)]? = some (X (h - (i + 1))).im)
    (hn : h ≤ n) (hc : Carries st.2.1 st.2.2 n z) :
    ∃ st', twistI h t ri ii i st = some st' ∧ st'.1 = 2 * (i + 1) ∧
      Carries st'.2.1 st'.2.2 n (Function.update
        (Function.update z (i + 1) (packed h X (i + 1)))
        (h - (i + 1)) (packed h X (h - (i + 1)))) := by
  obtain ⟨ix, ro, io⟩ := st
  simp only at hix hc
  subst hix
  rw [packed_back (by omega) X (by omega), packed]
  set A := X (i + 1)
  set B := X (h - (i + 1))
  set θ : ℝ := (i + 1 : Nat) * (2 * Real.pi / (2 * h : Nat)) with hθ
  obtain ⟨ro1, e1, p1⟩ := hc.re.set (i := i + 1) (by omega) (A.re + B.re + ((A.re - B.re) * -Real.sin θ -
    (A.im - -B.im) * Real.cos θ))
  obtain ⟨ro2, e2, p2⟩ := p1.set (i := h - (i + 1)) (by omega) (A.re + B.re - ((A.re - B.re) * -Real.sin θ -
    (A.im - -B.im) * Real.cos θ))
  obtain ⟨io1, e3, p3⟩ := hc.im.set (i := i + 1) (by omega) (A.im + -B.im + ((A.re - B.re) * Real.cos θ +
    (A.im - -B.im) * -Real.sin θ))
  obtain ⟨io2, e4, p4⟩ := p3.set (i := h - (i + 1)) (by omega) (((A.re - B.re) * Real.cos θ +
    (A.im - -B.im) * -Real.sin θ) - A.im - -B.im)
  have hr : (turn (-1) (2 * h) (i + 1)).re = Real.cos θ := rfl
  have him : (turn (-1) (2 * h) (i + 1)).im = Real.sin θ := by
    rw [show (turn (-1) (2 * h) (i + 1)).im = -(-1) * Real.sin θ from rfl]; ring
  refine ⟨(2 * i + 2, ro2, io2), ?_, by simp only; omega, ?_, ?_⟩
  · simp only [twistI, ht.sin hi, ht.cos hi, ← hθ, hr0, hr1, hi0, hi1,
      Option.bind_eq_bind, Option.bind_some, A, B] at e1 e2 e3 e4 ⊢
    simp only [e1, e2, e3, e4, Option.bind_some]
  · rw [update_re, update_re]
    convert p2 using 2
    · congr 1
      simp [hr, him]
      ring
    · rw [Complex.conj_re]
      simp [hr, him]
      ring
  · rw [update_im, update_im]
    convert p4 using 2
    · congr 1
      simp [hr, him]
      ring
    · rw [Complex.conj_im]
      simp [hr, him]
      ring

/-- The samples as a complex sum. -/
noncomputable def resumC (n : Nat) (X : Nat → ℂ) (j : Nat) : ℂ :=
  ∑ k ∈ range n, mirrored n X k * turn (-1) n (j * k)

theorem real_of_conj {z : ℂ} (h : conj z = z) : z = ((z.re : ℝ) : ℂ) :=
  (Complex.conj_eq_iff_re.mp h).symm

theorem resumC_real {h : Nat} (hh : 0 < h) {X : Nat → ℂ} (h0 : conj (X 0) = X 0)
    (h1 : conj (X h) = X h) (j : Nat) : conj (resumC (2 * h) X j) = resumC (2 * h) X j := by
  have hg : ∀ k < 2 * h - 1, conj (mirrored (2 * h) X (k + 1) * turn (-1) (2 * h) (j * (k + 1))) =
      mirrored (2 * h) X (2 * h - 1 - 1 - k + 1) *
        turn (-1) (2 * h) (j * (2 * h - 1 - 1 - k + 1)) := by
    intro k hk
    have e : 2 * h - 1 - 1 - k + 1 = 2 * h - (k + 1) := by omega
    have hd : 2 * h / 2 = h := by omega
    rw [e, map_mul]
    congr 1
    · rw [mirrored, mirrored, hd]
      by_cases c1 : k + 1 < h
      · rw [if_pos (by omega), if_neg (by omega)]
        congr 2; omega
      · by_cases c2 : k + 1 = h
        · rw [if_pos (by omega), if_pos (by omega), c2, h1]
          congr 1; omega
        · rw [if_neg (by omega), if_pos (by omega), Complex.conj_conj]
    · rw [Nat.mul_comm j (2 * h - (k + 1)), turn_back neg_sq' (by omega) (by omega),
        Nat.mul_comm j]
  have e : 2 * h = 2 * h - 1 + 1 := by omega
  rw [resumC]
  generalize hN : 2 * h = N at *
  rw [e, sum_range_succ', map_add, map_sum, ← e]
  congr 1
  · rw [← sum_range_reflect (fun k => mirrored N X (k + 1) * turn (-1) N (j * (k + 1)))]
    exact sum_congr rfl fun k hk => hg k (mem_range.mp hk)
  · rw [map_mul, Nat.mul_zero, turn_zero, map_one, mirrored, if_pos (Nat.zero_le _), h0]

theorem sumAt_resum {h : Nat} (hh : 0 < h) {X : Nat → ℂ} (h1 : conj (X h) = X h) (j : Nat) :
    sumAt (-1) h (packed h X) j = resumC (2 * h) X (2 * j) + Complex.I * resumC (2 * h) X (2 * j + 1) := by
  have hd : 2 * h / 2 = h := by omega
  have hsplit : ∀ g : Nat → ℂ, ∑ k ∈ range (2 * h), g k =
      ∑ k ∈ range h, (g k + g (h + k)) := by
    intro g
    rw [two_mul, sum_range_add, sum_add_distrib]
  rw [resumC, resumC, mul_sum, ← sum_add_distrib, hsplit, sumAt]
  apply sum_congr rfl
  intro k hk
  have hk := mem_range.mp hk
  have m1 : mirrored (2 * h) X k = X k := by rw [mirrored, if_pos (by omega)]
  have m2 : mirrored (2 * h) X (h + k) = conj (X (h - k)) := by
    rw [mirrored, hd]
    by_cases c : k = 0
    · subst c; rw [if_pos (by omega), Nat.add_zero, Nat.sub_zero, h1]
    · rw [if_neg (by omega)]
      congr 2; omega
  have t1 : turn (-1) (2 * h) (2 * j * k) = turn (-1) h (j * k) := by
    rw [Nat.mul_assoc, turn_double]
  have t2 : turn (-1) (2 * h) ((2 * j + 1) * k) = turn (-1) h (j * k) * turn (-1) (2 * h) k := by
    rw [Nat.add_mul, turn_add neg_sq', t1, Nat.one_mul]
  have t3 : turn (-1) (2 * h) (2 * j * (h + k)) = turn (-1) h (j * k) := by
    rw [Nat.mul_assoc, turn_double, Nat.mul_add, turn_add neg_sq', Nat.mul_comm j h,
      turn_wrap neg_sq' hh, one_mul]
  have t4 : turn (-1) (2 * h) ((2 * j + 1) * (h + k)) =
      -(turn (-1) h (j * k) * turn (-1) (2 * h) k) := by
    rw [Nat.add_mul, turn_add neg_sq', t3, Nat.one_mul, turn_add neg_sq', turn_half hh]
    ring
  rw [m1, m2, t1, t2, t3, t4, packed]
  ring

theorem resum_realEnds {h : Nat} (hh : 0 < h) (X : Nat → ℂ) (j : Nat) :
    (resumC (2 * h) (realEnds h X) j).re = resum (2 * h) X j := by
  have hd : 2 * h / 2 = h := by omega
  rw [resum_turn, resumC, Complex.re_sum, Complex.re_sum]
  apply sum_congr rfl
  intro k hk
  have hk := mem_range.mp hk
  rw [mirrored, mirrored, hd]
  by_cases c0 : k = 0
  · subst c0
    rw [if_pos (by omega), if_pos (by omega), realEnds, if_pos (Or.inl rfl), Nat.mul_zero, turn_zero]
    simp
  · by_cases c1 : k = h
    · subst c1
      rw [if_pos le_rfl, if_pos le_rfl, realEnds, if_pos (Or.inr rfl)]
      have : (turn (-1) (2 * k) (j * k)).im = 0 := by
        rw [Nat.mul_comm j k, turn_pow neg_sq', turn_half hh]
        rcases neg_one_pow_eq_or ℂ j with e | e <;> rw [e] <;> simp
      rw [Complex.mul_re, Complex.mul_re, this]
      simp
    · by_cases c2 : k ≤ h
      · rw [if_pos c2, if_pos c2, realEnds, if_neg (by omega)]
      · rw [if_neg c2, if_neg c2, realEnds, if_neg (by omega)]

theorem merge_holds {h n : Nat} {c d ro : List ℝ} {z : Nat → ℂ} {y : Nat → ℝ} (hc : Carries c d n z)
    (hn : h ≤ n) (hro : ro.length = 2 * h)
    (hy : ∀ i < h, (z i).re = y (2 * i) ∧ (z i).im = y (2 * i + 1)) :
    ∃ ro', times h (mergeOne c d) ro = some ro' ∧ Holds ro' (2 * h) y := by
  obtain ⟨ro', e, p⟩ := times_inv (n := h) (body := mergeOne c d) (s := ro)
    (fun i l => Holds l (2 * h) (fun j => if j < 2 * i then y j else ro.getD j default)) (by
      intro i hi l hl
      obtain ⟨l1, e1, p1⟩ := hl.extend (by omega) (hy i hi).1
      obtain ⟨l2, e2, p2⟩ := p1.extend (by omega) (hy i hi).2
      refine ⟨l2, ?_, p2⟩
      rw [Nat.mul_comm] at e1 e2
      simp only [mergeOne, hc.re.get (by omega : i < n), hc.im.get (by omega : i < n), e1, e2,
        Option.bind_eq_bind, Option.bind_some])
    (by rw [← hro]; simpa using Holds.of_length ro)
  exact ⟨ro', e, p.congr fun i hi => by rw [if_pos hi]⟩

/-- **Inverse transform**: any bins, any contents of the buffers. -/
theorem transformI_spec {b : Nat} {o : Builtin} {ri ii ro : List ℝ} {X : Nat → ℂ} (ho : Valid b o)
    (hX : Carries ri ii (2 ^ b + 1) X) (hro : ro.length = 2 ^ (b + 1)) :
    ∃ o' ro', transformI o ri ii ro = some (o', ro') ∧ Valid b o' ∧
      Holds ro' (2 ^ (b + 1)) (resum (2 ^ (b + 1)) X) := by
  have hh : 0 < 2 ^ b := by positivity
  have h2 : 2 ^ (b + 1) = 2 * 2 ^ b := pow_succ' 2 b
  rw [h2] at hro ⊢
  set Y := realEnds (2 ^ b) X with hY
  have y0 : Y 0 = ((X 0).re : ℂ) := by rw [hY, realEnds, if_pos (Or.inl rfl)]
  have y1 : Y (2 ^ b) = ((X (2 ^ b)).re : ℂ) := by rw [hY, realEnds, if_pos (Or.inr rfl)]
  have c0 : conj (Y 0) = Y 0 := by rw [y0, Complex.conj_ofReal]
  have c1 : conj (Y (2 ^ b)) = Y (2 ^ b) := by rw [y1, Complex.conj_ofReal]
  have ym : ∀ k, 0 < k → k < 2 ^ b → Y k = X k := by
    intro k hk hk'
    rw [hY, realEnds, if_neg (by omega)]
  obtain ⟨z, hz⟩ := Carries.of_length ho.vr ho.vi
  obtain ⟨vr1, r1, q1⟩ := hz.re.set hh ((X 0).re + (X (2 ^ b)).re)
  obtain ⟨vi1, r2, q2⟩ := hz.im.set hh ((X 0).re - (X (2 ^ b)).re)
  have p0 : packed (2 ^ b) Y 0 = ⟨(X 0).re + (X (2 ^ b)).re, (X 0).re - (X (2 ^ b)).re⟩ := by
    rw [packed, turn_zero, Nat.sub_zero, c1, y0, y1, Complex.mk_eq_add_mul_I]
    push_cast; ring
  obtain ⟨⟨ix, vr2, vi2⟩, e2, _, z2, c2, hz2⟩ := times_inv (n := 2 ^ b / 2)
    (body := twistI (2 ^ b) o.sincosR ri ii) (s := (0, vr1, vi1))
    (fun i st => st.1 = 2 * i ∧ ∃ z, Carries st.2.1 st.2.2 (2 ^ b) z ∧
      ∀ p < 2 ^ b, (p ≤ i ∨ 2 ^ b - i ≤ p) → z p = packed (2 ^ b) Y p) (by
      rintro i hi st ⟨hix, z, hc, hz⟩
      obtain ⟨st', e, hix', hc'⟩ := twistI_step (X := Y) (n := 2 ^ b) ho.sincosR.2 hi hix
        (by rw [ym _ (by omega) (by omega), hX.re.get (by omega)])
        (by rw [ym _ (by omega) (by omega), hX.im.get (by omega)])
        (by rw [ym _ (by omega) (by omega), hX.re.get (by omega)])
        (by rw [ym _ (by omega) (by omega), hX.im.get (by omega)]) le_rfl hc
      refine ⟨st', e, hix', _, hc', ?_⟩
      intro p hp hor
      by_cases h1 : p = 2 ^ b - (i + 1)
      · subst h1
        rw [Function.update_self]
      · rw [Function.update_of_ne h1]
        by_cases h2 : p = i + 1
        · subst h2
          rw [Function.update_self]
        · rw [Function.update_of_ne h2]
          exact hz p hp (by omega))
    ⟨rfl, Function.update z 0 (packed (2 ^ b) Y 0),
      ⟨by rw [update_re, p0]; exact q1, by rw [update_im, p0]; exact q2⟩, by
      intro p hp hor
      have : p = 0 := by omega
      subst this
      rw [Function.update_self]⟩
  have hz2' : ∀ p < 2 ^ b, z2 p = packed (2 ^ b) Y p := by
    intro p hp
    refine hz2 p hp ?_
    have : 2 ^ b % 2 = 0 ∨ b = 0 := by
      rcases Nat.eq_zero_or_pos b with h | h
      · exact Or.inr h
      · left
        obtain ⟨c, rfl⟩ : ∃ c, b = c + 1 := ⟨b - 1, by omega⟩
        rw [pow_succ]; omega
    rcases this with h | h
    · omega
    · subst h; simp at hp ⊢; omega
  have c2' := c2.congr hz2'
  obtain ⟨c, d, w, e3, c3, hw⟩ := transformComplex_carries (inv := true) (ri := vr2) (ii := vi2)
    (ro := o.c) (io := o.d) (n := 2 ^ b + 1) (x := packed (2 ^ b) Y) ho
    (fun i hi => c2'.re.get hi) (fun i hi => c2'.im.get hi) (by omega) ho.c ho.d
  have hw' : ∀ p < 2 ^ b, (w p).re = resum (2 * 2 ^ b) X (2 * p) ∧
      (w p).im = resum (2 * 2 ^ b) X (2 * p + 1) := by
    intro p hp
    have e : w p = sumAt (-1) (2 ^ b) (packed (2 ^ b) Y) p := hw p hp
    rw [sumAt_resum hh c1, real_of_conj (resumC_real hh c0 c1 (2 * p)),
      real_of_conj (resumC_real hh c0 c1 (2 * p + 1)), resum_realEnds hh, resum_realEnds hh] at e
    rw [e]
    constructor <;> simp
  obtain ⟨ro', e4, p4⟩ := merge_holds c3 (by omega) hro hw'
  refine ⟨{ o with vr := vr2, vi := vi2, c := c, d := d }, ro', ?_, ?_, p4⟩
  · simp only [transformI, ho.half, hX.re.get (show 0 < 2 ^ b + 1 by omega),
      hX.re.get (show 2 ^ b < 2 ^ b + 1 by omega), r1, r2, e2, e3, e4,
      Option.bind_eq_bind, Option.bind_some]
  · exact ⟨ho.size, ho.half, ho.table, ho.sincos, ho.sincosR, c2.re.1, c2.im.1, ho.a, ho.b,
      c3.re.1, c3.im.1⟩

end Verif.FFT
