import Verif.BQFilter
import Verif.BQProps2
import Verif.R3Builtin
import Mathlib.Analysis.SpecialFunctions.Trigonometric.Sinc

/-!
# The filter of the resampler is symmetric (C149)
-/

namespace Verif.BQ

theorem facs_pos : ∀ f ∈ (facsquared.drop 1).zipIdx 1, (0 : Rat) < f.1 := by decide +kernel

theorem bessel0_mono {x y : ℝ} (h0 : 0 ≤ x) (h : x ≤ y) : bessel0 x ≤ bessel0 y := by
  unfold bessel0
  refine add_le_add (le_refl 1) (List.sum_le_sum fun f hf => ?_)
  have h1 : (0 : ℝ) < (f.1 : ℝ) := by exact_mod_cast facs_pos f hf
  exact div_le_div_of_nonneg_right (pow_le_pow_left₀ (by linarith) (by linarith) _) h1.le

theorem bessel0_pos (x : ℝ) : 0 < bessel0 x := by
  unfold bessel0
  refine lt_of_lt_of_le one_pos (le_add_of_nonneg_right (List.sum_nonneg fun r hr => ?_))
  obtain ⟨f, hf, rfl⟩ := List.mem_map.mp hr
  have h1 : (0 : ℝ) < (f.1 : ℝ) := by exact_mod_cast facs_pos f hf
  rw [pow_mul]
  exact div_nonneg (pow_nonneg (sq_nonneg _) _) h1.le

theorem kaiserValue_bounds {beta : ℝ} (hb : 0 ≤ beta) (len n : Nat) : 0 ≤ kaiserValue beta len n ∧ kaiserValue beta len n ≤ 1 := by
  unfold kaiserValue
  simp only
  generalize (2 * (n : ℝ) / ((len : ℝ) - 1) - 1) = k
  have hs : Real.sqrt (1 - k * k) ≤ 1 := Real.sqrt_le_one.mpr (by nlinarith [mul_self_nonneg k])
  have h0 := Real.sqrt_nonneg (1 - k * k)
  refine ⟨div_nonneg (bessel0_pos _).le (bessel0_pos _).le, (div_le_one (bessel0_pos _)).mpr (bessel0_mono (mul_nonneg hb h0) ?_)⟩
  nlinarith

theorem kaiser_bounds {beta : ℝ} (hb : 0 ≤ beta) (len n : Nat) : 0 ≤ kaiser beta len n ∧ kaiser beta len n ≤ 1 := by
  unfold kaiser
  split
  · exact kaiserValue_bounds hb _ _
  · split
    · exact kaiserValue_bounds hb _ _
    · exact ⟨le_refl 0, zero_le_one⟩

theorem kaiser_sym (beta : ℝ) {len n : Nat} (ho : len % 2 = 1) (hn : n < len) : kaiser beta len n = kaiser beta len (len - 1 - n) := by
  have hh : halfOf len = (len + 1) / 2 := by
    unfold halfOf
    rw [if_neg (by omega)]
  unfold kaiser
  rw [hh, show len - 1 - (len - 1 - n) = n by omega]
  by_cases h1 : n < (len + 1) / 2
  · rw [if_pos h1]
    by_cases h2 : len - 1 - n < (len + 1) / 2
    · rw [if_pos h2, show len - 1 - n = n by omega]
    · rw [if_neg h2, if_pos h1]
  · rw [if_neg h1, if_pos (by omega), if_pos (by omega)]

theorem kaiser_centre (beta : ℝ) {len : Nat} (ho : len % 2 = 1) (hl : 3 ≤ len) : kaiser beta len (len / 2) = 1 := by
  unfold kaiser halfOf
  rw [if_neg (show ¬ len % 2 = 0 by omega), if_pos (by omega)]
  unfold kaiserValue
  simp only
  have hc : ((len / 2 : Nat) : ℝ) * 2 = (len : ℝ) - 1 := by
    have : len / 2 * 2 + 1 = len := by omega
    rw [eq_sub_iff_add_eq]
    exact_mod_cast this
  have hp : ((len : ℝ) - 1) ≠ 0 := by
    have : (3 : ℝ) ≤ len := by exact_mod_cast hl
    linarith
  rw [mul_comm (2 : ℝ), hc, div_self hp]
  norm_num
  exact (bessel0_pos _).ne'

/-- The factor depends on the distance from the middle. -/
theorem sincFactor_eq (ptz : Rat) {len : Nat} (ho : len % 2 = 1) (hl : 3 ≤ len) {j d : Nat} (hd : d ≤ len / 2) (hj : j = len / 2 + d ∨ j = len / 2 - d) :
    sincFactor ptz len j = if d = 0 then 1 else Real.sin (d * (Real.pi / ptz)) / (d * (Real.pi / ptz)) := by
  unfold sincFactor
  rw [if_neg (by omega)]
  simp only
  rcases Nat.eq_zero_or_pos d with rfl | hp
  · rw [if_neg (by omega), if_neg (by omega), if_pos rfl]
  · rw [if_neg (by omega : ¬ d = 0)]
    rcases hj with rfl | rfl
    · rw [if_neg (by omega), if_pos (by omega), Nat.add_sub_cancel_left]
    · rw [if_pos (by omega), show len / 2 - (len / 2 - d) = d by omega]

theorem sincFactor_abs (ptz : Rat) (len j : Nat) : |sincFactor ptz len j| ≤ 1 := by
  have h : ∀ x : ℝ, |Real.sin x / x| ≤ 1 := by
    intro x
    by_cases hx : x = 0
    · rw [hx]; norm_num
    · have := Real.abs_sinc_le_one x
      rwa [Real.sinc_of_ne_zero hx] at this
  unfold sincFactor
  simp only
  split
  · norm_num
  · split
    · exact h _
    · split
      · exact h _
      · norm_num

/-- Interpolation between the elements of `w` at the place `x`. -/
noncomputable def between (w : Nat → ℝ) (x : Rat) : ℝ := w x.floor.toNat * (1 - ((x - x.floor.toNat : Rat) : ℝ)) + w (x.floor.toNat + 1) * ((x - x.floor.toNat : Rat) : ℝ)

theorem floor_nat {x : Rat} {n : Nat} (h1 : (n : Rat) ≤ x) (h2 : x < n + 1) : x.floor.toNat = n := by
  have : x.floor = (n : Int) := by
    apply le_antisymm
    · have : x.floor < (n : Int) + 1 := by
        rw [Rat.floor_lt_iff]
        push_cast
        exact h2
      omega
    · rw [Rat.le_floor_iff]
      exact_mod_cast h1
  rw [this]
  rfl

theorem floor_spec {x : Rat} (h : 0 ≤ x) : ((x.floor.toNat : Nat) : Rat) ≤ x ∧ x < (x.floor.toNat : Nat) + 1 := by
  have h0 : (0 : Int) ≤ x.floor := by
    rw [Rat.le_floor_iff]
    exact_mod_cast h
  have hc : ((x.floor.toNat : Nat) : Rat) = ((x.floor : Int) : Rat) := by
    have : ((x.floor.toNat : Nat) : Int) = x.floor := Int.toNat_of_nonneg h0
    exact_mod_cast congrArg (fun z : Int => (z : Rat)) this
  rw [hc]
  refine ⟨Rat.floor_le _, ?_⟩
  have := Rat.lt_floor_add_one x
  exact_mod_cast this

theorem between_nat (w : Nat → ℝ) (n : Nat) : between w n = w n := by
  unfold between
  rw [floor_nat (le_refl (n : Rat)) (by linarith)]
  norm_num

theorem between_sym {w : Nat → ℝ} {N : Nat} (hw : ∀ n ≤ N, w n = w (N - n)) {x : Rat} (h0 : 0 ≤ x) (h1 : x ≤ N) : between w x = between w (N - x) := by
  obtain ⟨f1, f2⟩ := floor_spec h0
  generalize hn : x.floor.toNat = n at f1 f2
  rcases eq_or_lt_of_le f1 with he | hlt
  · have hnN : n ≤ N := by
      rw [← he] at h1
      exact_mod_cast h1
    rw [← he, ← Nat.cast_sub hnN, between_nat, between_nat]
    exact hw n hnN
  · have hnN : n + 1 ≤ N := by
      have : (n : Rat) < N := lt_of_lt_of_le hlt h1
      exact_mod_cast this
    have hf : ((N : Rat) - x).floor.toNat = N - (n + 1) := by
      refine floor_nat ?_ ?_
      · rw [Nat.cast_sub hnN]
        push_cast
        linarith
      · rw [Nat.cast_sub hnN]
        push_cast
        linarith
    unfold between
    rw [hn, hf, show N - (n + 1) + 1 = N - n by omega, ← hw n (by omega), ← hw (n + 1) hnN, Nat.cast_sub hnN]
    push_cast
    ring

theorem between_abs {w : Nat → ℝ} (hw : ∀ n, |w n| ≤ 1) {x : Rat} (h0 : 0 ≤ x) : |between w x| ≤ 1 := by
  obtain ⟨f1, f2⟩ := floor_spec h0
  unfold between
  have r0 : (0 : ℝ) ≤ ((x - x.floor.toNat : Rat) : ℝ) := by exact_mod_cast sub_nonneg.mpr f1
  have r1 : ((x - x.floor.toNat : Rat) : ℝ) ≤ 1 := by
    have : x - x.floor.toNat ≤ (1 : Rat) := by linarith
    exact_mod_cast this
  generalize ((x - x.floor.toNat : Rat) : ℝ) = r at *
  have a1 := abs_le.mp (hw x.floor.toNat)
  have a2 := abs_le.mp (hw (x.floor.toNat + 1))
  rw [abs_le]
  constructor <;> nlinarith

/-- A filter of an odd length: symmetric, 1 in the middle, and nowhere larger. -/
structure Even (len : Nat) (f : Nat → ℝ) : Prop where
  sym : ∀ n < len, f n = f (len - 1 - n)
  centre : f (len / 2) = 1
  small : ∀ n < len, |f n| ≤ 1

theorem Even.times {len : Nat} (ho : len % 2 = 1) (hl : 3 ≤ len) {f : Nat → ℝ} (h : Even len f) (ptz : Rat) : Even len fun i => f i * sincFactor ptz len i := by
  refine ⟨fun n hn => ?_, ?_, fun n hn => ?_⟩
  · show f n * _ = f _ * _
    rw [← h.sym n hn]
    congr 1
    by_cases hc : n < len / 2
    · rw [sincFactor_eq ptz ho hl (d := len / 2 - n) (by omega) (Or.inr (by omega)), sincFactor_eq ptz ho hl (d := len / 2 - n) (by omega) (Or.inl (by omega))]
    · rw [sincFactor_eq ptz ho hl (d := n - len / 2) (by omega) (Or.inl (by omega)), sincFactor_eq ptz ho hl (d := n - len / 2) (by omega) (Or.inr (by omega))]
  · show f _ * _ = 1
    rw [h.centre, sincFactor_eq ptz ho hl (j := len / 2) (d := 0) (by omega) (Or.inl rfl), if_pos rfl, one_mul]
  · rw [abs_mul]
    exact mul_le_one₀ (h.small n hn) (abs_nonneg _) (sincFactor_abs _ _ _)

/-- Drawing out a filter gives such a one. -/
theorem Even.drawn {k len : Nat} (hk : k % 2 = 1) (hk3 : 3 ≤ k) (ho : len % 2 = 1) (hl : 3 ≤ len) {w : Nat → ℝ} (h : Even k w) (hz : w k = 0) :
    Even len fun i => between (fun n => if n ≤ k then w n else 0) (((k - 1 : Nat) : Rat) / ((len - 1 : Nat) : Rat) * i) := by
  have hlp : (0 : Rat) < ((len - 1 : Nat) : Rat) := by
    have : 0 < len - 1 := by omega
    exact_mod_cast this
  have hkp : (0 : Rat) ≤ ((k - 1 : Nat) : Rat) := Nat.cast_nonneg _
  have hpos : ∀ i : Nat, (0 : Rat) ≤ ((k - 1 : Nat) : Rat) / ((len - 1 : Nat) : Rat) * i := fun i => mul_nonneg (div_nonneg hkp hlp.le) (Nat.cast_nonneg _)
  refine ⟨fun n hn => ?_, ?_, fun n _ => ?_⟩
  · have hle : ((k - 1 : Nat) : Rat) / ((len - 1 : Nat) : Rat) * n ≤ ((k - 1 : Nat) : Rat) := by
      rw [div_mul_eq_mul_div, div_le_iff₀ hlp]
      exact mul_le_mul_of_nonneg_left (by exact_mod_cast (by omega : n ≤ len - 1)) hkp
    have := between_sym (w := fun n => if n ≤ k then w n else 0) (N := k - 1) (fun m hm => by
      show (if m ≤ k then w m else 0) = if k - 1 - m ≤ k then w (k - 1 - m) else 0
      rw [if_pos (by omega), if_pos (by omega)]
      exact h.sym m (by omega)) (hpos n) hle
    rw [this]
    congr 1
    rw [Nat.cast_sub (by omega : n ≤ len - 1), mul_sub, div_mul_cancel₀ _ hlp.ne']
  · have : ((k - 1 : Nat) : Rat) / ((len - 1 : Nat) : Rat) * ((len / 2 : Nat) : Rat) = ((k / 2 : Nat) : Rat) := by
      rw [div_mul_eq_mul_div, div_eq_iff hlp.ne', show len - 1 = 2 * (len / 2) by omega, show k - 1 = 2 * (k / 2) by omega]
      push_cast
      ring
    show between _ _ = 1
    rw [this, between_nat, if_pos (by omega)]
    exact h.centre
  · refine between_abs (fun m => ?_) (hpos n)
    show |if m ≤ k then w m else 0| ≤ 1
    by_cases hm : m ≤ k
    · rw [if_pos hm]
      rcases Nat.lt_or_ge m k with h1 | h1
      · exact h.small m h1
      · rw [show m = k by omega, hz]
        norm_num
    · rw [if_neg hm]
      norm_num

theorem kaiserLength_ge (q : Quality) : 3 ≤ kaiserLength q.kSnr q.kTransition := by cases q <;> decide +kernel

theorem kaiserBeta_nonneg (q : Quality) : 0 ≤ kaiserBeta q.kSnr := by
  have h : 50 < q.kSnr ∧ 0 ≤ 1102 / 10000 * (q.kSnr - 87 / 10) := by cases q <;> decide +kernel
  unfold kaiserBeta
  rw [if_pos h.1]
  exact_mod_cast h.2

theorem kaiserFor_spec {m len : Nat} (hm : 3 ≤ m) (ho : len % 2 = 1) (hl : 3 ≤ len) : kaiserFor m 1 len % 2 = 1 ∧ 3 ≤ kaiserFor m 1 len ∧ kaiserFor m 1 len ≤ len := by
  have hb : (if 0 < len ∧ m + 1 > len then len - 1 else if 0 < 1 ∧ m < 1 then 1 else m) = if m + 1 > len then len - 1 else m := by
    by_cases h : m + 1 > len
    · rw [if_pos h, if_pos (And.intro (by omega) h)]
    · rw [if_neg h, if_neg (fun x => h x.2), if_neg (fun x => by omega)]
  unfold kaiserFor
  simp only
  rw [hb]
  by_cases h : m + 1 > len
  · rw [if_pos h, if_pos (by omega)]
    omega
  · rw [if_neg h]
    split <;> omega

/-- The filter is defined everywhere, symmetric, 1 in the middle and nowhere larger. -/
theorem makeFilter_even (q : Quality) {len : Nat} (ho : len % 2 = 1) (hl : 3 ≤ len) (ptz : Rat) : (∀ i < len, makeFilter q len ptz i ≠ none) ∧ Even len fun i => (makeFilter q len ptz i).getD 0 := by
  obtain ⟨k1, k2, k3⟩ := kaiserFor_spec (kaiserLength_ge q) ho hl
  unfold makeFilter
  simp only
  generalize kaiserFor (kaiserLength q.kSnr q.kTransition) 1 len = k at *
  have hv : Even k (kaiser (kaiserBeta q.kSnr) k) := ⟨fun n hn => kaiser_sym _ k1 hn, kaiser_centre _ k1 k2, fun n _ => by
    have := kaiser_bounds (kaiserBeta_nonneg q) k n
    rw [abs_le]
    constructor <;> linarith⟩
  generalize kaiser (kaiserBeta q.kSnr) k = v at *
  by_cases hk : k = len
  · subst hk
    refine ⟨fun i _ => by rw [if_pos rfl]; simp, ?_⟩
    have := hv.times k1 k2 ptz
    simpa only [if_true, Option.getD_some] using this
  · have hw : Even k fun n => if n = k then 0 else v n := by
      refine ⟨fun n hn => ?_, ?_, fun n hn => ?_⟩
      · show (if n = k then 0 else v n) = if k - 1 - n = k then 0 else v (k - 1 - n)
        rw [if_neg (by omega), if_neg (by omega)]
        exact hv.sym n hn
      · show (if k / 2 = k then 0 else v (k / 2)) = 1
        rw [if_neg (by omega)]
        exact hv.centre
      · show |if n = k then 0 else v n| ≤ 1
        rw [if_neg (by omega)]
        exact hv.small n hn
    have hd := Even.drawn k1 k2 ho hl hw (if_pos rfl)
    have hlp : (0 : Rat) < ((len - 1 : Nat) : Rat) := by
      have : 0 < len - 1 := by omega
      exact_mod_cast this
    have hin : ∀ i < len, drawnOut v k len i = some (between (fun n => if n ≤ k then (if n = k then 0 else v n) else 0) (((k - 1 : Nat) : Rat) / ((len - 1 : Nat) : Rat) * i)) := by
      intro i hi
      unfold drawnOut between
      simp only
      rw [mul_comm (i : Rat)]
      have h0 : (0 : Rat) ≤ ((k - 1 : Nat) : Rat) / ((len - 1 : Nat) : Rat) * i := mul_nonneg (div_nonneg (Nat.cast_nonneg _) hlp.le) (Nat.cast_nonneg _)
      have hle : ((k - 1 : Nat) : Rat) / ((len - 1 : Nat) : Rat) * i ≤ ((k - 1 : Nat) : Rat) := by
        rw [div_mul_eq_mul_div, div_le_iff₀ hlp]
        exact mul_le_mul_of_nonneg_left (by exact_mod_cast (by omega : i ≤ len - 1)) (Nat.cast_nonneg _)
      have f1 := (floor_spec h0).1
      generalize ((k - 1 : Nat) : Rat) / ((len - 1 : Nat) : Rat) * i = x at *
      have hn : x.floor.toNat ≤ k - 1 := by exact_mod_cast le_trans f1 hle
      rw [if_pos (show x.floor.toNat + 1 < k + 1 by omega), if_pos (show x.floor.toNat ≤ k by omega), if_pos (show x.floor.toNat + 1 ≤ k by omega)]
    refine ⟨fun i hi => by rw [if_neg hk, hin i hi]; simp, ?_⟩
    have he := hd.times ho hl ptz
    refine ⟨fun n hn => ?_, ?_, fun n hn => ?_⟩
    · have := he.sym n hn
      simp only [if_neg hk, hin n hn, hin (len - 1 - n) (by omega), Option.map_some, Option.getD_some]
      exact this
    · have := he.centre
      simp only [if_neg hk, hin (len / 2) (by omega), Option.map_some, Option.getD_some]
      exact this
    · have := he.small n hn
      simp only [if_neg hk, hin n hn, Option.map_some, Option.getD_some]
      exact this

/-- The arithmetic of the resampler with its filter, over the reals. -/
noncomputable def true_ (q : Quality) : Arith ℝ := reals fun len ptz i => (makeFilter q len ptz i).getD 0

theorem filterLengthFor_spec {q : Quality} {p : Params} (hd : 0 < p.den) (hp : p.peakToZero = ((max p.den p.num : Nat) : Rat) / q.cut) : filterLengthFor q p % 2 = 1 ∧ 3 ≤ filterLengthFor q p := by
  have hc : 0 < q.cut ∧ q.cut ≤ 1 := by cases q <;> decide +kernel
  have hm : 12 ≤ q.pMultiple := by cases q <;> decide
  have h1 : (1 : Rat) ≤ p.peakToZero := by
    rw [hp, le_div_iff₀ hc.1, one_mul]
    have : (1 : Rat) ≤ ((max p.den p.num : Nat) : Rat) := by exact_mod_cast le_trans hd (le_max_left _ _)
    exact le_trans hc.2 this
  have h2 : (12 : Rat) ≤ p.peakToZero * q.pMultiple + 1 := by
    have : (12 : Rat) ≤ q.pMultiple := by exact_mod_cast hm
    nlinarith
  have h3 : 12 ≤ (p.peakToZero * q.pMultiple + 1).floor := by
    rw [Rat.le_floor_iff]
    exact_mod_cast h2
  unfold filterLengthFor
  simp only
  generalize (p.peakToZero * q.pMultiple + 1).floor = z at *
  split <;> omega

/-- The values of the filter for any ratio, in both ways of making it. -/
theorem tap_even {cfg : Cfg ℝ} (ha : cfg.ar = true_ cfg.quality) {p : Params} (hd : 0 < p.den) (hp : p.peakToZero = ((max p.den p.num : Nat) : Rat) / cfg.quality.cut) :
    Even (filterLengthFor cfg.quality p) fun i => tap cfg p i := by
  obtain ⟨ho, hl⟩ := filterLengthFor_spec (q := cfg.quality) hd hp
  by_cases hf : cfg.mostlyFixed = true
  · have := (makeFilter_even cfg.quality ho hl p.peakToZero).2
    have e : (fun i : Nat => tap cfg p i) = fun i => (makeFilter cfg.quality (filterLengthFor cfg.quality p) p.peakToZero i).getD 0 := by
      funext i
      unfold tap
      rw [if_pos hf, ha]
      rfl
    rw [e]
    exact this
  · have hpl : (cfg.quality.protoP * cfg.quality.pMultiple + 1) % 2 = 1 ∧ 3 ≤ cfg.quality.protoP * cfg.quality.pMultiple + 1 := by cases cfg.quality <;> decide
    have hb := (makeFilter_even cfg.quality hpl.1 hpl.2 cfg.quality.protoP).2
    generalize hk : cfg.quality.protoP * cfg.quality.pMultiple + 1 = k at *
    have hw : Even k fun n => if n = k then 0 else (makeFilter cfg.quality k cfg.quality.protoP n).getD 0 := by
      refine ⟨fun n hn => ?_, ?_, fun n hn => ?_⟩
      · show (if n = k then 0 else _) = if k - 1 - n = k then 0 else _
        rw [if_neg (by omega), if_neg (by omega)]
        exact hb.sym n hn
      · show (if k / 2 = k then 0 else _) = 1
        rw [if_neg (by omega)]
        exact hb.centre
      · show |if n = k then 0 else _| ≤ 1
        rw [if_neg (by omega)]
        exact hb.small n hn
    have hdr := Even.drawn hpl.1 hpl.2 ho hl hw (if_pos rfl)
    have hlp : (0 : Rat) < ((filterLengthFor cfg.quality p - 1 : Nat) : Rat) := by
      have : 0 < filterLengthFor cfg.quality p - 1 := by omega
      exact_mod_cast this
    have e : ∀ i < filterLengthFor cfg.quality p, tap cfg p i = between (fun n => if n ≤ k then (if n = k then 0 else (makeFilter cfg.quality k cfg.quality.protoP n).getD 0) else 0)
        (((k - 1 : Nat) : Rat) / ((filterLengthFor cfg.quality p - 1 : Nat) : Rat) * i) := by
      intro i hi
      unfold tap
      rw [if_neg hf]
      unfold interp between
      simp only
      rw [hk, ha, show (i : Int).toNat = i from rfl]
      have h0 : (0 : Rat) ≤ ((k - 1 : Nat) : Rat) / ((filterLengthFor cfg.quality p - 1 : Nat) : Rat) * i := mul_nonneg (div_nonneg (Nat.cast_nonneg _) hlp.le) (Nat.cast_nonneg _)
      have hle : ((k - 1 : Nat) : Rat) / ((filterLengthFor cfg.quality p - 1 : Nat) : Rat) * i ≤ ((k - 1 : Nat) : Rat) := by
        rw [div_mul_eq_mul_div, div_le_iff₀ hlp]
        exact mul_le_mul_of_nonneg_left (by exact_mod_cast (by omega : i ≤ filterLengthFor cfg.quality p - 1)) (Nat.cast_nonneg _)
      have f1 := (floor_spec h0).1
      generalize ((k - 1 : Nat) : Rat) / ((filterLengthFor cfg.quality p - 1 : Nat) : Rat) * i = x at *
      have hn : x.floor.toNat ≤ k - 1 := by exact_mod_cast le_trans f1 hle
      rw [if_pos (show x.floor.toNat ≤ k by omega), if_pos (show x.floor.toNat + 1 ≤ k by omega)]
      rfl
    refine ⟨fun n hn => ?_, ?_, fun n hn => ?_⟩
    · show tap cfg p n = tap cfg p ((filterLengthFor cfg.quality p - 1 - n : Nat) : Int)
      rw [e n hn, e _ (by omega)]
      exact hdr.sym n hn
    · show tap cfg p ((filterLengthFor cfg.quality p / 2 : Nat) : Int) = 1
      rw [e _ (by omega)]
      exact hdr.centre
    · show |tap cfg p n| ≤ 1
      rw [e n hn]
      exact hdr.small n hn

theorem dot_range (a b : Nat → ℝ) (n : Nat) : (List.zipWith (· * ·) ((List.range n).map a) ((List.range n).map b)).sum = ((List.range n).map fun i => a i * b i).sum := by
  rw [List.zipWith_map_left, List.zipWith_map_right, List.zipWith_self]

/-- **C149**: the response of the resampler, in a session at a fixed ratio, is the same before and after.  There are weights, one for each distance in time (in units of 1/num of the time between input frames), 1 for the distance 0 and
never larger, and each output sample is the sum of the input samples around its time, each with the weight of its distance from that time, whether it is before or after; times a factor that is the same for all.  Input samples
nearer than half the length of the filter less the time between two input frames are all in the sum. -/
theorem C149 {cfg : Cfg ℝ} (ha : cfg.ar = true_ cfg.quality) (hpos : 0 < cfg.channels) {ratio : Rat} (hr : ValidRatio ratio) {final : Bool}
    {blocks : List (Call ℝ)} {last : Call ℝ} (hs : Session cfg.channels ratio final blocks last) :
    ∃ p, pickParams cfg ratio = some p ∧ ∃ weight : Nat → ℝ, weight 0 = 1 ∧ (∀ d, |weight d| ≤ 1) ∧
    ∃ res, run cfg init (blocks.map Op.call ++ [Op.call last]) = some res ∧
      (Roomy (blocks ++ [last]) res → ∀ j, j < cfg.channels → ∀ (k : Nat) x, (output cfg.channels j res)[k]? = some x →
      ∃ (m : Int) (n : Nat), x = ((List.range n).map fun (i : Nat) => weight ((m + i) * p.num - (k : Int) * p.den).natAbs * at0 0 (input cfg.channels j (blocks ++ [last])) (m + i)).sum * p.scale ∧
        ∀ m' : Int, ((m' * p.num - (k : Int) * p.den).natAbs + p.num ≤ filterLengthFor cfg.quality p / 2) → m ≤ m' ∧ m' < m + n) := by
  obtain ⟨p, p1, res, r1, r2⟩ := C47_partial hpos hr hs
  obtain ⟨p', q1, _, hn, hd, _, hz⟩ := pickParams_spec cfg hr
  obtain rfl : p' = p := by
    rw [q1] at p1
    exact Option.some.inj p1
  have hdot : cfg.ar.dot1 = cfg.ar.dot := by
    rw [ha]
    rfl
  have hmono : monoCfg cfg = { cfg with channels := 1 } := C22_same_sum hdot
  have he : Even (filterLengthFor cfg.quality p') fun i => tap (monoCfg cfg) p' i := by
    rw [hmono]
    exact tap_even (cfg := { cfg with channels := 1 }) ha hd hz
  obtain ⟨ho, hl⟩ := filterLengthFor_spec (q := cfg.quality) hd hz
  refine ⟨p', q1, fun d => if d ≤ filterLengthFor cfg.quality p' / 2 then tap (monoCfg cfg) p' ((filterLengthFor cfg.quality p' / 2 + d : Nat) : Int) else 0, ?_, fun d => ?_, res, r1, fun hroom j hj k x hx => ?_⟩
  · show (if 0 ≤ filterLengthFor cfg.quality p' / 2 then _ else _) = _
    rw [if_pos (Nat.zero_le _)]
    exact he.centre
  · show |if d ≤ filterLengthFor cfg.quality p' / 2 then _ else _| ≤ 1
    split
    · exact he.small _ (by omega)
    · norm_num
  · obtain ⟨m, n, e, c1, c2, c3, c4⟩ := r2 hroom j hj k x hx
    generalize input cfg.channels j (blocks ++ [last]) = xs at *
    unfold place at c1 c2 c3 c4
    refine ⟨m, n, ?_, fun m' hm' => ?_⟩
    · rw [e]
      unfold centred weigh
      have hz0 : (monoCfg cfg).ar.zero = 0 := by rw [hmono]; show cfg.ar.zero = 0; rw [ha]; rfl
      have hsc : ∀ y : ℝ, (monoCfg cfg).ar.scaled p'.scale y = y * p'.scale := by intro y; rw [hmono]; show cfg.ar.scaled _ _ = _; rw [ha]; rfl
      have hd1 : ∀ a b : List ℝ, (if (monoCfg cfg).mostlyFixed then (monoCfg cfg).ar.dot1 a b else (monoCfg cfg).ar.dot a b) = (List.zipWith (· * ·) a b).sum := by
        intro a b
        rw [hmono]
        show (if cfg.mostlyFixed then cfg.ar.dot1 a b else cfg.ar.dot a b) = _
        rw [hdot, ite_self, ha]
        rfl
      rw [hsc, hd1, hz0, dot_range]
      congr 2
      refine List.map_congr_left fun i hi => ?_
      have hi' : i < n := List.mem_range.mp hi
      congr 1
      have hq : (monoCfg cfg).quality = cfg.quality := by rw [hmono]
      rw [hq]
      have b1 : 0 ≤ ((filterLengthFor cfg.quality p' / 2 : Nat) : Int) + (m + i) * p'.num - (k : Int) * p'.den := by
        have : m * (p'.num : Int) ≤ (m + i) * p'.num := mul_le_mul_of_nonneg_right (by omega) (by omega)
        omega
      have b2 : ((filterLengthFor cfg.quality p' / 2 : Nat) : Int) + (m + i) * p'.num - (k : Int) * p'.den < filterLengthFor cfg.quality p' := by
        have : (m + i) * (p'.num : Int) ≤ (m + n - 1) * p'.num := mul_le_mul_of_nonneg_right (by omega) (by omega)
        omega
      generalize hD : (m + i) * (p'.num : Int) - (k : Int) * p'.den = D
      rw [show ((filterLengthFor cfg.quality p' / 2 : Nat) : Int) + (m + i) * p'.num - (k : Int) * p'.den = ((filterLengthFor cfg.quality p' / 2 : Nat) : Int) + D by omega] at b1 b2 ⊢
      simp only
      rw [if_pos (show D.natAbs ≤ filterLengthFor cfg.quality p' / 2 by omega)]
      rcases le_or_gt 0 D with h0 | h0
      · congr 1
        omega
      · have := he.sym (filterLengthFor cfg.quality p' / 2 + D.natAbs) (by omega)
        rw [this]
        congr 1
        omega
    · constructor
      · by_contra hlt
        have : m' * (p'.num : Int) ≤ (m - 1) * p'.num := mul_le_mul_of_nonneg_right (by omega) (by omega)
        omega
      · by_contra hlt
        have : (m + n + 1) * (p'.num : Int) ≤ (m' + 1) * p'.num := mul_le_mul_of_nonneg_right (by omega) (by omega)
        rw [add_mul m' 1, one_mul] at this
        omega

/-- The hypotheses are met: 100 frames of two channels at the ratio 3/2, all at once. -/
example : ({ ar := true_ .best, quality := .best, mostlyFixed := true, smooth := false, rate := 44100, channels := 2 } : Cfg ℝ).ar = true_ .best ∧ ValidRatio (3 / 2) ∧
    Session (α := ℝ) 2 (3 / 2) true [] { inp := (List.range 200).map (fun (i : Nat) => (i : ℝ)), incount := 100, out := List.replicate 400 0, outspace := 200, ratio := 3 / 2, final := true } :=
  ⟨rfl, by unfold ValidRatio; norm_num, ⟨by simp, ⟨⟨by rw [List.length_replicate]; decide, by rw [List.length_map, List.length_range]; decide, by unfold ValidRatio; norm_num⟩, rfl, rfl⟩⟩⟩

end Verif.BQ
