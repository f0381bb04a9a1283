import Verif.FormantLemmas
import Verif.GuideProps
import Verif.MathMiscProps
/-! # Formants in the finer engine (C117) -/
namespace Verif.Formant
open Verif.FFT
open Verif.MovingMedian (setAt)
open Finset

/-- A curve given at the bins from 0 to `h`, read between them: linear between two bins, and nothing outside. -/
noncomputable def between (h : Nat) (e : Nat → ℝ) (x : Rat) : ℝ :=
  if x < 0 ∨ (h : Rat) + 1 ≤ x then 0 else e x.floor.toNat + (e (min x.ceil.toNat h) - e x.floor.toNat) * ((x - x.floor : Rat) : ℝ)

theorem floor_facts {x : Rat} (h0 : 0 ≤ x) : 0 ≤ x.floor ∧ ((x.floor.toNat : Nat) : Rat) ≤ x ∧ x < (x.floor.toNat : Nat) + 1 ∧ ((x.floor.toNat : Nat) : Int) = x.floor := by
  have h1 : 0 ≤ x.floor := Rat.le_floor_iff.mpr (by simpa using h0)
  have h2 := Round.floor_bounds x
  have h3 : ((x.floor.toNat : Nat) : Int) = x.floor := Int.toNat_of_nonneg h1
  have h4 : ((x.floor.toNat : Nat) : Rat) = (x.floor : Rat) := by exact_mod_cast congrArg (fun z : Int => (z : Rat)) h3
  rw [h4]
  exact ⟨h1, h2.1, h2.2, h3⟩

theorem ceil_facts (x : Rat) : x ≤ (x.ceil : Rat) ∧ (x.ceil : Rat) < x + 1 := by
  have := Round.floor_bounds (-x)
  have e : x.ceil = -(-x).floor := Rat.ceil_eq_neg_floor_neg x
  rw [e]
  push_cast
  constructor <;> linarith

theorem envelopeAt_between {f : Data} {h : Nat} (hf : f.fftSize / 2 = h) {e : Nat → ℝ} (he : Holds f.envelope (h + 1) e) (x : Rat) : envelopeAt f x = some (between h e x) := by
  unfold envelopeAt between
  simp only [hf]
  by_cases h0 : x < 0
  · rw [if_pos (Or.inl h0), if_pos]
    left
    by_contra hc
    have := (Rat.le_floor_iff (x := 0)).mp (not_lt.mp hc)
    simp at this
    linarith
  · have h0 := not_lt.mp h0
    obtain ⟨f1, f2, f3, f4⟩ := floor_facts h0
    obtain ⟨c1, c2⟩ := ceil_facts x
    by_cases h1 : (h : Rat) + 1 ≤ x
    · rw [if_pos (Or.inr h1), if_pos]
      right
      have : (h : Rat) < ((x.floor.toNat : Nat) : Rat) := by linarith
      have : h < x.floor.toNat := by exact_mod_cast this
      omega
    · have h1 := not_le.mp h1
      have hb : x.floor.toNat < h + 1 := by
        have : ((x.floor.toNat : Nat) : Rat) < ((h + 1 : Nat) : Rat) := by push_cast; linarith
        exact_mod_cast this
      rw [if_neg (show ¬ (x.floor < 0 ∨ x.floor > (h : Int)) by omega), if_neg (show ¬ (x < 0 ∨ (h : Rat) + 1 ≤ x) by push Not; exact ⟨h0, h1⟩)]
      have hc0 : x.floor ≤ x.ceil := by
        have : (x.floor : Rat) ≤ (x.ceil : Rat) := (Rat.floor_le x).trans c1
        exact_mod_cast this
      by_cases hc : x.ceil = x.floor
      · rw [if_pos (Or.inl hc), he.get hb, hc, min_eq_left (by omega), sub_self, zero_mul, add_zero]
      · by_cases hh : x.ceil > (h : Int)
        · rw [if_pos (Or.inr hh), he.get hb]
          have : x.ceil ≤ x.floor + 1 := by
            have : (x.ceil : Rat) < ((x.floor + 2 : Int) : Rat) := by
              have := (Round.floor_bounds x).2
              push_cast; linarith
            have : x.ceil < x.floor + 2 := by exact_mod_cast this
            omega
          have e1 : min x.ceil.toNat h = x.floor.toNat := by omega
          rw [e1, sub_self, zero_mul, add_zero]
        · rw [if_neg (by push Not; exact ⟨hc, not_lt.mp hh⟩), he.get hb, he.get (show x.ceil.toNat < h + 1 by omega)]
          have e1 : min x.ceil.toNat h = x.ceil.toNat := by omega
          simp only [Option.bind_eq_bind, Option.bind_some, e1, Option.some.injEq]
          ring

theorem between_pos {h : Nat} {e : Nat → ℝ} (he : ∀ k, 0 < e k) {x : Rat} (h0 : 0 ≤ x) (h1 : x < h + 1) : 0 < between h e x := by
  unfold between
  rw [if_neg (by push Not; exact ⟨h0, h1⟩)]
  obtain ⟨f1, f2⟩ := Round.floor_bounds x
  have d0 : (0 : ℝ) ≤ ((x - x.floor : Rat) : ℝ) := by exact_mod_cast (by linarith : (0 : Rat) ≤ x - x.floor)
  have d1 : ((x - x.floor : Rat) : ℝ) < 1 := by exact_mod_cast (by linarith : x - x.floor < (1 : Rat))
  have a := he x.floor.toNat
  have b := he (min x.ceil.toNat h)
  nlinarith [mul_nonneg d0 b.le, mul_pos a (sub_pos.mpr d1)]

theorem between_nat {h : Nat} (e : Nat → ℝ) {k : Nat} (hk : k ≤ h) : between h e (k : Rat) = e k := by
  unfold between
  have hk' : (k : Rat) ≤ (h : Rat) := by exact_mod_cast hk
  have h0 : (0 : Rat) ≤ (k : Rat) := Nat.cast_nonneg k
  rw [if_neg (by push Not; exact ⟨h0, by linarith⟩)]
  have e1 : ((k : Nat) : Rat).floor = (k : Int) := by exact_mod_cast Rat.floor_intCast (k : Int)
  have e2 : ((k : Nat) : Rat).ceil = (k : Int) := by exact_mod_cast Rat.ceil_intCast (k : Int)
  rw [e1, e2]
  simp [hk]

/-! ### The envelope -/

/-- The envelope of the magnitudes of a frame of size `n`: the logarithms made smooth. -/
noncomputable def envelope (n q : Nat) (mag : List ℝ) (k : Nat) : ℝ := min (Real.exp (smoothed n q (logMag mag) k)) (10 ^ 10)

theorem envelope_pos (n q : Nat) (mag : List ℝ) (k : Nat) : 0 < envelope n q mag k := lt_min (Real.exp_pos _) (by norm_num)

theorem analyse_holds {rate : Rat} {b : Nat} {o : Builtin} (ho : Valid b o) {mag : List ℝ} {f : Data} (hf : f.fftSize = 2 ^ (b + 1)) (hm : mag.length = 2 ^ b + 1) (hc : f.cepstra.length = 2 ^ (b + 1))
    (he : f.envelope.length = 2 ^ b + 1) (hs : f.spare.length = 2 ^ b + 1) (hq : 2 ≤ cutoff rate) (hn : cutoff rate ≤ 2 ^ (b + 1)) :
    ∃ o' f', analyse rate mag o f = some (o', f') ∧ f'.fftSize = 2 ^ (b + 1) ∧ f'.cepstra.length = 2 ^ (b + 1) ∧ f'.spare.length = 2 ^ b + 1 ∧
      Holds f'.envelope (2 ^ b + 1) (envelope (2 ^ (b + 1)) (cutoff rate) mag) ∧ Valid b o' := by
  have hh : 2 ^ (b + 1) / 2 = 2 ^ b := by rw [pow_succ]; omega
  obtain ⟨o1, cep1, cep2, o2, env2, spare2, e1, e2, e3, v2, l1, l2, h2⟩ := envelope_holds ho hm hc he hs hq hn
  obtain ⟨env3, e4, h3⟩ := applied_holds h2 le_rfl Real.exp
  obtain ⟨env4, e5, h4⟩ := applied_holds h3 le_rfl (fun v => v * v)
  obtain ⟨env5, e6, h5⟩ := applied_holds h4 le_rfl (fun v => if v > 10 ^ 10 then 10 ^ 10 else v)
  refine ⟨o2, { f with cepstra := cep2, envelope := env5, spare := spare2 }, ?_, hf, l1, l2, h5.congr fun k hk => ?_, v2⟩
  · simp only [analyse, e1, hf, e2, e3, hh, e4, e5, e6, Option.bind_eq_bind, Option.bind_some]
  · simp only [if_pos hk]
    rw [envelope, ← half_smoothed hq hn, ← Real.exp_add, two_mul]
    split
    · rw [min_eq_right]; exact le_of_lt ‹_›
    · rw [min_eq_left]; exact not_lt.mp ‹_›

/-! ### Magnitudes set by it -/

theorem limited_eq (r : ℝ) : limited r = min 60 (max (1 / 60) r) := by
  unfold limited
  simp only
  rcases lt_or_ge r (1 / 60) with h | h
  · rw [if_pos h, max_eq_left h.le, if_neg (by norm_num), min_eq_right (by norm_num)]
  · rw [if_neg (not_lt.mpr h), max_eq_right h]
    split
    · rw [min_eq_left]; exact le_of_lt ‹_›
    · rw [min_eq_right]; exact not_lt.mp ‹_›

/-- The bins of the scale of size `n` that are set: those of its band, and below 10 kHz. -/
def Reached (p : Guide.Params) (n i : Nat) : Prop := ∃ l ∈ Guide.bandLimits p, l.fftSize = n ∧ l.b0min ≤ i ∧ (i : Int) < l.b1max ∧ ((i : Rat) + 1) * p.rate ≤ 10000 * n

/-- What the magnitude of a bin of the scale of size `n` is multiplied by, if the envelope `e` of the scale of size `N` is to be moved to `σ` times the frequency: the envelope where it is moved from over that
where the bin is, between 1/60 and 60. -/
noncomputable def ratio (N : Nat) (e : Nat → ℝ) (σ : Rat) (n i : Nat) : ℝ :=
  min 60 (max (1 / 60) (between (N / 2) e (i * (N / n) / σ) / between (N / 2) e (i * (N / n))))

open Classical in
/-- The magnitudes of a scale, with the bins that are set multiplied. -/
noncomputable def moved (p : Guide.Params) (N : Nat) (e : Nat → ℝ) (σ : Rat) (n : Nat) (mag : Nat → ℝ) (i : Nat) : ℝ := if Reached p n i then mag i * ratio N e σ n i else mag i

theorem adjustBin_holds {f : Data} {N : Nat} (hf : f.fftSize = N) {e : Nat → ℝ} (he : Holds f.envelope (N / 2 + 1) e) (hp : ∀ k, 0 < e k) {σ : Rat} {n : Nat} {mag : List ℝ} {M : Nat}
    {m : Nat → ℝ} (hm : Holds mag M m) {i : Nat} (hi : i < M) (hn : ((i : Rat) * (N / n)) < (N / 2 : Nat) + 1) :
    ∃ mag', adjustBin f ((f.fftSize : Rat) / n / σ) ((f.fftSize : Rat) / n) i mag = some mag' ∧ Holds mag' M (Function.update m i (m i * ratio N e σ n i)) := by
  have hh : f.fftSize / 2 = N / 2 := by rw [hf]
  have h0 : (0 : Rat) ≤ (i : Rat) * ((N : Rat) / n) := by positivity
  have pos := between_pos hp h0 hn
  obtain ⟨mag', e1, h1⟩ := scaleAt_holds hm (ratio N e σ n i) hi
  refine ⟨mag', ?_, h1⟩
  simp only [adjustBin, envelopeAt_between hh he, hf, Option.bind_eq_bind, Option.bind_some]
  rw [if_pos pos, limited_eq, ← e1, ratio]
  have : (i : Rat) * ((N : Rat) / n / σ) = i * (N / n) / σ := by ring
  rw [this]

theorem bands_holds {f : Data} {N : Nat} (hf : f.fftSize = N) {e : Nat → ℝ} (he : Holds f.envelope (N / 2 + 1) e) (hp : ∀ k, 0 < e k) {σ : Rat} {n : Nat} (highBin : Int) :
    ∀ (ls : List Guide.Limits) (_ : (ls.map fun l => l.fftSize).Nodup) (_ : ∀ l ∈ ls, l.fftSize = n → 0 ≤ l.b0min ∧ l.b0min ≤ (n / 2 : Nat) ∧ l.b1max ≤ (n / 2 : Nat)) (_ : 0 < n) {mag : List ℝ} {m : Nat → ℝ} (_ : Holds mag (n / 2 + 1) m),
      ∃ mag' m', ls.foldlM (fun mag band => if band.fftSize ≠ n then some mag
        else times (min band.b1max highBin - band.b0min).toNat (fun j => adjustBin f ((f.fftSize : Rat) / n / σ) ((f.fftSize : Rat) / n) (band.b0min.toNat + j)) mag) mag = some mag' ∧
          Holds mag' (n / 2 + 1) m' ∧ ∀ i : Nat, ((∃ l ∈ ls, l.fftSize = n ∧ l.b0min ≤ i ∧ (i : Int) < l.b1max ∧ (i : Int) < highBin) → m' i = m i * ratio N e σ n i) ∧
            ((¬ ∃ l ∈ ls, l.fftSize = n ∧ l.b0min ≤ i ∧ (i : Int) < l.b1max ∧ (i : Int) < highBin) → m' i = m i)
  | [], _, _, _, mag, m, hm => ⟨mag, m, rfl, hm, fun i => ⟨fun ⟨l, h, _⟩ => absurd h (List.not_mem_nil), fun _ => rfl⟩⟩
  | l :: ls, nd, hl, hn, mag, m, hm => by
    rw [List.map_cons, List.nodup_cons] at nd
    rw [List.foldlM_cons]
    by_cases h : l.fftSize = n
    · obtain ⟨h0, hb0, h1⟩ := hl l List.mem_cons_self h
      have rest : ∀ x ∈ ls, x.fftSize ≠ n := fun x hx hxn => nd.1 (List.mem_map.mpr ⟨x, hx, by rw [hxn, h]⟩)
      have skip : ∀ (xs : List Guide.Limits) (_ : ∀ x ∈ xs, x.fftSize ≠ n) (g : List ℝ), xs.foldlM (fun mag band => if band.fftSize ≠ n then some mag
          else times (min band.b1max highBin - band.b0min).toNat (fun j => adjustBin f ((f.fftSize : Rat) / n / σ) ((f.fftSize : Rat) / n) (band.b0min.toNat + j)) mag) g = some g := by
        intro xs hx g
        induction xs generalizing g with
        | nil => rfl
        | cons x xs ih =>
          rw [List.foldlM_cons, if_pos (hx x List.mem_cons_self)]
          exact ih (fun y hy => hx y (List.mem_cons_of_mem _ hy)) g
      rw [if_neg (by simpa using h)]
      obtain ⟨mag', e1, h1'⟩ := each_holds (a := l.b0min.toNat) (count := (min l.b1max highBin - l.b0min).toNat) (g := fun i => m i * ratio N e σ n i)
        (body := fun j => adjustBin f ((f.fftSize : Rat) / n / σ) ((f.fftSize : Rat) / n) (l.b0min.toNat + j)) hm (by omega) (by
          intro j hj w k hw hk
          have hi : l.b0min.toNat + j < n / 2 := by omega
          obtain ⟨w', e2, h2⟩ := adjustBin_holds hf he hp (σ := σ) (n := n) hw (i := l.b0min.toNat + j) (by omega) (by
            have : ((l.b0min.toNat + j : Nat) : Rat) ≤ (n : Rat) / 2 := by
              rw [le_div_iff₀ (by norm_num)]
              have : (l.b0min.toNat + j) * 2 ≤ n := by omega
              exact_mod_cast this
            have hn' : (0 : Rat) < n := by exact_mod_cast hn
            have h3 : ((l.b0min.toNat + j : Nat) : Rat) * ((N : Rat) / n) ≤ (n : Rat) / 2 * ((N : Rat) / n) := mul_le_mul_of_nonneg_right this (by positivity)
            have h4 : (n : Rat) / 2 * ((N : Rat) / n) = (N : Rat) / 2 := by field_simp
            have h5 : (N : Rat) / 2 < ((N / 2 : Nat) : Rat) + 1 := by
              rw [div_lt_iff₀ (by norm_num)]
              have : N < (N / 2 + 1) * 2 := by omega
              exact_mod_cast this
            rw [h4] at h3
            linarith)
          rw [hk] at h2
          exact ⟨w', e2, h2⟩)
      refine ⟨mag', _, ?_, h1', fun i => ⟨fun ⟨x, hx, hxn, q1, q2, q3⟩ => ?_, fun hno => ?_⟩⟩
      · rw [e1]
        exact skip ls rest mag'
      · rcases List.mem_cons.mp hx with rfl | hx
        · exact if_pos (by omega)
        · exact absurd hxn (rest x hx)
      · refine if_neg fun hc => hno ⟨l, List.mem_cons_self, h, by omega, by omega, by omega⟩
    · rw [if_pos h]
      obtain ⟨mag', m', e1, h1, h2⟩ := bands_holds hf he hp highBin ls nd.2 (fun x hx => hl x (List.mem_cons_of_mem _ hx)) hn hm
      refine ⟨mag', m', e1, h1, fun i => ⟨fun ⟨x, hx, hxn, q⟩ => (h2 i).1 ⟨x, ?_, hxn, q⟩, fun hno => (h2 i).2 fun ⟨x, hx, q⟩ => hno ⟨x, List.mem_cons_of_mem _ hx, q⟩⟩⟩
      rcases List.mem_cons.mp hx with rfl | hx
      · exact absurd hxn h
      · exact hx

/-! ### The sizes -/

theorem classify_pow {p : Guide.Params} (hp : p.Supported) : ∃ b, b < 31 ∧ p.classify = 2 ^ (b + 1) := by
  obtain ⟨h1, h2⟩ := hp
  obtain ⟨r, e, ⟨k, rfl⟩, _, hmin⟩ := MathMisc.C11_roundUpDiv p.rate 32 (by linarith) (by norm_num) (by push_cast; linarith)
  unfold Guide.Params.classify
  simp only [e, Option.getD_some]
  split
  · exact ⟨9, by norm_num, by norm_num⟩
  · have := hmin 13 (by push_cast; linarith)
    have hk : k ≤ 13 := (Nat.pow_le_pow_iff_right (by norm_num : 1 < 2)).mp this
    obtain ⟨j, rfl⟩ : ∃ j, k = j + 1 := by
      cases k with
      | zero => simp at *
      | succ j => exact ⟨j, rfl⟩
    exact ⟨j, by omega, rfl⟩

/-- The sizes of the scales. -/
def sizes (p : Guide.Params) : List Nat := if p.single then [p.classify] else [p.longest, p.classify, p.shortest]

theorem classify_even {p : Guide.Params} (hp : p.Supported) : p.classify % 4 = 0 := by
  obtain ⟨b, _, e⟩ := classify_pow hp
  have := Guide.classify_ge p
  rw [e] at this ⊢
  have hb : 1 ≤ b := by
    by_contra hc
    have : b = 0 := by omega
    subst this
    simp at this
  obtain ⟨c, rfl⟩ : ∃ c, b = c + 1 := ⟨b - 1, by omega⟩
  rw [show c + 1 + 1 = c + 2 by rfl, pow_add]
  omega

theorem ceil_le_of {x : Rat} {m : Nat} (h : x ≤ m) : x.ceil ≤ (m : Int) := by
  have := (ceil_facts x).2
  have : (x.ceil : Rat) < ((m + 1 : Int) : Rat) := by push_cast; linarith
  have : x.ceil < (m : Int) + 1 := by exact_mod_cast this
  omega

theorem floor_le_of {x : Rat} {m : Nat} (h : x ≤ m) : x.floor ≤ (m : Int) := by
  have := (Round.floor_bounds x).1
  have : (x.floor : Rat) ≤ ((m : Int) : Rat) := by push_cast; linarith
  exact_mod_cast this

theorem limits_facts {rate f0 f1 : Rat} {n : Nat} (hr : 0 < rate) (hn : n % 2 = 0) (h0 : 0 ≤ f0) (h0' : f0 ≤ rate / 2) (h1 : f1 ≤ rate / 2) :
    0 ≤ (Guide.limits n rate f0 f1).b0min ∧ (Guide.limits n rate f0 f1).b0min ≤ (n / 2 : Nat) ∧ (Guide.limits n rate f0 f1).b1max ≤ (n / 2 : Nat) := by
  have hh : ((n / 2 : Nat) : Rat) = (n : Rat) / 2 := by
    have : (n / 2) * 2 = n := by omega
    rw [eq_div_iff (by norm_num)]
    exact_mod_cast this
  have hn0 : (0 : Rat) ≤ n := by positivity
  refine ⟨Rat.le_floor_iff.mpr ?_, floor_le_of ?_, ceil_le_of ?_⟩
  · push_cast; positivity
  · rw [hh, div_le_iff₀ hr]; nlinarith
  · rw [hh, div_le_iff₀ hr]; nlinarith

theorem bandLimits_facts {p : Guide.Params} (hp : p.Supported) {n : Nat} :
    ((Guide.bandLimits p).map fun l => l.fftSize).Nodup ∧ ∀ l ∈ Guide.bandLimits p, l.fftSize = n → 0 ≤ l.b0min ∧ l.b0min ≤ (n / 2 : Nat) ∧ l.b1max ≤ (n / 2 : Nat) := by
  have h4 := classify_even hp
  have hc := Guide.classify_ge p
  have hr : (0 : Rat) < p.rate := by have := hp.1; linarith
  have h8 := hp.1
  unfold Guide.bandLimits
  split
  · refine ⟨by simp, fun l hl hn => ?_⟩
    rw [List.mem_singleton] at hl
    subst hl
    rw [← hn]
    exact limits_facts hr (by show p.classify % 2 = 0; omega) le_rfl (by linarith) (by simp [Guide.Params.nyquist])
  · rename_i hs
    have e1 : p.longest = p.classify * 2 := by simp [Guide.Params.longest, hs]
    have e2 : p.shortest = p.classify / 2 := by simp [Guide.Params.shortest, hs]
    have e3 : p.maxLower = 1100 := by simp [Guide.Params.maxLower, hs]
    have e4 : p.minHigher = 4000 := by simp [Guide.Params.minHigher, hs]
    refine ⟨?_, fun l hl hn => ?_⟩
    · simp only [List.map_cons, List.map_nil, Guide.limits, e1, e2, List.nodup_cons, List.mem_cons, List.not_mem_nil, or_false, not_false_iff, List.nodup_nil, and_true]
      omega
    · simp only [List.mem_cons, List.not_mem_nil, or_false] at hl
      rcases hl with rfl | rfl | rfl <;> rw [← hn]
      · exact limits_facts hr (by show p.longest % 2 = 0; omega) le_rfl (by linarith) (by rw [e3]; linarith)
      · exact limits_facts hr (by show p.classify % 2 = 0; omega) le_rfl (by linarith) (by simp [Guide.Params.nyquist])
      · exact limits_facts hr (by show p.shortest % 2 = 0; omega) (by rw [e4]; norm_num) (by rw [e4]; linarith) (by simp [Guide.Params.nyquist])

/-! ### The formants of a frame -/

theorem adjustScale_holds {p : Guide.Params} (hp : p.Supported) {f : Data} {N : Nat} (hf : f.fftSize = N) {e : Nat → ℝ} (he : Holds f.envelope (N / 2 + 1) e) (hpos : ∀ k, 0 < e k)
    (pitchScale formantScale : Rat) {n : Nat} (hn : 0 < n) {mag : List ℝ} (hm : mag.length = n / 2 + 1) :
    ∃ mag', adjustScale p pitchScale formantScale f n mag = some mag' ∧ mag'.length = n / 2 + 1 ∧
      ∀ i ≤ n / 2, at0 mag' i = moved p N e (if formantScale = 0 then 1 / pitchScale else formantScale) n (at0 mag) i := by
  obtain ⟨b1, b2⟩ := bandLimits_facts hp (n := n)
  have hr : (0 : Rat) < p.rate := by have := hp.1; linarith
  obtain ⟨mag', m', e1, h1, h2⟩ := bands_holds hf he hpos (σ := if formantScale = 0 then 1 / pitchScale else formantScale) (((n * 10000 : Nat) : Rat) / p.rate).floor _ b1 b2 hn (holds_at0 hm)
  refine ⟨mag', e1, h1.1, fun i hi => ?_⟩
  have e2 : at0 mag' i = m' i := by rw [at0, List.getD, h1.get (show i < n / 2 + 1 by omega)]; rfl
  have key : ((i : Int) < (((n * 10000 : Nat) : Rat) / p.rate).floor) ↔ ((i : Rat) + 1) * p.rate ≤ 10000 * n := by
    rw [← Int.add_one_le_iff, Rat.le_floor_iff, le_div_iff₀ hr]
    push_cast
    rw [mul_comm (n : Rat)]
  rw [e2, moved]
  split
  · rename_i h
    obtain ⟨l, hl, q1, q2, q3, q4⟩ := h
    exact (h2 i).1 ⟨l, hl, q1, q2, q3, key.mpr q4⟩
  · rename_i h
    exact (h2 i).2 fun ⟨l, hl, q1, q2, q3, q4⟩ => h ⟨l, hl, q1, q2, q3, key.mp q4⟩

theorem adjust_holds {p : Guide.Params} (hp : p.Supported) {f : Data} {N : Nat} (hf : f.fftSize = N) {e : Nat → ℝ} (he : Holds f.envelope (N / 2 + 1) e) (hpos : ∀ k, 0 < e k)
    (pitchScale formantScale : Rat) : ∀ {scales : List (Nat × List ℝ)} (_ : ∀ s ∈ scales, 0 < s.1 ∧ s.2.length = s.1 / 2 + 1),
      ∃ scales', adjust p pitchScale formantScale f scales = some scales' ∧
        List.Forall₂ (fun s s' => s'.1 = s.1 ∧ s'.2 = tabulate (s.1 / 2 + 1) (moved p N e (if formantScale = 0 then 1 / pitchScale else formantScale) s.1 (at0 s.2))) scales scales'
  | [], _ => ⟨[], rfl, .nil⟩
  | (n, mag) :: scales, hs => by
    obtain ⟨h1, h2⟩ := hs (n, mag) List.mem_cons_self
    obtain ⟨mag', e1, l1, h3⟩ := adjustScale_holds hp hf he hpos pitchScale formantScale h1 h2
    obtain ⟨scales', e2, h4⟩ := adjust_holds hp hf he hpos pitchScale formantScale (scales := scales) fun s h => hs s (List.mem_cons_of_mem _ h)
    refine ⟨(n, mag') :: scales', by simp only [adjust, e1, e2, Option.bind_eq_bind, Option.bind_some], .cons ⟨rfl, ?_⟩ h4⟩
    exact ((holds_at0 l1).congr fun i hi => h3 i (by omega)).eq

theorem lookup_mem {n : Nat} {mag : List ℝ} : ∀ {scales : List (Nat × List ℝ)}, scales.lookup n = some mag → (n, mag) ∈ scales
  | [], h => by simp at h
  | (m, l) :: scales, h => by
    rw [List.lookup_cons] at h
    split at h
    · rename_i hmn
      have hmn : n = m := by simpa using hmn
      cases h
      rw [hmn]
      exact List.mem_cons_self
    · exact List.mem_cons_of_mem _ (lookup_mem h)

/-- **C117** (what is done).  With formants to be preserved, and any FFT object that has been in use, any magnitudes, any positive pitch scale and any formant scale: nothing is accessed outside its array, and each
magnitude below 10 kHz in the band of its scale is multiplied by the envelope of the frame where it is moved from, over the envelope where it is, but not by less than 1/60 or more than 60; the others stay. -/
theorem C117_partial {p : Guide.Params} (hp : p.Supported) {before : List Call} (hk : ∀ k ∈ before, Fits p.classify k) {o₀ o : Builtin} {outs : List (List (List ℝ))} (hmake : make p.classify = some o₀)
    (hrun : run o₀ before = some (o, outs)) {f : Data} (hf : f.fftSize = p.classify) (hc : f.cepstra.length = p.classify) (he : f.envelope.length = p.classify / 2 + 1)
    (hs : f.spare.length = p.classify / 2 + 1) {scales : List (Nat × List ℝ)} (hl : ∀ s ∈ scales, 0 < s.1 ∧ s.2.length = s.1 / 2 + 1) {mag : List ℝ} (hm : scales.lookup p.classify = some mag)
    (pitchScale formantScale : Rat) :
    ∃ o' f' scales', formants p true pitchScale formantScale o f scales = some (o', f', scales') ∧
      List.Forall₂ (fun s s' => s'.1 = s.1 ∧ s'.2 = tabulate (s.1 / 2 + 1)
        (moved p p.classify (envelope p.classify (cutoff p.rate) mag) (if formantScale = 0 then 1 / pitchScale else formantScale) s.1 (at0 s.2))) scales scales' := by
  obtain ⟨b, hb, ec⟩ := classify_pow hp
  have hge := Guide.classify_ge p
  rw [ec] at hk hmake hc he hs hm hf hge ⊢
  have hh : 2 ^ (b + 1) / 2 = 2 ^ b := by rw [pow_succ]; omega
  obtain ⟨o₁, eo, v⟩ := make_valid hb
  rw [hmake] at eo
  obtain rfl := Option.some.inj eo
  obtain ⟨o₂, er, v2⟩ := run_spec v hk
  rw [hrun] at er
  simp only [Option.some.injEq, Prod.mk.injEq] at er
  obtain ⟨rfl, _⟩ := er
  have q1 : 12 ≤ (p.rate / 650).floor := Rat.le_floor_iff.mpr (by have := hp.1; push_cast; linarith)
  have q2 : (p.rate / 650).floor ≤ ((1000 : Nat) : Int) := floor_le_of (by have := hp.2; push_cast; linarith)
  have q3 : cutoff p.rate = (p.rate / 650).floor.toNat := if_neg (by omega)
  obtain ⟨hml0, hml⟩ : 0 < 2 ^ (b + 1) ∧ mag.length = 2 ^ (b + 1) / 2 + 1 := by
    have : (2 ^ (b + 1), mag) ∈ scales := lookup_mem hm
    exact hl _ this
  rw [hh] at hml he hs
  obtain ⟨o', f', e1, f1, _, _, h1, _⟩ := analyse_holds (rate := p.rate) v2 hf hml hc he hs (by omega) (by omega)
  have h1' := h1
  rw [← hh] at h1'
  obtain ⟨scales', e2, h2⟩ := adjust_holds hp f1 h1' (envelope_pos _ _ _) pitchScale formantScale hl
  refine ⟨o', f', scales', ?_, h2⟩
  rw [← hf] at hm
  simp only [formants, if_true, hm, e1, e2, Option.bind_eq_bind, Option.bind_some]

theorem reached_inside {p : Guide.Params} (hp : p.Supported) {N n i : Nat} (h : Reached p n i) (hn : 0 < n) : (i : Rat) * ((N : Rat) / n) < (N / 2 : Nat) + 1 := by
  obtain ⟨l, hl, e, h0, h1, _⟩ := h
  obtain ⟨_, _, h2⟩ := (bandLimits_facts hp).2 l hl e
  have : (i : Rat) ≤ (n : Rat) / 2 := by
    rw [le_div_iff₀ (by norm_num)]
    have : i * 2 ≤ n := by omega
    exact_mod_cast this
  have hn' : (0 : Rat) < n := by exact_mod_cast hn
  have h3 : (i : Rat) * ((N : Rat) / n) ≤ (n : Rat) / 2 * ((N : Rat) / n) := mul_le_mul_of_nonneg_right this (by positivity)
  have h4 : (n : Rat) / 2 * ((N : Rat) / n) = (N : Rat) / 2 := by field_simp
  have h5 : (N : Rat) / 2 < ((N / 2 : Nat) : Rat) + 1 := by
    rw [div_lt_iff₀ (by norm_num)]
    have : N < (N / 2 + 1) * 2 := by omega
    exact_mod_cast this
  rw [h4] at h3
  linarith

/-- **C117** (nothing to do).  Without a pitch shift and with no formant scale set, or with a formant scale of 1, formant preservation leaves all magnitudes as they are. -/
theorem C117_unity {p : Guide.Params} (hp : p.Supported) {before : List Call} (hk : ∀ k ∈ before, Fits p.classify k) {o₀ o : Builtin} {outs : List (List (List ℝ))} (hmake : make p.classify = some o₀)
    (hrun : run o₀ before = some (o, outs)) {f : Data} (hf : f.fftSize = p.classify) (hc : f.cepstra.length = p.classify) (he : f.envelope.length = p.classify / 2 + 1)
    (hs : f.spare.length = p.classify / 2 + 1) {scales : List (Nat × List ℝ)} (hl : ∀ s ∈ scales, 0 < s.1 ∧ s.2.length = s.1 / 2 + 1) {mag : List ℝ} (hm : scales.lookup p.classify = some mag)
    (preserved : Bool) {pitchScale formantScale : Rat} (h : pitchScale = 1 ∧ formantScale = 0 ∨ formantScale = 1) :
    ∃ o' f', formants p preserved pitchScale formantScale o f scales = some (o', f', scales) := by
  cases preserved with
  | false => exact ⟨o, f, rfl⟩
  | true =>
    obtain ⟨o', f', scales', e, h2⟩ := C117_partial hp hk hmake hrun hf hc he hs hl hm pitchScale formantScale
    refine ⟨o', f', ?_⟩
    rw [e]
    have hσ : (if formantScale = 0 then 1 / pitchScale else formantScale) = 1 := by
      rcases h with ⟨rfl, rfl⟩ | rfl <;> norm_num
    rw [hσ] at h2
    have : ∀ {a b : List (Nat × List ℝ)}, (∀ s ∈ a, 0 < s.1 ∧ s.2.length = s.1 / 2 + 1) →
        List.Forall₂ (fun s s' => s'.1 = s.1 ∧ s'.2 = tabulate (s.1 / 2 + 1) (moved p p.classify (envelope p.classify (cutoff p.rate) mag) 1 s.1 (at0 s.2))) a b → b = a := by
      intro a b ha hab
      induction hab with
      | nil => rfl
      | @cons x y xs ys hxy _ ih =>
        obtain ⟨h0, hx⟩ := ha x List.mem_cons_self
        rw [ih fun s hs => ha s (List.mem_cons_of_mem _ hs)]
        congr 1
        refine Prod.ext hxy.1 ?_
        rw [hxy.2]
        symm
        refine Holds.eq ((holds_at0 hx).congr fun i _ => ?_)
        rw [moved]
        split
        · rename_i hr
          have pos := between_pos (envelope_pos p.classify (cutoff p.rate) mag) (show (0 : Rat) ≤ (i : Rat) * ((p.classify : Rat) / x.1) by positivity) (reached_inside hp hr h0)
          rw [ratio, div_one, div_self pos.ne', max_eq_right (by norm_num), min_eq_right (by norm_num), mul_one]
        · rfl
    rw [this hl h2]

theorem between_shift {h : Nat} {e g : Nat → ℝ} {c : ℝ} (hg : ∀ k ≤ h, g k = e k + c) {x : Rat} (h0 : 0 ≤ x) (h1 : x ≤ h) : between h g x = between h e x + c := by
  unfold between
  have hx : ¬ (x < 0 ∨ (h : Rat) + 1 ≤ x) := by
    push Not
    exact ⟨h0, by linarith⟩
  obtain ⟨f1, f2, f3, f4⟩ := floor_facts h0
  have hb : x.floor.toNat ≤ h := by
    have : ((x.floor.toNat : Nat) : Rat) ≤ ((h : Nat) : Rat) := by linarith
    exact_mod_cast this
  rw [if_neg hx, if_neg hx, hg _ hb, hg _ (min_le_right _ _)]
  ring

/-- **C117** (smooth spectra).  If the logarithms of the magnitudes (as the code takes them, with 0.000001 added) have fewer ripples than the cepstrum is cut off at, the envelope is the magnitudes themselves: a bin
of the scale of the classification is given the magnitude there is where it is moved from (but for the 0.000001), if this is not less than 1/60 of its own or more than 60 times it. -/
theorem C117_smooth {p : Guide.Params} (hp : p.Supported) {before : List Call} (hk : ∀ k ∈ before, Fits p.classify k) {o₀ o : Builtin} {outs : List (List (List ℝ))} (hmake : make p.classify = some o₀)
    (hrun : run o₀ before = some (o, outs)) {f : Data} (hf : f.fftSize = p.classify) (hc : f.cepstra.length = p.classify) (he : f.envelope.length = p.classify / 2 + 1)
    (hs : f.spare.length = p.classify / 2 + 1) {scales : List (Nat × List ℝ)} (hl : ∀ s ∈ scales, 0 < s.1 ∧ s.2.length = s.1 / 2 + 1) {mag : List ℝ} (hm : scales.lookup p.classify = some mag)
    {pitchScale formantScale σ : Rat} (hσ : σ = if formantScale = 0 then 1 / pitchScale else formantScale) (hσ0 : 0 < σ) {m : Nat} (hm1 : 1 ≤ m) (hmq : m < cutoff p.rate)
    (hsm : Smooth p.classify m (logMag mag)) (hmag : ∀ k ≤ p.classify / 2, 0 ≤ at0 mag k ∧ at0 mag k + 0.000001 ≤ 10 ^ 10) {i : Nat} (hr : Reached p p.classify i) (hi : (i : Rat) / σ ≤ (p.classify / 2 : Nat))
    (hlow : at0 mag i + 0.000001 ≤ 60 * (between (p.classify / 2) (at0 mag) (i / σ) + 0.000001)) (hhigh : between (p.classify / 2) (at0 mag) (i / σ) + 0.000001 ≤ 60 * (at0 mag i + 0.000001)) :
    ∃ o' f' scales' mag', formants p true pitchScale formantScale o f scales = some (o', f', scales') ∧ (p.classify, mag') ∈ scales' ∧
      at0 mag' i * (at0 mag i + 0.000001) = at0 mag i * (between (p.classify / 2) (at0 mag) (i / σ) + 0.000001) := by
  obtain ⟨o', f', scales', e, h2⟩ := C117_partial hp hk hmake hrun hf hc he hs hl hm pitchScale formantScale
  rw [← hσ] at h2
  have hN : 0 < p.classify := by have := Guide.classify_ge p; omega
  obtain ⟨l, hll, el, l0, l1, l2⟩ := hr
  have hib : i ≤ p.classify / 2 := by
    have := ((bandLimits_facts hp).2 l hll el).2.2
    omega
  have hr : Reached p p.classify i := ⟨l, hll, el, l0, l1, l2⟩
  obtain ⟨a, ha1, ha2⟩ := List.getElem_of_mem (lookup_mem hm)
  have ha3 : a < scales'.length := by rw [← h2.length_eq]; exact ha1
  have h3 := List.Forall₂.get h2 ha1 ha3
  simp only [List.get_eq_getElem, ha2] at h3
  refine ⟨o', f', scales', scales'[a].2, e, ?_, ?_⟩
  · rw [← h3.1]
    exact List.getElem_mem ha3
  · rw [h3.2]
    have e1 : at0 (tabulate (p.classify / 2 + 1) (moved p p.classify (envelope p.classify (cutoff p.rate) mag) σ p.classify (at0 mag))) i =
        moved p p.classify (envelope p.classify (cutoff p.rate) mag) σ p.classify (at0 mag) i := by
      rw [at0, List.getD, (holds_tabulate _ _).get (show i < p.classify / 2 + 1 by omega)]
      rfl
    have q2 : (p.rate / 650).floor ≤ ((500 : Nat) : Int) := floor_le_of (by have := hp.2; push_cast; linarith)
    have q3 : cutoff p.rate ≤ 500 := by
      unfold cutoff
      split <;> omega
    have hge := Guide.classify_ge p
    have env : ∀ k ≤ p.classify / 2, envelope p.classify (cutoff p.rate) mag k = at0 mag k + 0.000001 := by
      intro k hk
      obtain ⟨g1, g2⟩ := hmag k hk
      rw [envelope, smoothed_smooth hmq hm1 (by omega) hsm hk, logMag, Real.exp_log (by linarith [show (0 : ℝ) < 0.000001 by norm_num]), min_eq_left g2]
    have hx0 : (0 : Rat) ≤ (i : Rat) / σ := by positivity
    have hcl : ((p.classify : Rat) / p.classify) = 1 := div_self (by exact_mod_cast hN.ne')
    have pos : (0 : ℝ) < at0 mag i + 0.000001 := by linarith [(hmag i hib).1, show (0 : ℝ) < 0.000001 by norm_num]
    rw [e1, moved, if_pos hr, ratio, hcl, mul_one, between_nat _ hib, env i hib, between_shift env hx0 hi]
    rw [max_eq_right, min_eq_right]
    · field_simp
    · rw [div_le_iff₀ pos]; exact hhigh
    · rw [le_div_iff₀ pos]; linarith

/-! ### What the documentation says of the formant scale -/

/-- C117 in full: as RubberBandStretcher.h:609-637 and RubberBandLiveShifter.h:207-229 say of the formant scale, if it has been set, formants are moved by it whether or not they are to be preserved. -/
def C117_statement : Prop :=
  ∀ (p : Guide.Params) (_ : p.Supported) (o : Builtin) (_ : make p.classify = some o) (f : Data) (_ : f.fftSize = p.classify) (_ : f.cepstra.length = p.classify) (_ : f.envelope.length = p.classify / 2 + 1)
    (_ : f.spare.length = p.classify / 2 + 1) (mag : List ℝ) (_ : mag.length = p.classify / 2 + 1) (_ : ∀ x ∈ mag, 0 ≤ x) (preserved : Bool) (pitchScale formantScale : Rat) (_ : 0 < pitchScale) (_ : 0 < formantScale),
    ∃ o' f', formants p preserved pitchScale formantScale o f [(p.classify, mag)] =
      some (o', f', [(p.classify, tabulate (p.classify / 2 + 1) (moved p p.classify (envelope p.classify (cutoff p.rate) mag) formantScale p.classify (at0 mag)))])

/-- For examples: a smooth spectrum, with the most at the bottom and the least at the top. -/
noncomputable def Ex.slope (n k : Nat) : ℝ := Real.exp (Real.log 2 * Real.cos (2 * Real.pi * k / n)) - 0.000001

theorem Ex.slope_pos (n k : Nat) : 0 < Ex.slope n k := by
  unfold Ex.slope
  have h1 : -(Real.log 2) ≤ Real.log 2 * Real.cos (2 * Real.pi * k / n) := by
    have := Real.neg_one_le_cos (2 * Real.pi * k / n)
    have := Real.log_pos (by norm_num : (1 : ℝ) < 2)
    nlinarith
  have h2 : (1 / 2 : ℝ) ≤ Real.exp (Real.log 2 * Real.cos (2 * Real.pi * k / n)) := by
    calc (1 / 2 : ℝ) = Real.exp (-(Real.log 2)) := by rw [Real.exp_neg, Real.exp_log (by norm_num)]; norm_num
      _ ≤ _ := Real.exp_le_exp.mpr h1
  norm_num at h2 ⊢
  linarith

theorem Ex.slope_log (n : Nat) {k : Nat} (hk : k < n / 2 + 1) : logMag (tabulate (n / 2 + 1) (Ex.slope n)) k = Real.log 2 * Real.cos (2 * Real.pi * k / n) := by
  have e1 : at0 (tabulate (n / 2 + 1) (Ex.slope n)) k = Ex.slope n k := by
    rw [at0, List.getD, (holds_tabulate _ _).get hk]
    rfl
  rw [logMag, e1, Ex.slope, sub_add_cancel, Real.log_exp]

theorem Ex.slope_smooth (n : Nat) : Smooth n 2 (logMag (tabulate (n / 2 + 1) (Ex.slope n))) := by
  refine ⟨fun j => if j = 1 then Real.log 2 / 2 else 0, fun k hk => ?_⟩
  rw [Ex.slope_log n (by omega)]
  have : Ico 1 2 = {1} := rfl
  rw [this, sum_singleton]
  simp
  ring

theorem Ex.slope_middle : Ex.slope 1024 256 = 1 - 0.000001 := by
  unfold Ex.slope
  have : 2 * Real.pi * ((256 : Nat) : ℝ) / ((1024 : Nat) : ℝ) = Real.pi / 2 := by push_cast; ring
  rw [this, Real.cos_pi_div_two, mul_zero, Real.exp_zero]

theorem Ex.slope_end : Ex.slope 1024 512 = 1 / 2 - 0.000001 := by
  unfold Ex.slope
  have : 2 * Real.pi * ((512 : Nat) : ℝ) / ((1024 : Nat) : ℝ) = Real.pi := by push_cast; ring
  rw [this, Real.cos_pi, mul_neg_one, Real.exp_neg, Real.exp_log (by norm_num)]
  norm_num

/-- For examples: 8 kHz, with the short window. -/
def Ex.low : Guide.Params := ⟨8000, true⟩

theorem Ex.low_classify : Ex.low.classify = 1024 := by decide +kernel

theorem Ex.low_reached : Reached Ex.low 1024 256 := ⟨⟨1024, 0, 512⟩, by decide +kernel, rfl, by norm_num, by norm_num, by norm_num [Ex.low]⟩

/-- A formant scale of 1/2 is set, but formants are not to be preserved: nothing is done, though a quarter of the way up the envelope should be halved. -/
theorem C117_violated : ¬ C117_statement := by
  intro h
  obtain ⟨o, eo, v⟩ := make_valid (b := 9) (by norm_num)
  have hp : Ex.low.Supported := ⟨by norm_num [Ex.low], by norm_num [Ex.low]⟩
  have hc := Ex.low_classify
  obtain ⟨o', f', e⟩ := h Ex.low hp o (by rw [hc]; exact eo) ⟨1024, List.replicate 1024 0, List.replicate 513 0, List.replicate 513 0⟩ (by rw [hc]) (by rw [hc]; exact List.length_replicate) (by rw [hc]; exact List.length_replicate) (by rw [hc]; exact List.length_replicate)
    (tabulate 513 (Ex.slope 1024)) (by rw [hc]; simp [tabulate]) (by
      intro x hx
      obtain ⟨k, _, rfl⟩ := List.mem_map.mp hx
      exact (Ex.slope_pos 1024 k).le) false 1 (1 / 2) (by norm_num) (by norm_num)
  have hp8 : (Ex.low.rate : Rat) = 8000 := rfl
  rw [hc, hp8] at e
  simp only [formants, Bool.false_eq_true, if_false, Option.some.injEq, Prod.mk.injEq, List.cons.injEq, and_true, true_and] at e
  have e1 : at0 (tabulate 513 (Ex.slope 1024)) 256 = at0 _ 256 := congrArg (fun l => at0 l 256) e.2.2
  rw [at0, List.getD, (holds_tabulate _ _).get (by norm_num), at0, List.getD, (holds_tabulate _ _).get (by norm_num), Option.getD_some, Option.getD_some, moved, if_pos Ex.low_reached, ratio] at e1
  have q : cutoff 8000 = 12 := by decide +kernel
  have env : ∀ k < 513, envelope 1024 (cutoff 8000) (tabulate 513 (Ex.slope 1024)) k = min (Ex.slope 1024 k + 0.000001) (10 ^ 10) := by
    intro k hk
    rw [envelope, q, smoothed_smooth (m := 2) (by norm_num) (by norm_num) (by norm_num) (Ex.slope_smooth 1024) (by omega), Ex.slope_log 1024 (by omega), Ex.slope, sub_add_cancel]
  have a1 : ((256 : Nat) : Rat) * (((1024 : Nat) : Rat) / ((1024 : Nat) : Rat)) / (1 / 2) = ((512 : Nat) : Rat) := by norm_num
  have a2 : ((256 : Nat) : Rat) * (((1024 : Nat) : Rat) / ((1024 : Nat) : Rat)) = ((256 : Nat) : Rat) := by norm_num
  rw [a1, a2, between_nat _ (by norm_num), between_nat _ (by norm_num), env _ (by norm_num), env _ (by norm_num), Ex.slope_end, Ex.slope_middle] at e1
  have e2 : at0 (tabulate 513 (Ex.slope 1024)) 256 = 1 - 0.000001 := by
    rw [at0, List.getD, (holds_tabulate _ _).get (by norm_num), ← Ex.slope_middle]
    rfl
  rw [e2] at e1
  norm_num at e1

/-- The hypotheses of `C117_smooth` (and so of `C117_partial` and `C117_unity`) are met. -/
example : ∃ o o' f' scales' mag', make Ex.low.classify = some o ∧
    formants Ex.low true 2 0 o ⟨1024, List.replicate 1024 0, List.replicate 513 0, List.replicate 513 0⟩ [(1024, tabulate 513 (Ex.slope 1024))] = some (o', f', scales') ∧ (1024, mag') ∈ scales' ∧
      at0 mag' 256 = (1 - 0.000001) / 2 := by
  obtain ⟨o, eo, v⟩ := make_valid (b := 9) (by norm_num)
  have hp : Ex.low.Supported := ⟨by norm_num [Ex.low], by norm_num [Ex.low]⟩
  have hc := Ex.low_classify
  have q : cutoff Ex.low.rate = 12 := by decide +kernel
  have at_slope : ∀ k < 513, at0 (tabulate 513 (Ex.slope 1024)) k = Ex.slope 1024 k := by
    intro k hk
    rw [at0, List.getD, (holds_tabulate _ _).get hk]
    rfl
  have a1 : ((256 : Nat) : Rat) / (1 / 2) = ((512 : Nat) : Rat) := by norm_num
  have le : ∀ k, Ex.slope 1024 k + 0.000001 ≤ 10 ^ 10 := by
    intro k
    rw [Ex.slope, sub_add_cancel]
    have h1 : Real.log 2 * Real.cos (2 * Real.pi * k / (1024 : Nat)) ≤ Real.log 2 := by
      have := Real.cos_le_one (2 * Real.pi * k / (1024 : Nat))
      have := Real.log_pos (by norm_num : (1 : ℝ) < 2)
      nlinarith
    calc _ ≤ Real.exp (Real.log 2) := Real.exp_le_exp.mpr h1
      _ = 2 := Real.exp_log (by norm_num)
      _ ≤ 10 ^ 10 := by norm_num
  obtain ⟨o', f', scales', mag', e, h1, h2⟩ := C117_smooth (p := Ex.low) hp (before := []) (by simp) (o₀ := o) (o := o) (outs := []) (by rw [hc]; exact eo) rfl
    (f := ⟨1024, List.replicate 1024 0, List.replicate 513 0, List.replicate 513 0⟩) (by rw [hc]) (by rw [hc]; exact List.length_replicate) (by rw [hc]; exact List.length_replicate) (by rw [hc]; exact List.length_replicate) (scales := [(1024, tabulate 513 (Ex.slope 1024))])
    (by simp [tabulate]) (mag := tabulate 513 (Ex.slope 1024)) (by rw [hc]; rfl) (pitchScale := 2) (formantScale := 0) (σ := 1 / 2) (by norm_num) (by norm_num) (m := 2) (by norm_num) (by rw [q]; norm_num)
    (by rw [hc]; exact Ex.slope_smooth 1024) (by
      rw [hc]
      intro k hk
      rw [at_slope k (by omega)]
      exact ⟨(Ex.slope_pos 1024 k).le, le k⟩) (i := 256) (by rw [hc]; exact Ex.low_reached) (by rw [hc]; norm_num)
    (by rw [hc, a1, between_nat _ (by norm_num), at_slope _ (by norm_num), at_slope _ (by norm_num), Ex.slope_end, Ex.slope_middle]; norm_num)
    (by rw [hc, a1, between_nat _ (by norm_num), at_slope _ (by norm_num), at_slope _ (by norm_num), Ex.slope_end, Ex.slope_middle]; norm_num)
  refine ⟨o, o', f', scales', mag', by rw [hc]; exact eo, e, by rw [hc] at h1; exact h1, ?_⟩
  rw [hc, a1, between_nat _ (by norm_num), at_slope _ (by norm_num), at_slope _ (by norm_num), Ex.slope_end, Ex.slope_middle] at h2
  linarith

end Verif.Formant
