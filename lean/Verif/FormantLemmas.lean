import Verif.Formant
/-! # Formants: the steps as functions on arrays -/
namespace Verif.Formant
open Verif.FFT
open Verif.MovingMedian (setAt)
open Finset

theorem scaleAt_holds {l : List ℝ} {n : Nat} {f : Nat → ℝ} (h : Holds l n f) (x : ℝ) {i : Nat} (hi : i < n) :
    ∃ l', scaleAt x i l = some l' ∧ Holds l' n (Function.update f i (f i * x)) := by
  obtain ⟨l', e, h'⟩ := h.set hi (f i * x)
  refine ⟨l', ?_, h'⟩
  simp only [scaleAt, h.get hi, Option.bind_eq_bind, Option.bind_some, e]

/-- A loop over the elements from `a` on, each changed by itself. -/
theorem each_holds {n a count : Nat} {body : Nat → List ℝ → Option (List ℝ)} {l : List ℝ} {f g : Nat → ℝ} (h : Holds l n f) (ha : a + count ≤ n)
    (hb : ∀ j < count, ∀ (m : List ℝ) (k : Nat → ℝ), Holds m n k → k (a + j) = f (a + j) → ∃ m', body j m = some m' ∧ Holds m' n (Function.update k (a + j) (g (a + j)))) :
    ∃ l', times count body l = some l' ∧ Holds l' n (fun i => if a ≤ i ∧ i < a + count then g i else f i) := by
  obtain ⟨l', e, h'⟩ := times_inv (n := count) (body := body) (s := l) (fun j m => Holds m n (fun i => if a ≤ i ∧ i < a + j then g i else f i)) (by
    intro j hj m hm
    obtain ⟨m', e, h'⟩ := hb j hj m _ hm (if_neg (by omega))
    refine ⟨m', e, h'.congr fun i hi => ?_⟩
    by_cases hij : i = a + j
    · subst hij
      rw [Function.update_self, if_pos ⟨by omega, by omega⟩]
    · rw [Function.update_of_ne hij]
      by_cases hc : a ≤ i ∧ i < a + j
      · rw [if_pos hc, if_pos ⟨hc.1, by omega⟩]
      · rw [if_neg hc, if_neg (by omega)]) (h.congr fun i _ => (if_neg (by omega)).symm)
  exact ⟨l', e, h'⟩

theorem applied_holds {l : List ℝ} {n count : Nat} {f : Nat → ℝ} (h : Holds l n f) (hc : count ≤ n) (g : ℝ → ℝ) :
    ∃ l', applied g count l = some l' ∧ Holds l' n (fun i => if i < count then g (f i) else f i) := by
  obtain ⟨l', e, h'⟩ := each_holds (a := 0) (count := count) (g := fun i => g (f i)) (body := fun i l => do
    let v ← l[i]?
    setAt l i (g v)) h (by omega) (by
    intro j hj m k hm hk
    rw [Nat.zero_add] at hk ⊢
    obtain ⟨m', e, h'⟩ := hm.set (i := j) (by omega) (g (f j))
    refine ⟨m', ?_, h'⟩
    simp only [hm.get (show j < n by omega), hk, Option.bind_eq_bind, Option.bind_some, e])
  refine ⟨l', e, h'.congr fun i _ => ?_⟩
  simp

theorem combined_holds {l m : List ℝ} {n : Nat} {u v : Nat → ℝ} (h : Holds l n u) (hm : Holds m n v) (g : ℝ → ℝ → ℝ) :
    ∃ l', combined g n l m = some l' ∧ Holds l' n (fun i => g (u i) (v i)) := by
  obtain ⟨l', e, h'⟩ := each_holds (a := 0) (count := n) (g := fun i => g (u i) (v i)) (body := fun i l => do
    let a ← l[i]?
    let b ← m[i]?
    setAt l i (g a b)) h (by omega) (by
    intro j hj w k hw hk
    rw [Nat.zero_add] at hk ⊢
    obtain ⟨m', e, h'⟩ := hw.set (i := j) (by omega) (g (u j) (v j))
    refine ⟨m', ?_, h'⟩
    simp only [hw.get (show j < n by omega), hm.get (show j < n by omega), hk, Option.bind_eq_bind, Option.bind_some, e])
  refine ⟨l', e, h'.congr fun i hi => ?_⟩
  simp [hi]

/-- The cepstrum cut off at `q`: its first and last value halved, and all divided by the size. -/
noncomputable def lifted (n q : Nat) (c : Nat → ℝ) (j : Nat) : ℝ := if j < q then (if j = 0 ∨ j = q - 1 then c j / 2 else c j) / n else 0

theorem cutOff_holds {l : List ℝ} {n q : Nat} {f : Nat → ℝ} (h : Holds l n f) (hq : 2 ≤ q) (hn : q ≤ n) : ∃ l', cutOff n q l = some l' ∧ Holds l' n (lifted n q f) := by
  obtain ⟨l1, e1, h1⟩ := scaleAt_holds h (1 / 2) (i := 0) (by omega)
  obtain ⟨l2, e2, h2⟩ := scaleAt_holds h1 (1 / 2) (i := q - 1) (by omega)
  obtain ⟨l3, e3, h3⟩ := each_holds (a := q) (count := n - q) (g := fun _ => 0) (body := fun i l => setAt l (q + i) 0) h2 (by omega) (by
    intro j hj m k hm _
    exact hm.set (by omega) 0)
  obtain ⟨l4, e4, h4⟩ := each_holds (a := 0) (count := q) (g := fun i => (if q ≤ i ∧ i < q + (n - q) then (fun _ => 0) i else
      Function.update (Function.update f 0 (f 0 * (1 / 2))) (q - 1) (Function.update f 0 (f 0 * (1 / 2)) (q - 1) * (1 / 2)) i) * (1 / n)) (body := scaleAt (1 / n)) h3 (by omega) (by
    intro j hj m k hm hk
    obtain ⟨m', e, h'⟩ := scaleAt_holds hm (1 / n) (i := 0 + j) (by omega)
    rw [Nat.zero_add] at e hk h' ⊢
    rw [hk] at h'
    exact ⟨m', e, h'⟩)
  refine ⟨l4, ?_, h4.congr fun i hi => ?_⟩
  · simp only [cutOff, e1, Option.bind_eq_bind, Option.bind_some]
    rw [if_neg (by omega), e2]
    simp only [Option.bind_some, e3, e4]
  · simp only [lifted]
    by_cases hi' : i < q
    · rw [if_pos ⟨by omega, by omega⟩, if_pos hi', if_neg (by omega)]
      by_cases h0 : i = 0
      · subst h0
        rw [Function.update_of_ne (by omega), Function.update_self, if_pos (Or.inl rfl)]
        ring
      · by_cases hl : i = q - 1
        · subst hl
          rw [Function.update_self, Function.update_of_ne h0, if_pos (Or.inr rfl)]
          ring
        · rw [Function.update_of_ne hl, Function.update_of_ne h0, if_neg (by omega)]
          ring
    · rw [if_neg (by omega), if_neg hi', if_pos ⟨by omega, by omega⟩]

/-- The logarithm of a magnitude as the code takes it. -/
noncomputable def logMag (mag : List ℝ) (k : Nat) : ℝ := Real.log (at0 mag k + 0.000001)

/-- Half the logarithm of the envelope, from the cepstrum. -/
noncomputable def half (n q : Nat) (L : Nat → ℝ) (k : Nat) : ℝ := (spectrum n (lifted n q (resum n fun k => (L k : ℂ))) k).re

theorem envelope_holds {b q : Nat} {o : Builtin} (ho : Valid b o) {mag cep env spare : List ℝ} (hm : mag.length = 2 ^ b + 1) (hc : cep.length = 2 ^ (b + 1)) (he : env.length = 2 ^ b + 1)
    (hs : spare.length = 2 ^ b + 1) (hq : 2 ≤ q) (hn : q ≤ 2 ^ (b + 1)) :
    ∃ o1 cep1 cep2 o2 env2 spare2, inverseCepstral o mag cep = some (o1, cep1) ∧ cutOff (2 ^ (b + 1)) q cep1 = some cep2 ∧ transformF o1 cep2 env spare = some (o2, env2, spare2) ∧ Valid b o2 ∧
      cep2.length = 2 ^ (b + 1) ∧ spare2.length = 2 ^ b + 1 ∧ Holds env2 (2 ^ b + 1) (half (2 ^ (b + 1)) q (logMag mag)) := by
  have hh : 2 ^ (b + 1) / 2 = 2 ^ b := by rw [pow_succ]; omega
  obtain ⟨o1, e1, v1⟩ := call_spec ho (k := .inverseCepstral mag cep) ⟨hc, by rw [hh]; exact hm⟩
  simp only [call, answer] at e1
  obtain ⟨⟨o1', cep1⟩, e1', e1⟩ := Option.map_eq_some_iff.mp e1
  simp only [Prod.mk.injEq, List.cons.injEq, and_true] at e1
  obtain ⟨rfl, rfl⟩ := e1
  obtain ⟨cep2, e2, h2⟩ := cutOff_holds (holds_tabulate (2 ^ (b + 1)) (resum (2 ^ (b + 1)) fun k => (Real.log (at0 mag k + 0.000001) : ℝ))) hq hn
  obtain ⟨o2, e3, v2⟩ := call_spec v1 (k := .forward cep2 env spare) ⟨h2.1, by rw [hh]; exact he, by rw [hh]; exact hs⟩
  simp only [call, answer] at e3
  obtain ⟨⟨o2', env2, spare2⟩, e3', e3⟩ := Option.map_eq_some_iff.mp e3
  simp only [Prod.mk.injEq, List.cons.injEq, and_true] at e3
  obtain ⟨rfl, rfl, rfl⟩ := e3
  refine ⟨_, _, cep2, _, _, _, e1', e2, e3', v2, h2.1, by rw [(holds_tabulate _ _).1, hh], ?_⟩
  rw [hh]
  refine (holds_tabulate _ _).congr fun k _ => ?_
  rw [half]
  congr 1
  rw [spectrum_turn, spectrum_turn]
  refine sum_congr rfl fun j hj => ?_
  have : at0 cep2 j = lifted (2 ^ (b + 1)) q (resum (2 ^ (b + 1)) fun k => ((logMag mag k : ℝ) : ℂ)) j := by
    have := h2.get (mem_range.mp hj)
    rw [at0, List.getD, this]
    rfl
  rw [this]

/-! ### What the envelope is -/

/-- The part of a curve over the bins (continued symmetrically above the middle) with `j` periods in `n` bins. -/
noncomputable def ripple (n : Nat) (L : Nat → ℝ) (j : Nat) : ℝ := (∑ k ∈ range n, L (if k ≤ n / 2 then k else n - k) * Real.cos (2 * Real.pi * j * k / n)) / n

/-- A curve over the bins made smooth: its ripples with fewer than `q` periods in `n` bins, the last of them by half. -/
noncomputable def smoothed (n q : Nat) (L : Nat → ℝ) (k : Nat) : ℝ :=
  ripple n L 0 + 2 * ∑ j ∈ Ico 1 (q - 1), ripple n L j * Real.cos (2 * Real.pi * j * k / n) + ripple n L (q - 1) * Real.cos (2 * Real.pi * (q - 1 : Nat) * k / n)

theorem resum_ripple {n : Nat} (hn : 0 < n) (L : Nat → ℝ) (j : Nat) : resum n (fun k => (L k : ℂ)) j = n * ripple n L j := by
  have hn' : (n : ℝ) ≠ 0 := by positivity
  rw [ripple, mul_div_cancel₀ _ hn', resum_parts]
  have e0 : ∑ k ∈ range n, (mirrored n (fun k => (L k : ℂ)) k).im * Real.sin (angle n j k) = 0 := by
    refine sum_eq_zero fun k _ => ?_
    rw [mirrored]
    split <;> simp
  rw [e0, sub_zero]
  refine sum_congr rfl fun k _ => ?_
  rw [mirrored, angle]
  have : (j : ℝ) * k * Real.pi * 2 / n = 2 * Real.pi * j * k / n := by ring
  rw [this]
  split <;> simp

theorem half_smoothed {n q : Nat} (hq : 2 ≤ q) (hn : q ≤ n) (L : Nat → ℝ) (k : Nat) : 2 * half n q L k = smoothed n q L k := by
  have hn0 : 0 < n := by omega
  have hn' : (n : ℝ) ≠ 0 := by positivity
  rw [half, (spectrum_parts n _ k).1]
  have e1 : ∑ j ∈ range n, lifted n q (resum n fun k => (L k : ℂ)) j * Real.cos (angle n k j) =
      ∑ j ∈ range q, lifted n q (resum n fun k => (L k : ℂ)) j * Real.cos (angle n k j) := by
    symm
    refine sum_subset (range_subset_range.mpr hn) fun j _ hj => ?_
    rw [lifted, if_neg (by simpa using hj), zero_mul]
  have e2 : ∀ j, j < q → lifted n q (resum n fun k => (L k : ℂ)) j * Real.cos (angle n k j) =
      (if j = 0 ∨ j = q - 1 then ripple n L j / 2 else ripple n L j) * Real.cos (2 * Real.pi * j * k / n) := by
    intro j hj
    have : angle n k j = 2 * Real.pi * j * k / n := by rw [angle]; ring
    rw [this, lifted, if_pos hj, resum_ripple hn0]
    congr 1
    split
    · field_simp
    · field_simp
  rw [e1, sum_congr rfl fun j hj => e2 j (mem_range.mp hj)]
  obtain ⟨r, rfl⟩ : ∃ r, q = r + 2 := ⟨q - 2, by omega⟩
  rw [sum_range_succ, sum_range_succ', smoothed]
  have hr : r + 2 - 1 = r + 1 := by omega
  rw [hr, if_pos (Or.inl rfl), if_pos (Or.inr rfl)]
  have e3 : ∑ j ∈ range r, (if j + 1 = 0 ∨ j + 1 = r + 1 then ripple n L (j + 1) / 2 else ripple n L (j + 1)) * Real.cos (2 * Real.pi * (j + 1 : Nat) * k / n) =
      ∑ j ∈ Ico 1 (r + 1), ripple n L j * Real.cos (2 * Real.pi * j * k / n) := by
    rw [sum_Ico_eq_sum_range]
    refine sum_congr (by simp) fun j hj => ?_
    have : j < r := by simpa using hj
    rw [if_neg (by omega), Nat.add_comm 1 j]
  rw [e3]
  simp
  ring

/-! ### Smooth curves stay as they are -/

/-- A curve over the bins that has fewer than `m` periods in `n` bins. -/
def Smooth (n m : Nat) (L : Nat → ℝ) : Prop := ∃ a : Nat → ℝ, ∀ k ≤ n / 2, L k = a 0 + 2 * ∑ j ∈ Ico 1 m, a j * Real.cos (2 * Real.pi * j * k / n)

theorem sum_below {m n : Nat} (hmn : m ≤ n) (f : Nat → ℝ) : ∑ j ∈ range n, (if j < m then f j else 0) = ∑ j ∈ range m, f j := by
  rw [← sum_subset (range_subset_range.mpr hmn) (f := fun j => if j < m then f j else 0)]
  · exact sum_congr rfl fun j hj => if_pos (mem_range.mp hj)
  · intro j _ hj
    exact if_neg (by simpa using hj)

/-- The samples of which a smooth curve is the spectrum. -/
noncomputable def even (n m : Nat) (a : Nat → ℝ) (j : Nat) : ℝ := (if j < m then a j else 0) + (if n - 1 - j < m - 1 then a (n - j) else 0)

theorem spectrum_even {n m : Nat} (hm : 1 ≤ m) (hn : m ≤ n / 2) (a : Nat → ℝ) (k : Nat) :
    spectrum n (even n m a) k = ((a 0 + 2 * ∑ j ∈ Ico 1 m, a j * Real.cos (2 * Real.pi * j * k / n) : ℝ) : ℂ) := by
  have hn0 : 0 < n := by omega
  have hn' : (n : ℝ) ≠ 0 := by positivity
  obtain ⟨r, rfl⟩ : ∃ r, m = r + 1 := ⟨m - 1, by omega⟩
  have split : ∀ g : Nat → ℝ, ∑ j ∈ range n, even n (r + 1) a j * g j = a 0 * g 0 + ∑ j ∈ range r, a (j + 1) * (g (j + 1) + g (n - (j + 1))) := by
    intro g
    have e1 : ∑ j ∈ range n, even n (r + 1) a j * g j = ∑ j ∈ range n, (if j < r + 1 then a j * g j else 0) + ∑ j ∈ range n, (if n - 1 - j < r then a (n - j) * g j else 0) := by
      rw [← sum_add_distrib]
      refine sum_congr rfl fun j _ => ?_
      rw [even, add_mul, ite_mul, ite_mul, zero_mul]
      rfl
    rw [e1, sum_below (by omega), ← sum_range_reflect (fun j => if n - 1 - j < r then a (n - j) * g j else 0)]
    have e2 : ∑ j ∈ range n, (if n - 1 - (n - 1 - j) < r then a (n - (n - 1 - j)) * g (n - 1 - j) else 0) = ∑ j ∈ range n, (if j < r then a (j + 1) * g (n - (j + 1)) else 0) := by
      refine sum_congr rfl fun j hj => ?_
      have hj := mem_range.mp hj
      have h1 : n - 1 - (n - 1 - j) = j := by omega
      have h2 : n - (n - 1 - j) = j + 1 := by omega
      have h3 : n - 1 - j = n - (j + 1) := by omega
      rw [h1, h2, h3]
    rw [e2, sum_below (by omega), sum_range_succ']
    rw [add_comm (∑ _ ∈ range r, _) (a 0 * g 0), add_assoc, ← sum_add_distrib]
    congr 1
    exact sum_congr rfl fun j _ => by ring
  have back : ∀ j, j + 1 ≤ n → angle n k (n - (j + 1)) = k * (2 * Real.pi) - angle n k (j + 1) := by
    intro j hj
    rw [angle, angle, Nat.cast_sub hj]
    field_simp
  apply Complex.ext
  · rw [(spectrum_parts n _ k).1, split, Complex.ofReal_re, sum_Ico_eq_sum_range]
    have : angle n k 0 = 0 := by simp [angle]
    rw [this, Real.cos_zero, mul_one, mul_sum]
    congr 1
    refine sum_congr (by simp) fun j hj => ?_
    have hj : j < r := by simpa using hj
    rw [back j (by omega), Real.cos_nat_mul_two_pi_sub, Nat.add_comm 1 j]
    have : angle n k (j + 1) = 2 * Real.pi * (j + 1 : Nat) * k / n := by rw [angle]; ring
    rw [this]
    ring
  · rw [(spectrum_parts n _ k).2, split, Complex.ofReal_im]
    have : angle n k 0 = 0 := by simp [angle]
    rw [this, Real.sin_zero, mul_zero, zero_add, neg_eq_zero]
    refine sum_eq_zero fun j hj => ?_
    have hj : j < r := by simpa using hj
    rw [back j (by omega), Real.sin_nat_mul_two_pi_sub]
    ring

theorem ripple_smooth {n m : Nat} (hm : 1 ≤ m) (hn : m ≤ n / 2) {L a : Nat → ℝ} (h : ∀ k ≤ n / 2, L k = a 0 + 2 * ∑ j ∈ Ico 1 m, a j * Real.cos (2 * Real.pi * j * k / n)) {j : Nat} (hj : j ≤ n / 2) :
    ripple n L j = if j < m then a j else 0 := by
  have hn0 : 0 < n := by omega
  have hn' : (n : ℝ) ≠ 0 := by positivity
  have e := resum_ripple hn0 L j
  rw [resum_congr (Y := spectrum n (even n m a)) (fun k hk => by rw [spectrum_even hm hn, h k (by omega)]), resum_spectrum _ (by omega)] at e
  rw [← mul_left_cancel₀ hn' e, even]
  rw [if_neg (show ¬ n - 1 - j < m - 1 by omega), add_zero]

/-- A smooth curve made smooth is as it was. -/
theorem smoothed_smooth {n m q : Nat} (hmq : m < q) (hm : 1 ≤ m) (hn : q ≤ n / 2) {L : Nat → ℝ} (h : Smooth n m L) {k : Nat} (hk : k ≤ n / 2) : smoothed n q L k = L k := by
  obtain ⟨a, h⟩ := h
  rw [smoothed, ripple_smooth hm (by omega) h (by omega), ripple_smooth hm (by omega) h (by omega), if_pos (by omega), if_neg (by omega), zero_mul, add_zero, h k hk]
  congr 2
  have e : ∀ j ∈ Ico 1 (q - 1), ripple n L j * Real.cos (2 * Real.pi * j * k / n) = if j < m then a j * Real.cos (2 * Real.pi * j * k / n) else 0 := by
    intro j hj
    obtain ⟨h1, h2⟩ := mem_Ico.mp hj
    rw [ripple_smooth hm (by omega) h (by omega), ite_mul, zero_mul]
  rw [sum_congr rfl e]
  symm
  rw [← sum_subset (Ico_subset_Ico_right (show m ≤ q - 1 by omega)) (f := fun j => if j < m then a j * Real.cos (2 * Real.pi * j * k / n) else 0)]
  · exact sum_congr rfl fun j hj => (if_pos (mem_Ico.mp hj).2).symm
  · intro j h1 h2
    refine if_neg fun h3 => h2 (mem_Ico.mpr ⟨(mem_Ico.mp h1).1, h3⟩)

end Verif.Formant
