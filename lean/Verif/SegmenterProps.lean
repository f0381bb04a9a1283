import Verif.Segmenter
/-!
# The segmentation of a frame: C62
-/
namespace Verif.Segmenter
open Verif.HistogramFilter Verif.Guide

/-! ## Specification -/

/-- The bins are percussive below one frequency, residual above another, and between that and a third percussive, and these frequencies say all there is to
say about that (bin 0 is not considered). -/
structure Describes (p : Params) (v : List Nat) (s : Segmentation) : Prop where
  below : ∀ i, 1 ≤ i → i < v.length → (freq p i < s.percussiveBelow ↔ ∀ j, 1 ≤ j → j ≤ i → v[j]? = some 1)
  above : ∀ i, 1 ≤ i → i < v.length → (s.residualAbove < freq p i ↔ ∀ j, i ≤ j → j < v.length → v[j]? = some 2)
  between : ∀ i, 1 ≤ i → i < v.length → (s.percussiveAbove < freq p i ∧ freq p i ≤ s.residualAbove ↔
    ∃ k, i ≤ k ∧ k < v.length ∧ (∀ j, i ≤ j → j ≤ k → v[j]? = some 1) ∧ ∀ j, k < j → j < v.length → v[j]? = some 2)

/-- The boundaries are frequencies within the spectrum and in order. -/
structure Ordered (p : Params) (s : Segmentation) : Prop where
  pb : Inside p s.percussiveBelow
  pa : 0 ≤ s.percussiveAbove
  le : s.percussiveAbove ≤ s.residualAbove
  ra : s.residualAbove ≤ p.nyquist

/-- **C62**, as claimed: for every sequence of frames, the segmentation is in order and describes the filtered classes. -/
def C62_statement : Prop := ∀ (p : Params) (_ : p.Supported) (before : List (List Class)) (_ : ∀ c ∈ before, c.length = bins p) (c : List Class) (_ : c.length = bins p),
  ∃ f r, session p before = some f ∧ segment p f c = some r ∧ Ordered p r.2.2 ∧ Describes p r.2.1 r.2.2

/-! ## Lemmas -/

theorem freq_lt (p : Params) (hp : p.Supported) {i j : Nat} (h : i < j) : freq p i < freq p j := by
  have hc := classify_ge p
  have hr := hp.1
  have : (0 : Rat) < p.classify := by exact_mod_cast (by omega : 0 < p.classify)
  unfold freq frequencyForBin
  apply div_lt_div_of_pos_right _ this
  apply mul_lt_mul_of_pos_right _ (by linarith)
  exact_mod_cast h

theorem freq_lt_iff (p : Params) (hp : p.Supported) (i j : Nat) : freq p i < freq p j ↔ i < j := by
  constructor
  · intro h
    by_contra hn
    rcases Nat.lt_or_eq_of_le (not_lt.mp hn) with h1 | h1
    · exact absurd h (not_lt.mpr (freq_lt p hp h1).le)
    · rw [h1] at h
      exact absurd h (lt_irrefl _)
  · exact freq_lt p hp

theorem freq_zero (p : Params) : freq p 0 = 0 := by simp [freq, frequencyForBin]

theorem freq_pos (p : Params) (hp : p.Supported) {i : Nat} (h : 1 ≤ i) : 0 < freq p i := by
  rw [← freq_zero p]
  exact freq_lt p hp h

theorem freq_nyquist (p : Params) (hp : p.Supported) {i : Nat} (h : i < bins p) : freq p i < p.nyquist := by
  have hc := classify_ge p
  have hr := hp.1
  have hcp : (0 : Rat) < p.classify := by exact_mod_cast (by omega : 0 < p.classify)
  have hrp : 0 < p.rate := by linarith
  unfold bins at h
  have h1 : (i : Int) < Rat.floor (p.classify * min 16000 (p.rate / 2) / p.rate) := by omega
  have h2 : ((i : Int) + 1 : Rat) ≤ p.classify * min 16000 (p.rate / 2) / p.rate := by
    have := Rat.le_floor_iff.mp (show (i : Int) + 1 ≤ Rat.floor (p.classify * min 16000 (p.rate / 2) / p.rate) by omega)
    exact_mod_cast this
  have h3 : min 16000 (p.rate / 2) ≤ p.rate / 2 := min_le_right _ _
  rw [le_div_iff₀ hrp] at h2
  have h4 : (p.classify : Rat) * min 16000 (p.rate / 2) ≤ p.classify * (p.rate / 2) := mul_le_mul_of_nonneg_left h3 hcp.le
  unfold freq frequencyForBin Params.nyquist
  rw [div_lt_iff₀ hcp]
  linarith

theorem below_spec (p : Params) (_ : p.Supported) (v : List Nat) (first : Nat) : ∀ (l : List Nat) (i : Nat), 1 ≤ i → l = v.drop i →
    (∀ j, 1 ≤ j → j < i → v[j]? = some 1) →
    (below p first i l = 0 ∧ ((∀ j, 1 ≤ j → j < v.length → v[j]? = some 1) ∨ (1 < v.length ∧ v[1]? ≠ some 1))) ∨
    (∃ k, 1 ≤ k ∧ k < v.length ∧ below p first i l = freq p k ∧ v[k]? ≠ some 1 ∧ ∀ j, 1 ≤ j → j < k → v[j]? = some 1) := by
  intro l
  induction l with
  | nil =>
    intro i hi hl hj
    have : v.length ≤ i := by
      have := congrArg List.length hl
      simp at this
      omega
    exact Or.inl ⟨rfl, Or.inl fun j h1 h2 => hj j h1 (by omega)⟩
  | cons c cs ih =>
    intro i hi hl hj
    have hlt : i < v.length := by
      have := congrArg List.length hl
      simp at this
      omega
    rw [List.drop_eq_getElem_cons hlt] at hl
    obtain ⟨rfl, hcs⟩ := List.cons.inj hl
    unfold below
    by_cases hc : v[i] = 1
    · rw [if_neg (by simpa using hc)]
      refine ih (i + 1) (by omega) hcs ?_
      intro j h1 h2
      rcases Nat.lt_or_eq_of_le (show j ≤ i by omega) with h | h
      · exact hj j h1 h
      · subst h
        rw [List.getElem?_eq_getElem hlt, hc]
    · rw [if_pos hc]
      have hne : v[i]? ≠ some 1 := by
        rw [List.getElem?_eq_getElem hlt]
        simpa using hc
      split
      · rename_i h
        exact Or.inl ⟨rfl, Or.inr ⟨by omega, by have := h.1; subst this; exact hne⟩⟩
      · exact Or.inr ⟨i, hi, hlt, rfl, hne, hj⟩

/-- What the search from above can come to. -/
inductive Found (p : Params) (v : List Nat) (i : Nat) : Rat × Rat → Prop
  | residual : (∀ j, 1 ≤ j → j ≤ i → v[j]? = some 2) → Found p v i (p.nyquist, p.nyquist)
  | harmonic (k : Nat) : 1 ≤ k → k ≤ i → v[k]? ≠ some 1 → v[k]? ≠ some 2 → (∀ j, k < j → j ≤ i → v[j]? = some 2) → Found p v i (freq p k, freq p k)
  | percussive (m k : Nat) : 1 ≤ m → m < k → k ≤ i → v[m]? ≠ some 1 → (∀ j, m < j → j ≤ k → v[j]? = some 1) → (∀ j, k < j → j ≤ i → v[j]? = some 2) →
      Found p v i (freq p m, freq p k)
  | all (k : Nat) : 1 ≤ k → k ≤ i → (∀ j, 1 ≤ j → j ≤ k → v[j]? = some 1) → (∀ j, k < j → j ≤ i → v[j]? = some 2) → Found p v i (p.nyquist, freq p k)

theorem above_in (p : Params) (v : List Nat) (f1 f2 : Rat) : ∀ i, i < v.length → ∃ r, above p v i true (f1, f2) = some r ∧ r.2 = f2 ∧
    ((r.1 = f1 ∧ ∀ j, 1 ≤ j → j ≤ i → v[j]? = some 1) ∨ ∃ m, 1 ≤ m ∧ m ≤ i ∧ r.1 = freq p m ∧ v[m]? ≠ some 1 ∧ ∀ j, m < j → j ≤ i → v[j]? = some 1) := by
  intro i
  induction i with
  | zero => intro _; exact ⟨_, rfl, rfl, Or.inl ⟨rfl, fun j h1 h2 => by omega⟩⟩
  | succ i ih =>
    intro hi
    unfold above
    have hg := List.getElem?_eq_getElem hi
    rw [hg]
    simp only [Bool.not_true, Bool.false_eq_true, if_false]
    by_cases hc : v[i + 1] = 1
    · rw [if_neg (by simpa using hc)]
      obtain ⟨r, r1, r2, r3⟩ := ih (by omega)
      have ext : ∀ j, j ≤ i + 1 → ¬ j ≤ i → v[j]? = some 1 := by
        intro j h1 h2
        have : j = i + 1 := by omega
        subst this
        rw [hg, hc]
      refine ⟨r, r1, r2, ?_⟩
      rcases r3 with ⟨h1, h2⟩ | ⟨m, h1, h2, h3, h4, h5⟩
      · refine Or.inl ⟨h1, fun j a b => ?_⟩
        by_cases hj : j ≤ i
        · exact h2 j a hj
        · exact ext j b hj
      · refine Or.inr ⟨m, h1, by omega, h3, h4, fun j a b => ?_⟩
        by_cases hj : j ≤ i
        · exact h5 j a hj
        · exact ext j b hj
    · rw [if_pos hc]
      refine ⟨_, rfl, rfl, Or.inr ⟨i + 1, by omega, le_refl _, rfl, by rw [hg]; simpa using hc, fun j a b => by omega⟩⟩

theorem above_spec (p : Params) (v : List Nat) : ∀ i, i < v.length → ∃ r, above p v i false (p.nyquist, p.nyquist) = some r ∧ Found p v i r := by
  intro i
  induction i with
  | zero => intro _; exact ⟨_, rfl, .residual fun j h1 h2 => by omega⟩
  | succ i ih =>
    intro hi
    unfold above
    have hg := List.getElem?_eq_getElem hi
    rw [hg]
    simp only [Bool.not_false, if_true]
    by_cases c2 : v[i + 1] = 2
    · rw [if_pos c2]
      obtain ⟨r, r1, r2⟩ := ih (by omega)
      have ext : ∀ j, j ≤ i + 1 → ¬ j ≤ i → v[j]? = some 2 := by
        intro j h1 h2
        have : j = i + 1 := by omega
        subst this
        rw [hg, c2]
      refine ⟨r, r1, ?_⟩
      cases r2 with
      | residual h =>
        refine .residual fun j a b => ?_
        by_cases hj : j ≤ i
        · exact h j a hj
        · exact ext j b hj
      | harmonic k h1 h2 h3 h4 h5 =>
        refine .harmonic k h1 (by omega) h3 h4 fun j a b => ?_
        by_cases hj : j ≤ i
        · exact h5 j a hj
        · exact ext j b hj
      | percussive m k h1 h2 h3 h4 h5 h6 =>
        refine .percussive m k h1 h2 (by omega) h4 h5 fun j a b => ?_
        by_cases hj : j ≤ i
        · exact h6 j a hj
        · exact ext j b hj
      | all k h1 h2 h3 h4 =>
        refine .all k h1 (by omega) h3 fun j a b => ?_
        by_cases hj : j ≤ i
        · exact h4 j a hj
        · exact ext j b hj
    · rw [if_neg c2]
      by_cases c1 : v[i + 1] = 1
      · rw [if_pos c1]
        obtain ⟨r, r1, r2, r3⟩ := above_in p v p.nyquist (freq p (i + 1)) i (by omega)
        have ext : ∀ j, j ≤ i + 1 → ¬ j ≤ i → v[j]? = some 1 := by
          intro j h1 h2
          have : j = i + 1 := by omega
          subst this
          rw [hg, c1]
        refine ⟨r, r1, ?_⟩
        obtain ⟨x, y⟩ := r
        simp only at r2 r3
        subst r2
        rcases r3 with ⟨rfl, h2⟩ | ⟨m, h1, h2, rfl, h4, h5⟩
        · refine .all (i + 1) (by omega) (le_refl _) (fun j a b => ?_) (fun j a b => by omega)
          by_cases hj : j ≤ i
          · exact h2 j a hj
          · exact ext j b hj
        · refine .percussive m (i + 1) h1 (by omega) (le_refl _) h4 (fun j a b => ?_) (fun j a b => by omega)
          by_cases hj : j ≤ i
          · exact h5 j a hj
          · exact ext j b hj
      · rw [if_neg c1]
        exact ⟨_, rfl, .harmonic (i + 1) (by omega) (le_refl _) (by rw [hg]; simpa using c1) (by rw [hg]; simpa using c2) (fun j a b => by omega)⟩

/-- Everything about the boundaries of an array of values. -/
theorem bounds_spec (p : Params) (hp : p.Supported) (v : List Nat) (hl : v.length = bins p) (hpos : 0 < bins p) : ∃ s, bounds p v = some s ∧ Ordered p s ∧
    (∀ i, 1 ≤ i → i < v.length → freq p i < s.percussiveBelow → ∀ j, 1 ≤ j → j ≤ i → v[j]? = some 1) ∧
    (∀ i, 1 ≤ i → i < v.length → s.residualAbove < freq p i → ∀ j, i ≤ j → j < v.length → v[j]? = some 2) ∧
    (∀ i, 1 ≤ i → i < v.length → (s.percussiveAbove < freq p i ∧ freq p i ≤ s.residualAbove ↔
      ∃ k, i ≤ k ∧ k < v.length ∧ (∀ j, i ≤ j → j ≤ k → v[j]? = some 1) ∧ ∀ j, k < j → j < v.length → v[j]? = some 2)) ∧
    ((∃ j, 1 ≤ j ∧ j < v.length ∧ v[j]? ≠ some 1) → (∃ j, 1 ≤ j ∧ j < v.length ∧ v[j]? ≠ some 2) → Describes p v s) := by
  have hn : 0 ≤ p.nyquist := by unfold Params.nyquist; have := hp.1; linarith
  have hq : ∀ {k}, k < v.length → freq p k < p.nyquist := fun h => freq_nyquist p hp (hl ▸ h)
  obtain ⟨r, hr, hf⟩ := above_spec p v (v.length - 1) (by omega)
  have hb := below_spec p hp v (v.headD 0) v.tail 1 (le_refl _) (by simp) (fun j h1 h2 => by omega)
  unfold bounds
  rw [hr]
  refine ⟨_, rfl, ?_⟩
  generalize below p (v.headD 0) 1 v.tail = pb at *
  have hpb : Inside p pb ∧ (∀ i, 1 ≤ i → i < v.length → freq p i < pb → ∀ j, 1 ≤ j → j ≤ i → v[j]? = some 1) ∧
      ((∃ j, 1 ≤ j ∧ j < v.length ∧ v[j]? ≠ some 1) → ∀ i, 1 ≤ i → i < v.length → (∀ j, 1 ≤ j → j ≤ i → v[j]? = some 1) → freq p i < pb) := by
    rcases hb with ⟨rfl, h⟩ | ⟨k, h1, h2, rfl, h4, h5⟩
    · refine ⟨⟨le_refl _, hn⟩, fun i hi _ h => absurd h (not_lt.mpr (freq_pos p hp hi).le), ?_⟩
      rintro ⟨j, j1, j2, j3⟩ i i1 i2 hi
      rcases h with h | h
      · exact absurd (h j j1 j2) j3
      · exact absurd (hi 1 (le_refl _) i1) h.2
    · refine ⟨⟨(freq_pos p hp h1).le, (hq h2).le⟩, fun i hi _ h j j1 j2 => h5 j j1 ?_, ?_⟩
      · have := (freq_lt_iff p hp i k).mp h
        omega
      · rintro _ i i1 i2 hi
        rw [freq_lt_iff p hp]
        by_contra hk
        exact h4 (hi k h1 (by omega))
  obtain ⟨pb1, pb2, pb3⟩ := hpb
  have hdiff : ∀ {o : Option Nat}, o = some 1 → o = some 2 → False := by
    intro o h1 h2
    rw [h1] at h2
    cases h2
  have rest : (0 ≤ lowest p r ∧ lowest p r ≤ r.2 ∧ r.2 ≤ p.nyquist) ∧
      (∀ i, 1 ≤ i → i < v.length → r.2 < freq p i → ∀ j, i ≤ j → j < v.length → v[j]? = some 2) ∧
      (∀ i, 1 ≤ i → i < v.length → (lowest p r < freq p i ∧ freq p i ≤ r.2 ↔
        ∃ k, i ≤ k ∧ k < v.length ∧ (∀ j, i ≤ j → j ≤ k → v[j]? = some 1) ∧ ∀ j, k < j → j < v.length → v[j]? = some 2)) ∧
      ((∃ j, 1 ≤ j ∧ j < v.length ∧ v[j]? ≠ some 2) → ∀ i, 1 ≤ i → i < v.length → (∀ j, i ≤ j → j < v.length → v[j]? = some 2) → r.2 < freq p i) := by
    cases hf with
    | residual h =>
      have hlow : lowest p (p.nyquist, p.nyquist) = p.nyquist := by
        unfold lowest
        rw [if_neg (fun h => absurd h.2 (lt_irrefl _))]
      rw [hlow]
      refine ⟨⟨hn, le_refl _, le_refl _⟩, fun i h1 h2 h3 => absurd (hq h2) (not_lt.mpr h3.le), fun i h1 h2 => ?_, ?_⟩
      · constructor
        · intro h3
          exact absurd (hq h2) (not_lt.mpr h3.1.le)
        · rintro ⟨k, k1, k2, k3, _⟩
          exact (hdiff (k3 i (le_refl _) k1) (h i h1 (by omega))).elim
      · rintro ⟨j, j1, j2, j3⟩
        exact absurd (h j j1 (by omega)) j3
    | harmonic k h1 h2 h3 h4 h5 =>
      have hlow : lowest p (freq p k, freq p k) = freq p k := by
        unfold lowest
        rw [if_neg (fun h => absurd h.1 (hq (by omega)).ne)]
      rw [hlow]
      refine ⟨⟨(freq_pos p hp h1).le, le_refl _, (hq (by omega)).le⟩, ?_, fun i i1 i2 => ?_, ?_⟩
      · intro i i1 i2 hi j j1 j2
        have := (freq_lt_iff p hp k i).mp hi
        exact h5 j (by omega) (by omega)
      · constructor
        · rintro ⟨a, b⟩
          exact absurd a (not_lt.mpr b)
        · rintro ⟨m, m1, m2, m3, m4⟩
          exfalso
          rcases Nat.lt_trichotomy m k with h | h | h
          · exact h4 (m4 k h (by omega))
          · subst h
            exact h3 (m3 m m1 (le_refl _))
          · exact hdiff (m3 m m1 (le_refl _)) (h5 m h (by omega))
      · rintro _ i i1 i2 hi
        show freq p k < freq p i
        rw [freq_lt_iff p hp]
        by_contra hk
        exact h4 (hi k (by omega) (by omega))
    | percussive m k h1 h2 h3 h4 h5 h6 =>
      have hlow : lowest p (freq p m, freq p k) = freq p m := by
        unfold lowest
        rw [if_neg (fun h => absurd h.1 (hq (by omega)).ne)]
      rw [hlow]
      refine ⟨⟨(freq_pos p hp h1).le, (freq_lt p hp h2).le, (hq (by omega)).le⟩, ?_, fun i i1 i2 => ?_, ?_⟩
      · intro i i1 i2 hi j j1 j2
        have := (freq_lt_iff p hp k i).mp hi
        exact h6 j (by omega) (by omega)
      · constructor
        · rintro ⟨a, b⟩
          have a1 := (freq_lt_iff p hp m i).mp a
          have b1 : i ≤ k := by
            by_contra hk
            exact absurd b (not_le.mpr (freq_lt p hp (by omega)))
          exact ⟨k, b1, by omega, fun j j1 j2 => h5 j (by omega) j2, fun j j1 j2 => h6 j j1 (by omega)⟩
        · rintro ⟨n, n1, n2, n3, n4⟩
          have hnk : n = k := by
            rcases Nat.lt_trichotomy n k with h | h | h
            · exact (hdiff (h5 k h2 (le_refl _)) (n4 k h (by omega))).elim
            · exact h
            · exact (hdiff (n3 n n1 (le_refl _)) (h6 n h (by omega))).elim
          subst hnk
          constructor
          · rw [freq_lt_iff p hp]
            by_contra hk
            exact h4 (n3 m (by omega) (by omega))
          · by_contra hk
            have := (freq_lt_iff p hp n i).mp (not_le.mp hk)
            omega
      · rintro _ i i1 i2 hi
        show freq p k < freq p i
        rw [freq_lt_iff p hp]
        by_contra hk
        exact hdiff (h5 k h2 (le_refl _)) (hi k (by omega) (by omega))
    | all k h1 h2 h3 h4 =>
      have hlow : lowest p (p.nyquist, freq p k) = 0 := by
        unfold lowest
        rw [if_pos ⟨rfl, hq (by omega)⟩]
      rw [hlow]
      refine ⟨⟨le_refl _, (freq_pos p hp h1).le, (hq (by omega)).le⟩, ?_, fun i i1 i2 => ?_, ?_⟩
      · intro i i1 i2 hi j j1 j2
        have := (freq_lt_iff p hp k i).mp hi
        exact h4 j (by omega) (by omega)
      · constructor
        · rintro ⟨a, b⟩
          have b1 : i ≤ k := by
            by_contra hk
            exact absurd b (not_le.mpr (freq_lt p hp (by omega)))
          exact ⟨k, b1, by omega, fun j j1 j2 => h3 j (by omega) j2, fun j j1 j2 => h4 j j1 (by omega)⟩
        · rintro ⟨n, n1, n2, n3, n4⟩
          refine ⟨freq_pos p hp i1, ?_⟩
          have hnk : n ≤ k := by
            by_contra h
            exact hdiff (n3 n n1 (le_refl _)) (h4 n (by omega) (by omega))
          by_contra hk
          have := (freq_lt_iff p hp k i).mp (not_le.mp hk)
          omega
      · rintro _ i i1 i2 hi
        show freq p k < freq p i
        rw [freq_lt_iff p hp]
        by_contra hk
        exact hdiff (h3 k h1 (le_refl _)) (hi k (by omega) (by omega))
  obtain ⟨⟨r1, r2, r3⟩, r4, r5, r6⟩ := rest
  refine ⟨⟨pb1, r1, r2, r3⟩, pb2, r4, r5, fun e1 e2 => ⟨?_, ?_, r5⟩⟩
  · exact fun i i1 i2 => ⟨pb2 i i1 i2, pb3 e1 i i1 i2⟩
  · exact fun i i1 i2 => ⟨r4 i i1 i2, r6 e2 i i1 i2⟩

theorem bins_pos (p : Params) (hp : p.Supported) : 0 < bins p := by
  have hc := classify_ge p
  have hr := hp.1
  have hr2 := hp.2
  have hrp : 0 < p.rate := by linarith
  unfold bins
  have : (1 : Int) ≤ Rat.floor (p.classify * min 16000 (p.rate / 2) / p.rate) := by
    rw [Rat.le_floor_iff, le_div_iff₀ hrp]
    have h1 : (1024 : Rat) ≤ p.classify := by exact_mod_cast hc
    have h2 : 4000 ≤ min 16000 (p.rate / 2) := le_min (by norm_num) (by linarith)
    have : (1024 : Rat) * 4000 ≤ p.classify * min 16000 (p.rate / 2) := by
      apply mul_le_mul h1 h2 (by norm_num) (by linarith)
    push_cast
    linarith
  omega

theorem numeric_lt (c : Class) : numeric c < 3 := by cases c <;> decide

theorem segment_some (p : Params) (hp : p.Supported) {f : HF} {w : List Nat} (h : HInv 3 18 f w) (c : List Class) (hl : c.length = bins p) :
    ∃ f' v s w', segment p f c = some (f', v, s) ∧ HInv 3 18 f' w' ∧ v.length = bins p ∧ (∀ x ∈ v, x < 3) ∧ bounds p v = some s ∧
      filter true f (c.map numeric) = some (f', v) := by
  obtain ⟨f', v, k1, k2, k3, w', k4⟩ := filter_spec (N := 3) (L := 18) (by decide) (by decide) true h (c.map numeric)
    (by intro x hx; obtain ⟨y, _, rfl⟩ := List.mem_map.mp hx; exact numeric_lt y)
  rw [List.length_map] at k2 k3
  obtain ⟨s, hs, _⟩ := bounds_spec p hp v (by rw [k2, hl]) (bins_pos p hp)
  refine ⟨f', v, s, w', ?_, k4, by rw [k2, hl], ?_, hs, k1⟩
  · unfold segment
    simp only [k1, hs, Option.bind_eq_bind, Option.bind_some]
    rfl
  · intro x hx
    obtain ⟨i, hi, rfl⟩ := List.mem_iff_getElem.mp hx
    obtain ⟨y, y1, y2⟩ := k3 i (by omega)
    rw [List.getElem?_eq_getElem hi] at y1
    cases y1
    exact y2.1

theorem session_some (p : Params) (hp : p.Supported) : ∀ (before : List (List Class)), (∀ c ∈ before, c.length = bins p) →
    ∃ f w, session p before = some f ∧ HInv 3 18 f w := by
  intro before
  induction before with
  | nil => intro _; exact ⟨_, [], rfl, init_inv 3 18⟩
  | cons c cs ih =>
    intro h
    obtain ⟨f, w, h1, h2⟩ := ih (fun c hc => h c (by simp [hc]))
    obtain ⟨f', v, s, w', k1, k2, _⟩ := segment_some p hp h2 c (h c (by simp))
    exact ⟨f', w', by unfold session; rw [h1, Option.bind_some, k1]; rfl, k2⟩

/-- **C62**: over all sequences of frames the segmenter stays within its arrays and gives frequencies within the spectrum and in order; below the first and
above the third, the bins are as named, and those between the second and third are exactly the highest percussive bins that have only residual ones above.  If the bins are
neither all percussive nor all residual, the first and third are also the outermost such frequencies.  Missing: frames all percussive or all residual. -/
theorem C62_partial (p : Params) (hp : p.Supported) (before : List (List Class)) (hb : ∀ c ∈ before, c.length = bins p) (c : List Class) (hc : c.length = bins p) :
    ∃ f f' v s, session p before = some f ∧ segment p f c = some (f', v, s) ∧ v.length = bins p ∧ Ordered p s ∧
      (∀ i, 1 ≤ i → i < v.length → freq p i < s.percussiveBelow → v[i]? = some (numeric .percussive)) ∧
      (∀ i, 1 ≤ i → i < v.length → s.residualAbove < freq p i → v[i]? = some (numeric .residual)) ∧
      (∀ i, 1 ≤ i → i < v.length → (s.percussiveAbove < freq p i ∧ freq p i ≤ s.residualAbove ↔
        ∃ k, i ≤ k ∧ k < v.length ∧ (∀ j, i ≤ j → j ≤ k → v[j]? = some 1) ∧ ∀ j, k < j → j < v.length → v[j]? = some 2)) ∧
      ((∃ j, 1 ≤ j ∧ j < v.length ∧ v[j]? ≠ some 1) → (∃ j, 1 ≤ j ∧ j < v.length ∧ v[j]? ≠ some 2) → Describes p v s) := by
  obtain ⟨f, w, h1, h2⟩ := session_some p hp before hb
  obtain ⟨f', v, s, w', k1, _, k3, _, k5, _⟩ := segment_some p hp h2 c hc
  obtain ⟨s', b1, b2, b3, b4, b5, b6⟩ := bounds_spec p hp v k3 (bins_pos p hp)
  rw [k5] at b1
  cases b1
  exact ⟨f, f', v, s, h1, k1, k3, b2, fun i i1 i2 h => b3 i i1 i2 h i i1 (le_refl _), fun i i1 i2 h => b4 i i1 i2 h i (le_refl _) i2, b5, b6⟩

/-- The mode that is cached stays what it is when all the values are the same. -/
theorem feed_mode {L n j c : Nat} {f f' : HF} (hm : f.mode = -1 ∨ f.mode = c) (h : feed L n j f (List.replicate n c) = some f') :
    f'.mode = -1 ∨ f'.mode = c := by
  unfold feed at h
  split at h
  · rename_i hj
    rw [List.getElem?_replicate, if_pos hj] at h
    simp only [Option.bind_eq_bind, Option.bind_some] at h
    unfold push at h
    obtain ⟨g, hg, h⟩ := Option.bind_eq_some_iff.mp h
    obtain ⟨⟨b, x⟩, _, h⟩ := Option.bind_eq_some_iff.mp h
    obtain ⟨hi, _, h⟩ := Option.bind_eq_some_iff.mp h
    obtain ⟨height, hh, h⟩ := Option.bind_eq_some_iff.mp h
    obtain ⟨m, hmode, h⟩ := Option.bind_eq_some_iff.mp h
    cases h
    have hgm : g.mode = f.mode := by
      unfold makeRoom at hg
      split at hg
      · obtain ⟨⟨b, x⟩, _, hg⟩ := Option.bind_eq_some_iff.mp hg
        obtain ⟨hi, _, hg⟩ := Option.bind_eq_some_iff.mp hg
        cases hg
        rfl
      · cases hg; rfl
    rw [hgm] at hmode
    rcases hm with hm | hm
    · unfold updateMode at hmode
      rw [hm, if_neg (by decide)] at hmode
      left
      exact (Option.some.inj hmode).symm
    · unfold updateMode at hmode
      rw [hm, if_pos (by omega)] at hmode
      simp only [Int.toNat_natCast, hh, Option.bind_eq_bind, Option.bind_some, ge_iff_le, Int.le_refl, if_true, gt_iff_lt, lt_irrefl, or_self, if_false] at hmode
      right
      exact (Option.some.inj hmode).symm
  · split at h
    · unfold drop at h
      split at h
      · obtain ⟨⟨b, x⟩, _, h⟩ := Option.bind_eq_some_iff.mp h
        obtain ⟨hi, _, h⟩ := Option.bind_eq_some_iff.mp h
        cases h
        simp only
        split
        · exact Or.inl rfl
        · exact hm
      · cases h; exact hm
    · cases h; exact hm

theorem filterLoop_same {N L n c : Nat} (hL : 1 ≤ L) (hc : c < N) : ∀ (fuel : Nat) (i : Int) (j : Nat) (f : HF),
    i = (j : Int) - ((L / 2 : Nat) : Int) → i ≤ n → (n : Int) - i ≤ fuel → HInv N L f (MovingMedian.heldAfter L (List.replicate n c) j) →
    (f.mode = -1 ∨ f.mode = c) → ∃ f', filterLoop true L n fuel i j f (List.replicate n c) = some (f', List.replicate n c) := by
  intro fuel
  induction fuel with
  | zero =>
    intro i j f hi hin hf hinv hm
    unfold filterLoop
    rw [if_neg (by simp; omega)]
    exact ⟨f, rfl⟩
  | succ fuel ih =>
    intro i j f hi hin hf hinv hm
    unfold filterLoop
    by_cases hend : i = n
    · rw [if_neg (by simp [hend])]
      exact ⟨f, rfl⟩
    · rw [if_pos hend]
      obtain ⟨f1, a1, a2, _⟩ := feed_spec (N := N) hL (by omega) hinv (v := List.replicate n c) (fun _ => rfl)
        (by intro x hx; rw [List.eq_of_mem_replicate hx]; exact hc)
      rw [List.length_replicate] at a1
      have a3 := feed_mode hm a1
      simp only [a1, Option.bind_eq_bind, Option.bind_some]
      have key : ∃ f2, emit true i f1 (List.replicate n c) = some (f2, List.replicate n c) ∧ HInv N L f2 (MovingMedian.heldAfter L (List.replicate n c) (j + 1)) ∧
          (f2.mode = -1 ∨ f2.mode = c) := by
        unfold emit
        by_cases h0 : i ≥ 0
        · rw [if_pos h0]
          obtain ⟨g1, g2⟩ := getMode_inv a2 (by omega)
          have g3 : (getMode f1).2 = c := by
            unfold getMode
            rcases a3 with a3 | a3
            · rw [a3, if_neg (by decide)]
              have := modeLoop_isMode a2.hist a2.range (by
                intro he
                have := congrArg List.length he
                simp [MovingMedian.heldAfter] at this
                omega)
              have hmem := List.mem_of_mem_take (List.mem_of_mem_drop this.1)
              exact List.eq_of_mem_replicate hmem
            · rw [a3, if_pos (by omega)]; simp
          have hset : MovingMedian.setAt (List.replicate n c) i.toNat c = some (List.replicate n c) := by
            unfold MovingMedian.setAt
            rw [if_pos (by rw [List.length_replicate]; omega)]
            congr 1
            apply List.ext_getElem?
            intro k
            rw [List.getElem?_set, List.getElem?_replicate, List.length_replicate]
            split <;> split <;> simp_all
          refine ⟨(getMode f1).1, ?_, g1, ?_⟩
          · simp only [if_true, g3, hset, Option.bind_eq_bind, Option.bind_some]
            rfl
          · right; rw [g2, g3]
        · rw [if_neg h0]
          exact ⟨f1, rfl, a2, a3⟩
      obtain ⟨f2, e1, e2, e3⟩ := key
      simp only [e1, Option.bind_some]
      exact ih (i + 1) (j + 1) f2 (by omega) (by omega) (by omega) e2 e3

/-- A new filter leaves an array as it is if all its values are the same. -/
theorem filter_same {N L n c : Nat} (hL : 1 ≤ L) (hc : c < N) : ∃ f', filter true (init N L) (List.replicate n c) = some (f', List.replicate n c) := by
  have h := reset_inv (init_inv N L)
  have hsz : getFilterLength (reset (init N L)) = L := by simp [getFilterLength, STRB.getSize, h.bsize]
  unfold filter
  simp only [hsz, List.length_replicate]
  exact filterLoop_same hL hc (n + L / 2) (-((L / 2 : Nat) : Int)) 0 _ (by simp) (by omega) (by omega)
    (by simpa [MovingMedian.heldAfter] using h) (Or.inl rfl)

theorem above_residual (p : Params) (n : Nat) (r : Rat × Rat) : ∀ i, i < n → above p (List.replicate n 2) i false r = some r := by
  intro i
  induction i with
  | zero => intro _; rfl
  | succ i ih =>
    intro h
    unfold above
    rw [List.getElem?_replicate, if_pos h]
    simp only [Bool.not_false, if_true]
    exact ih (by omega)

/-- A frame of residual bins only: nothing is above the frequency given. -/
theorem C62_violated : ¬ C62_statement := by
  intro h
  have hb : bins { rate := 8000 } = 512 := by decide +kernel
  have hp : ({ rate := 8000 } : Params).Supported := by unfold Params.Supported; constructor <;> norm_num
  obtain ⟨f, r, h1, h2, _, h4⟩ := h { rate := 8000 } hp [] (by simp) (List.replicate 512 .residual) (by rw [hb, List.length_replicate])
  cases h1
  have k : r.2.1 = List.replicate 512 2 ∧ r.2.2.residualAbove = Params.nyquist { rate := 8000 } := by
    obtain ⟨f', hf⟩ := filter_same (N := 3) (L := 18) (n := 512) (c := 2) (by decide) (by decide)
    unfold segment at h2
    rw [List.map_replicate] at h2
    have e : numeric .residual = 2 := rfl
    rw [e, hf] at h2
    simp only [Option.bind_eq_bind, Option.bind_some] at h2
    obtain ⟨b, hb, h2⟩ := Option.bind_eq_some_iff.mp h2
    cases h2
    unfold bounds at hb
    rw [List.length_replicate, above_residual _ _ _ _ (by decide)] at hb
    cases hb
    exact ⟨rfl, rfl⟩
  have := (h4.above 1 (by decide) (by rw [k.1, List.length_replicate]; decide)).mpr (by
    rw [k.1]
    intro j _ h2
    rw [List.length_replicate] at h2
    rw [List.getElem?_replicate, if_pos h2])
  rw [k.2] at this
  have h3 := freq_nyquist { rate := 8000 } hp (i := 1) (by rw [hb]; decide)
  linarith

/-- The results of the segmenter are as the guide needs them (`C60_unity`). -/
theorem segment_inside (p : Params) {s : Segmentation} (h : Ordered p s) : Inside p s.percussiveAbove ∧ Inside p s.residualAbove :=
  ⟨⟨h.pa, h.le.trans h.ra⟩, ⟨h.pa.trans h.le, h.ra⟩⟩

/-- The boundaries in a frame with two percussive bins, then three harmonic ones, one percussive, and two residual. -/
example : bounds { rate := 8000 } [1, 1, 0, 0, 0, 1, 2, 2] = some ⟨freq { rate := 8000 } 2, freq { rate := 8000 } 4, freq { rate := 8000 } 5⟩ := by decide +kernel

/-- There are 512 bins to classify at 8000 Hz, the lowest rate supported. -/
example : ({ rate := 8000 } : Params).Supported ∧ (List.replicate 100 Class.percussive ++ List.replicate 412 Class.harmonic).length = bins { rate := 8000 } :=
  ⟨by unfold Params.Supported; constructor <;> norm_num, by decide +kernel⟩

end Verif.Segmenter
