import Verif.BQResampler
import Mathlib.Tactic.Ring
import Mathlib.Tactic.Linarith
import Mathlib.Tactic.NormNum
import Mathlib.Tactic.Positivity
import Mathlib.Algebra.Order.Field.Basic
import Mathlib.Data.Nat.GCD.Basic
import Mathlib.Data.Int.GCD
/-!
# Phase tables of the resampler: lemmas
-/
namespace Verif.BQ
open Verif.MovingMedian (setAt)
variable {α : Type}

theorem gcd_spec : ∀ (fuel a b : Nat), 0 < b → b < fuel → gcd fuel a b = some (Nat.gcd a b) := by
  intro fuel
  induction fuel with
  | zero => intro a b _ h; omega
  | succ fuel ih =>
    intro a b hb hf
    unfold gcd
    rw [if_neg (by omega)]
    by_cases h : a % b = 0
    · rw [if_pos h]
      congr 1
      exact (Nat.gcd_eq_right (Nat.dvd_of_mod_eq_zero h)).symm
    · rw [if_neg h, ih b (a % b) (by omega) (by have := Nat.mod_lt a hb; omega)]
      congr 1
      rw [Nat.gcd_comm b, ← Nat.gcd_rec, Nat.gcd_comm]

/-- What `fill_params` gives for a fraction in which the denominator is not 0. -/
theorem fillParams_spec (q : Quality) (ratio : Rat) (num den : Nat) (hd : 0 < den) :
    ∃ p, fillParams q ratio num den = some p ∧ p.ratio = ratio ∧ 0 < p.den ∧
      Nat.Coprime p.num p.den ∧ p.num * den = num * p.den ∧ (0 < num → 0 < p.num) ∧
      p.peakToZero = ((max p.den p.num : Nat) : Rat) / q.cut := by
  have hg : 0 < Nat.gcd num den := Nat.gcd_pos_of_pos_right _ hd
  refine ⟨_, by unfold fillParams; rw [gcd_spec _ _ _ hd (by omega)]; rfl, rfl, ?_, ?_, ?_, ?_, rfl⟩
  · exact Nat.div_pos (Nat.le_of_dvd hd (Nat.gcd_dvd_right _ _)) hg
  · exact Nat.coprime_div_gcd_div_gcd hg
  · show num / Nat.gcd num den * den = num * (den / Nat.gcd num den)
    obtain ⟨a, ha⟩ := Nat.gcd_dvd_left num den
    obtain ⟨b, hb⟩ := Nat.gcd_dvd_right num den
    generalize Nat.gcd num den = g at *
    subst ha; subst hb
    rw [Nat.mul_div_cancel_left _ hg, Nat.mul_div_cancel_left _ hg]
    ring
  · intro hn
    exact Nat.div_pos (Nat.le_of_dvd hn (Nat.gcd_dvd_left _ _)) hg

/-- The phase after phase `p`. -/
def nextPhase (num den p : Nat) : Nat := (((p : Int) - den) % num).toNat

theorem raisePhase_spec {num : Nat} (hn : 0 < num) : ∀ (fuel : Nat) (p : Int), -(fuel : Int) ≤ p →
    ∃ r, raisePhase num fuel p = some r ∧ 0 ≤ r ∧ r % num = p % num := by
  intro fuel
  induction fuel with
  | zero =>
    intro p hp
    unfold raisePhase
    rw [if_neg (by omega)]
    exact ⟨p, rfl, by omega, rfl⟩
  | succ fuel ih =>
    intro p hp
    unfold raisePhase
    by_cases h : p < 0
    · rw [if_pos h]
      obtain ⟨r, a1, a2, a3⟩ := ih (p + num) (by omega)
      exact ⟨r, a1, a2, by rw [a3, Int.add_emod_right]⟩
    · rw [if_neg h]
      exact ⟨p, rfl, by omega, rfl⟩

theorem phaseRec_spec {num : Nat} (hn : 0 < num) (fl den p : Nat) :
    phaseRec fl num den p = some { next := nextPhase num den p, drop := ceilDiv (den - p) num,
                                   length := ceilDiv (fl - p) num, start := 0 } := by
  unfold phaseRec
  obtain ⟨r, a1, a2, a3⟩ := raisePhase_spec hn den ((p : Int) - den) (by omega)
  simp only [a1, Option.bind_eq_bind, Option.bind_some]
  congr 2
  unfold nextPhase
  rw [← a3]
  obtain ⟨n, rfl⟩ := Int.eq_ofNat_of_zero_le a2
  simp only [Int.ofNat_eq_natCast, Int.toNat_natCast]
  rw [← Int.natCast_mod, Int.toNat_natCast]

theorem nextPhase_lt {num : Nat} (hn : 0 < num) (den p : Nat) : nextPhase num den p < num := by
  unfold nextPhase
  have h1 := Int.emod_nonneg ((p : Int) - den) (by omega : (num : Int) ≠ 0)
  have h2 := Int.emod_lt_of_pos ((p : Int) - den) (by omega : (0 : Int) < num)
  omega

theorem phaseTable_spec {num : Nat} (hn : 0 < num) (fl den : Nat) : ∀ (rounds p : Nat),
    ∃ t, phaseTable fl num den rounds p = some t ∧ t.length = rounds ∧
      ∀ k, k < rounds → t[k]? = some
        { next := nextPhase num den (p + k), drop := ceilDiv (den - (p + k)) num,
          length := ceilDiv (fl - (p + k)) num, start := 0 } := by
  intro rounds
  induction rounds with
  | zero => intro p; exact ⟨[], rfl, rfl, fun k h => by omega⟩
  | succ rounds ih =>
    intro p
    obtain ⟨t, a1, a2, a3⟩ := ih (p + 1)
    refine ⟨_ :: t, by unfold phaseTable; rw [phaseRec_spec hn, a1]; rfl, by simp [a2], ?_⟩
    intro k hk
    cases k with
    | zero => simp
    | succ k =>
      rw [List.getElem?_cons_succ, a3 k (by omega)]
      have : p + 1 + k = p + (k + 1) := by omega
      rw [this]

theorem component_spec (filter : List α) (num p : Nat) : ∀ (rounds i : Nat),
    (∀ k, i ≤ k → k < i + rounds → k * num + p < filter.length) →
    ∃ c, component filter num p rounds i = some c ∧ c.length = rounds ∧
      ∀ k, k < rounds → c[k]? = filter[(i + k) * num + p]? := by
  intro rounds
  induction rounds with
  | zero => intro i _; exact ⟨[], rfl, rfl, fun k h => by omega⟩
  | succ rounds ih =>
    intro i h
    obtain ⟨c, a1, a2, a3⟩ := ih (i + 1) (fun k h1 h2 => h k (by omega) (by omega))
    have h0 := h i (Nat.le_refl i) (by omega)
    refine ⟨filter[i * num + p] :: c, ?_, by simp [a2], ?_⟩
    · unfold component
      simp only [List.getElem?_eq_getElem h0, Option.bind_eq_bind, Option.bind_some, a1]
      rfl
    · intro k hk
      cases k with
      | zero => simp [List.getElem?_eq_getElem h0]
      | succ k =>
        rw [List.getElem?_cons_succ, a3 k (by omega)]
        have : i + 1 + k = i + (k + 1) := by omega
        rw [this]

/-- The phase of round `j`, starting from `ip`. -/
def orb (num den ip j : Nat) : Nat := (((ip : Int) - (j : Int) * den) % num).toNat

theorem orb_int {num : Nat} (hn : 0 < num) (den ip j : Nat) :
    ((orb num den ip j : Nat) : Int) = ((ip : Int) - (j : Int) * den) % num := by
  unfold orb
  have h1 := Int.emod_nonneg ((ip : Int) - (j : Int) * den) (by omega : (num : Int) ≠ 0)
  omega

theorem nextPhase_int {num : Nat} (hn : 0 < num) (den p : Nat) :
    ((nextPhase num den p : Nat) : Int) = ((p : Int) - den) % num := by
  unfold nextPhase
  have h1 := Int.emod_nonneg ((p : Int) - den) (by omega : (num : Int) ≠ 0)
  omega

theorem orb_succ {num : Nat} (hn : 0 < num) (den ip j : Nat) :
    nextPhase num den (orb num den ip j) = orb num den ip (j + 1) := by
  have : ((nextPhase num den (orb num den ip j) : Nat) : Int) = orb num den ip (j + 1) := by
    rw [nextPhase_int hn, orb_int hn, orb_int hn, Int.emod_sub_emod]
    congr 1
    push_cast
    ring
  omega

theorem orb_lt {num : Nat} (hn : 0 < num) (den ip j : Nat) : orb num den ip j < num := by
  have h2 := Int.emod_lt_of_pos ((ip : Int) - (j : Int) * den) (by omega : (0 : Int) < num)
  have := orb_int hn den ip j
  omega

theorem orb_zero {num ip : Nat} (h : ip < num) (den : Nat) : orb num den ip 0 = ip := by
  have := orb_int (num := num) (by omega) den ip 0
  rw [Int.emod_eq_of_lt (by simp) (by simp; omega)] at this
  simp at this
  omega

/-- Two rounds less than `num` apart have different phases. -/
theorem orb_inj {num den : Nat} (hn : 0 < num) (hc : Nat.Coprime num den) {ip i j : Nat}
    (hij : i < j) (hj : j < i + num) : orb num den ip i ≠ orb num den ip j := by
  intro h
  have h' : ((orb num den ip i : Nat) : Int) = orb num den ip j := by rw [h]
  rw [orb_int hn, orb_int hn] at h'
  have h2 := Int.dvd_of_emod_eq_zero (Int.emod_eq_emod_iff_emod_sub_eq_zero.mp h')
  have e : ((ip : Int) - (i : Int) * den) - ((ip : Int) - (j : Int) * den) = (((j - i) * den : Nat) : Int) := by
    push_cast [Nat.le_of_lt hij]; ring
  rw [e] at h2
  have h3 : num ∣ (j - i) * den := by exact_mod_cast h2
  have h4 := Nat.le_of_dvd (by omega) (Nat.Coprime.dvd_of_dvd_mul_right hc h3)
  omega

theorem orb_num {num den : Nat} (hn : 0 < num) {ip : Nat} (hip : ip < num) :
    orb num den ip num = ip := by
  have := orb_int hn den ip num
  have e : (ip : Int) - (num : Int) * den = ip + (num : Int) * (-(den : Int)) := by ring
  rw [e, Int.add_mul_emod_self_left, Int.emod_eq_of_lt (by omega) (by omega)] at this
  omega

/-- Every phase is met. -/
theorem orb_surj {num den : Nat} (hn : 0 < num) (hc : Nat.Coprime num den) (ip p : Nat) (hp : p < num) :
    ∃ j, j < num ∧ orb num den ip j = p := by
  obtain ⟨x, y, hxy⟩ : ∃ x y : Int, (1 : Int) = num * x + den * y :=
    ⟨Nat.gcdA num den, Nat.gcdB num den, by rw [← Nat.gcd_eq_gcd_ab, hc]; rfl⟩
  have hj0 := Int.emod_nonneg (((ip : Int) - p) * y) (by omega : (num : Int) ≠ 0)
  have hj1 := Int.emod_lt_of_pos (((ip : Int) - p) * y) (by omega : (0 : Int) < num)
  refine ⟨((((ip : Int) - p) * y) % num).toNat, by omega, ?_⟩
  have hi : ((((((ip : Int) - p) * y) % num).toNat : Nat) : Int) = (((ip : Int) - p) * y) % num := by omega
  have := orb_int hn den ip ((((ip : Int) - p) * y) % num).toNat
  rw [hi] at this
  have e : ((ip : Int) - (((ip : Int) - p) * y) % num * den) % num = p := by
    have h1 : ((((ip : Int) - p) * y) % num * den) % num = (((ip : Int) - p) * y * den) % num := by
      rw [Int.mul_emod, Int.emod_emod, ← Int.mul_emod]
    rw [Int.sub_emod, h1, ← Int.sub_emod]
    have h2 : (ip : Int) - ((ip : Int) - p) * y * den = p + num * (((ip : Int) - p) * x) := by
      have : ((ip : Int) - p) * y * den = ((ip : Int) - p) * (den * y) := by ring
      rw [this, show (den : Int) * y = 1 - num * x by linarith]
      ring
    rw [h2, Int.add_mul_emod_self_left, Int.emod_eq_of_lt (by omega) (by omega)]
  rw [e] at this
  omega

theorem ceilDiv_le {a b c : Nat} (hb : 0 < b) : ceilDiv a b ≤ c ↔ a ≤ c * b := by
  unfold ceilDiv
  rw [Nat.div_le_iff_le_mul_add_pred hb, Nat.mul_comm]
  omega

theorem lt_ceilDiv {a b c : Nat} (hb : 0 < b) : c < ceilDiv a b ↔ c * b < a := by
  have := ceilDiv_le (a := a) (c := c) hb
  omega

/-- What is in the phase table and the sorted filter. -/
structure TableOK (fl num den : Nat) (table : List PhaseRec) : Prop where
  len : table.length = num
  entry : ∀ p, p < num → ∃ r, table[p]? = some r ∧ r.next = nextPhase num den p ∧
    r.drop = ceilDiv (den - p) num ∧ r.length = ceilDiv (fl - p) num

/-- The sorted filter holds, for each phase, every `num`-th value of the filter. -/
def SortedOK (filter : Nat → α) (fl num : Nat) (table : List PhaseRec) (sorted : List α) : Prop :=
  ∀ p r, table[p]? = some r → r.start + r.length ≤ sorted.length ∧
    ∀ i, i < r.length → i * num + p < fl ∧ sorted[r.start + i]? = some (filter (i * num + p))

theorem sortFilter_spec {num den fl ip : Nat} (hn : 0 < num) (hc : Nat.Coprime num den)
    (hip : ip < num) (filter : Nat → α) : ∀ (fuel j : Nat) (table : List PhaseRec) (sorted : List α),
    j + fuel = num → 0 < fuel → TableOK fl num den table →
    (∀ p r, table[p]? = some r → (∃ i, i < j ∧ orb num den ip i = p) →
      r.start + r.length ≤ sorted.length ∧
      ∀ i, i < r.length → i * num + p < fl ∧ sorted[r.start + i]? = some (filter (i * num + p))) →
    ∃ table' sorted', sortFilter ((List.range fl).map filter) num ip fuel (orb num den ip j) table sorted
        = some (table', sorted') ∧ TableOK fl num den table' ∧ SortedOK filter fl num table' sorted' := by
  intro fuel
  induction fuel with
  | zero => intro j _ _ _ h; omega
  | succ fuel ih =>
    intro j table sorted hj _ hT hS
    have hp := orb_lt hn den ip j
    obtain ⟨r, r1, r2, r3, r4⟩ := hT.entry _ hp
    obtain ⟨c, c1, c2, c3⟩ := component_spec ((List.range fl).map filter) num (orb num den ip j) r.length 0
      (by
        intro k _ hk
        rw [r4, Nat.zero_add, lt_ceilDiv hn] at hk
        simp; omega)
    have hpl : orb num den ip j < table.length := by rw [hT.len]; exact hp
    unfold sortFilter
    simp only [r1, Option.bind_eq_bind, Option.bind_some, setAt]
    rw [if_pos hpl]
    simp only [Option.bind_some, c1]
    have hT' : TableOK fl num den (table.set (orb num den ip j) { r with start := sorted.length }) := by
      refine ⟨by simpa using hT.len, ?_⟩
      intro p hp'
      by_cases hpp : p = orb num den ip j
      · subst hpp
        rw [List.getElem?_set_self hpl]
        exact ⟨_, rfl, r2, r3, r4⟩
      · rw [List.getElem?_set_ne (fun h => hpp h.symm)]
        exact hT.entry p hp'
    have hS' : ∀ p r', (table.set (orb num den ip j) { r with start := sorted.length })[p]? = some r' →
        (∃ i, i < j + 1 ∧ orb num den ip i = p) →
        r'.start + r'.length ≤ (sorted ++ c).length ∧
        ∀ i, i < r'.length → i * num + p < fl ∧ (sorted ++ c)[r'.start + i]? = some (filter (i * num + p)) := by
      intro p r' hr' ⟨i, hi, hip'⟩
      by_cases hpp : p = orb num den ip j
      · subst hpp
        rw [List.getElem?_set_self hpl] at hr'
        cases hr'
        refine ⟨by simp [c2], ?_⟩
        intro k hk
        simp only at hk ⊢
        have hlt : k * num + orb num den ip j < fl := by
          rw [r4, lt_ceilDiv hn] at hk; omega
        refine ⟨hlt, ?_⟩
        rw [List.getElem?_append_right (by omega), Nat.add_sub_cancel_left, c3 k hk, Nat.zero_add]
        simp [hlt]
      · rw [List.getElem?_set_ne (fun h => hpp h.symm)] at hr'
        have hij : i < j := by
          rcases Nat.lt_or_ge i j with h | h
          · exact h
          · have : i = j := by omega
            subst this
            exact absurd hip'.symm hpp
        obtain ⟨a1, a2⟩ := hS p r' hr' ⟨i, hij, hip'⟩
        refine ⟨by simp; omega, ?_⟩
        intro k hk
        obtain ⟨b1, b2⟩ := a2 k hk
        exact ⟨b1, by rw [List.getElem?_append_left (by omega)]; exact b2⟩
    by_cases hend : r.next = ip
    · rw [if_pos hend]
      have hjn : j + 1 = num := by
        by_contra hne
        have hlt : j + 1 < 0 + num := by omega
        apply orb_inj hn hc (ip := ip) (by omega : 0 < j + 1) hlt
        rw [orb_zero hip, ← orb_succ hn, ← r2, hend]
      refine ⟨_, _, rfl, hT', ?_⟩
      intro p r' hr'
      have hpn : p < num := by
        rw [← hT'.len]
        by_contra hge
        rw [List.getElem?_eq_none (by omega)] at hr'
        cases hr'
      obtain ⟨i, hi, hi'⟩ := orb_surj hn hc ip p hpn
      exact hS' p r' hr' ⟨i, by omega, hi'⟩
    · rw [if_neg hend]
      have hjn : j + 1 ≠ num := by
        intro h
        apply hend
        rw [r2, orb_succ hn, h, orb_num hn hip]
      have hnx : r.next = orb num den ip (j + 1) := by rw [r2, orb_succ hn]
      have := ih (j + 1) _ _ (by omega) (by omega) hT' hS'
      rw [← hnx] at this
      exact this

theorem phaseDataFor_spec {num den fl ip : Nat} (hn : 0 < num) (hc : Nat.Coprime num den)
    (hip : ip < num) (fixed : Bool) (filter : Nat → α) (old : List α) :
    ∃ table sorted, phaseDataFor fixed old fl filter ip num den = some (table, sorted) ∧
      TableOK fl num den table ∧ (fixed = true → SortedOK filter fl num table sorted) := by
  obtain ⟨t, t1, t2, t3⟩ := phaseTable_spec hn fl den num 0
  have hT : TableOK fl num den t := by
    refine ⟨t2, ?_⟩
    intro p hp
    rw [t3 p hp]
    simp
  unfold phaseDataFor
  simp only [t1, Option.bind_eq_bind, Option.bind_some]
  cases fixed with
  | false => exact ⟨t, old, rfl, hT, fun h => by cases h⟩
  | true =>
    obtain ⟨t', s', a1, a2, a3⟩ := sortFilter_spec hn hc hip filter num 0 t [] (by omega) hn hT
      (fun p r _ ⟨i, hi, _⟩ => by omega)
    rw [orb_zero hip] at a1
    exact ⟨t', s', by simpa using a1, a2, fun _ => a3⟩

end Verif.BQ
