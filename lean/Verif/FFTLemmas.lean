import Verif.FFT
import Mathlib.Algebra.BigOperators.Intervals
import Mathlib.Algebra.BigOperators.Ring.Finset
/-! # The built-in Fourier transform: loops, tables, butterflies -/
namespace Verif.FFT
open Verif.MovingMedian (setAt)
open Finset

theorem times_inv {S : Type} {n : Nat} {body : Nat → S → Option S} (P : Nat → S → Prop)
    (h : ∀ i < n, ∀ s, P i s → ∃ s', body i s = some s' ∧ P (i + 1) s') {s : S} (h0 : P 0 s) :
    ∃ s', times n body s = some s' ∧ P n s' := by
  induction n with
  | zero => exact ⟨s, rfl, h0⟩
  | succ n ih =>
    obtain ⟨s1, e1, p1⟩ := ih (fun i hi => h i (Nat.lt_succ_of_lt hi))
    obtain ⟨s2, e2, p2⟩ := h n (Nat.lt_succ_self n) s1 p1
    exact ⟨s2, by simp only [times, e1, Option.bind_some, e2], p2⟩

theorem doubling_go {S : Type} {b : Nat} {body : Nat → S → Option S} (P : Nat → S → Prop)
    (h : ∀ r < b, ∀ s, P r s → ∃ s', body (2 ^ (r + 1)) s = some s' ∧ P (r + 1) s') :
    ∀ (fuel r : Nat) (s : S), r ≤ b → b - r < fuel → P r s →
      ∃ s', doubling (2 ^ b) body fuel (2 ^ (r + 1)) s = some s' ∧ P b s' := by
  intro fuel
  induction fuel with
  | zero => intro r s _ hf; omega
  | succ fuel ih =>
    intro r s hr hf hp
    rw [doubling]
    by_cases hb : r < b
    · have : (2 : Nat) ^ (r + 1) ≤ 2 ^ b := Nat.pow_le_pow_right (by omega) hb
      rw [if_pos this]
      obtain ⟨s1, e1, p1⟩ := h r hb s hp
      obtain ⟨s2, e2, p2⟩ := ih (r + 1) s1 hb (by omega) p1
      refine ⟨s2, ?_, p2⟩
      rw [e1, Option.bind_some, ← e2, pow_succ' 2 (r + 1)]
    · have : r = b := by omega
      subst this
      have : ¬ (2 : Nat) ^ (r + 1) ≤ 2 ^ r := by
        have : 0 < 2 ^ r := by positivity
        rw [pow_succ]; omega
      rw [if_neg this]
      exact ⟨s, rfl, hp⟩

theorem doubling_inv {S : Type} {b fuel : Nat} {body : Nat → S → Option S} (P : Nat → S → Prop)
    (h : ∀ r < b, ∀ s, P r s → ∃ s', body (2 ^ (r + 1)) s = some s' ∧ P (r + 1) s')
    (hf : b < fuel) {s : S} (h0 : P 0 s) :
    ∃ s', doubling (2 ^ b) body fuel 2 s = some s' ∧ P b s' :=
  doubling_go P h fuel 0 s (Nat.zero_le _) (by omega) h0

theorem striding_go {S : Type} {cnt step : Nat} {body : Nat → S → Option S} (P : Nat → S → Prop)
    (hs : 0 < step)
    (h : ∀ r < cnt, ∀ s, P r s → ∃ s', body (step * r) s = some s' ∧ P (r + 1) s') :
    ∀ (fuel r : Nat) (s : S), r ≤ cnt → cnt - r < fuel → P r s →
      ∃ s', striding (step * cnt) step body fuel (step * r) s = some s' ∧ P cnt s' := by
  intro fuel
  induction fuel with
  | zero => intro r s _ hf; omega
  | succ fuel ih =>
    intro r s hr hf hp
    rw [striding]
    by_cases hb : r < cnt
    · rw [if_pos (Nat.mul_lt_mul_of_pos_left hb hs)]
      obtain ⟨s1, e1, p1⟩ := h r hb s hp
      obtain ⟨s2, e2, p2⟩ := ih (r + 1) s1 hb (by omega) p1
      refine ⟨s2, ?_, p2⟩
      rw [e1, Option.bind_some, ← e2, Nat.mul_succ]
    · have : r = cnt := by omega
      subst this
      rw [if_neg (lt_irrefl _)]
      exact ⟨s, rfl, hp⟩

theorem striding_inv {S : Type} {cnt step fuel : Nat} {body : Nat → S → Option S}
    (P : Nat → S → Prop) (hs : 0 < step)
    (h : ∀ r < cnt, ∀ s, P r s → ∃ s', body (step * r) s = some s' ∧ P (r + 1) s')
    (hf : cnt < fuel) {s : S} (h0 : P 0 s) :
    ∃ s', striding (step * cnt) step body fuel 0 s = some s' ∧ P cnt s' :=
  striding_go P hs h fuel 0 s (Nat.zero_le _) (by omega) h0

/-! ### Arrays as functions -/

/-- The array holds the values of `f`. -/
def Holds {α : Type} (l : List α) (n : Nat) (f : Nat → α) : Prop :=
  l.length = n ∧ ∀ i < n, l[i]? = some (f i)

theorem Holds.get {α : Type} {l : List α} {n : Nat} {f : Nat → α} (h : Holds l n f) {i : Nat}
    (hi : i < n) : l[i]? = some (f i) := h.2 i hi

theorem Holds.set {α : Type} {l : List α} {n : Nat} {f : Nat → α} (h : Holds l n f) {i : Nat}
    (hi : i < n) (x : α) : ∃ l', setAt l i x = some l' ∧ Holds l' n (Function.update f i x) := by
  refine ⟨l.set i x, ?_, ?_, ?_⟩
  · rw [setAt, if_pos (by rw [h.1]; exact hi)]
  · rw [List.length_set, h.1]
  · intro j hj
    by_cases hij : j = i
    · subst hij
      rw [Function.update_self, List.getElem?_set_self (by rw [h.1]; exact hj)]
    · rw [Function.update_of_ne hij, List.getElem?_set_ne (fun e => hij e.symm), h.2 j hj]

theorem Holds.congr {α : Type} {l : List α} {n : Nat} {f g : Nat → α} (h : Holds l n f)
    (e : ∀ i < n, f i = g i) : Holds l n g :=
  ⟨h.1, fun i hi => by rw [h.2 i hi, e i hi]⟩

theorem Holds.of_length {α : Type} [Inhabited α] (l : List α) :
    Holds l l.length (fun i => l.getD i default) :=
  ⟨rfl, fun i hi => by simp [List.getD, hi]⟩

theorem Holds.ext {α : Type} {l m : List α} {n : Nat} {f : Nat → α} (h : Holds l n f)
    (h' : Holds m n f) : l = m := by
  apply List.ext_getElem?
  intro i
  by_cases hi : i < n
  · rw [h.2 i hi, h'.2 i hi]
  · rw [List.getElem?_eq_none (by rw [h.1]; omega), List.getElem?_eq_none (by rw [h'.1]; omega)]

/-- Two arrays hold the real and imaginary parts of `z`. -/
structure Carries (re im : List ℝ) (n : Nat) (z : Nat → ℂ) : Prop where
  re : Holds re n (fun i => (z i).re)
  im : Holds im n (fun i => (z i).im)

theorem update_re (z : Nat → ℂ) (i : Nat) (x : ℂ) :
    (fun j => (Function.update z i x j).re) = Function.update (fun j => (z j).re) i x.re := by
  funext j
  by_cases h : j = i
  · subst h; simp
  · simp [Function.update_of_ne h]

theorem update_im (z : Nat → ℂ) (i : Nat) (x : ℂ) :
    (fun j => (Function.update z i x j).im) = Function.update (fun j => (z j).im) i x.im := by
  funext j
  by_cases h : j = i
  · subst h; simp
  · simp [Function.update_of_ne h]

theorem Carries.congr {re im : List ℝ} {n : Nat} {z w : Nat → ℂ} (h : Carries re im n z)
    (e : ∀ i < n, z i = w i) : Carries re im n w :=
  ⟨h.re.congr fun i hi => by simp only [e i hi], h.im.congr fun i hi => by simp only [e i hi]⟩

theorem Carries.of_length {re im : List ℝ} {n : Nat} (hr : re.length = n) (hi : im.length = n) :
    ∃ z, Carries re im n z :=
  ⟨fun i => ⟨re.getD i default, im.getD i default⟩,
    by subst hr; exact Holds.of_length re, by subst hi; exact Holds.of_length im⟩

/-! ### Bit reversal -/

theorem shift_or (k m : Nat) : (k <<< 1) ||| (m &&& 1) = 2 * k + m % 2 := by
  have h := Nat.two_pow_add_eq_or_of_lt (i := 1) (b := m % 2) (Nat.mod_lt _ (by omega)) k
  rw [Nat.and_one_is_mod, Nat.shiftLeft_eq, pow_one, Nat.mul_comm k 2]
  rw [pow_one] at h
  exact h.symm

theorem reversal_acc (b : Nat) : ∀ k m : Nat, reversal b k m = k * 2 ^ b + reversal b 0 m := by
  induction b with
  | zero => intro k m; simp [reversal]
  | succ b ih =>
    intro k m
    rw [reversal, reversal, ih, ih ((0 <<< 1) ||| (m &&& 1)), shift_or, shift_or, pow_succ]
    ring

/-- The bits of `m`, `b` of them, in reverse order. -/
def rev (b m : Nat) : Nat := reversal b 0 m

theorem rev_zero (m : Nat) : rev 0 m = 0 := rfl

theorem rev_succ (b m : Nat) : rev (b + 1) m = (m % 2) * 2 ^ b + rev b (m / 2) := by
  rw [rev, reversal, reversal_acc, shift_or, Nat.shiftRight_one, rev]
  simp

theorem rev_lt (b : Nat) : ∀ m, rev b m < 2 ^ b := by
  induction b with
  | zero => intro m; simp [rev_zero]
  | succ b ih =>
    intro m
    have := ih (m / 2)
    rw [rev_succ, pow_succ]
    have : m % 2 = 0 ∨ m % 2 = 1 := Nat.mod_two_eq_zero_or_one m
    rcases this with e | e <;> rw [e] <;> omega

theorem rev_even (b m : Nat) : rev (b + 1) (2 * m) = rev b m := by
  rw [rev_succ, Nat.mul_mod_right, Nat.mul_div_cancel_left _ (by omega)]; simp

theorem rev_odd (b m : Nat) : rev (b + 1) (2 * m + 1) = rev b m + 2 ^ b := by
  rw [rev_succ]
  have h1 : (2 * m + 1) % 2 = 1 := by omega
  have h2 : (2 * m + 1) / 2 = m := by omega
  rw [h1, h2]; omega

theorem rev_top (b : Nat) : ∀ h l, l < 2 ^ b → h < 2 → rev (b + 1) (h * 2 ^ b + l) = 2 * rev b l + h := by
  induction b with
  | zero =>
    intro h l hl hh
    have : l = 0 := by simpa using hl
    subst this
    rw [rev_succ, rev_zero, rev_zero]
    simp
    omega
  | succ b ih =>
    intro h l hl hh
    have e1 : (h * 2 ^ (b + 1) + l) % 2 = l % 2 := by rw [pow_succ, ← Nat.mul_assoc]; omega
    have e2 : (h * 2 ^ (b + 1) + l) / 2 = h * 2 ^ b + l / 2 := by
      rw [pow_succ, ← Nat.mul_assoc]; omega
    rw [rev_succ, e1, e2, ih h (l / 2) (by rw [pow_succ] at hl; omega) hh, rev_succ b l, pow_succ]
    ring

theorem rev_rev (b : Nat) : ∀ m, m < 2 ^ b → rev b (rev b m) = m := by
  induction b with
  | zero =>
    intro m hm
    have : m = 0 := by simpa using hm
    rw [this]; rfl
  | succ b ih =>
    intro m hm
    rw [rev_succ b m, rev_top b _ _ (rev_lt b _) (Nat.mod_lt _ (by omega)),
      ih (m / 2) (by rw [pow_succ] at hm; omega)]
    omega

/-! ### Tables -/

theorem lowestBit_go (b : Nat) : ∀ (fuel i : Nat), i ≤ b → b - i < fuel →
    lowestBit (2 ^ b) fuel i = some b := by
  intro fuel
  induction fuel with
  | zero => intro i _ h; omega
  | succ fuel ih =>
    intro i hi hf
    rw [lowestBit, Nat.one_shiftLeft]
    by_cases e : i = b
    · subst e
      rw [Nat.and_self, if_pos (by positivity)]
    · have : 2 ^ b &&& 2 ^ i = 0 := by
        rw [← Nat.one_shiftLeft i, ← Nat.one_shiftLeft b]
        apply Nat.eq_of_testBit_eq
        intro j
        simp only [Nat.one_shiftLeft, Nat.testBit_and, Nat.testBit_two_pow, Nat.zero_testBit,
          Bool.and_eq_false_iff, decide_eq_false_iff_not]
        omega
      rw [if_neg (by simp [this])]
      exact ih (i + 1) (by omega) (by omega)

theorem lowestBit_pow {b : Nat} (hb : b < 31) : lowestBit (2 ^ b) 31 0 = some b :=
  lowestBit_go b 31 0 (Nat.zero_le _) (by omega)

theorem fillTable_holds (bits n : Nat) :
    ∃ t, fillTable bits n (List.replicate n 0) = some t ∧ Holds t n (rev bits) := by
  have h0 : Holds (List.replicate n 0) n (fun _ => 0) :=
    ⟨List.length_replicate, fun i hi => by simp [hi]⟩
  obtain ⟨t, e, p⟩ := times_inv (n := n)
    (body := fun i table => setAt table i (reversal bits 0 i)) (s := List.replicate n 0)
    (fun c t => Holds t n (fun i => if i < c then rev bits i else 0)) (by
      intro i hi t ht
      obtain ⟨t', e, p⟩ := ht.set hi (reversal bits 0 i)
      refine ⟨t', e, p.congr ?_⟩
      intro j _
      by_cases hj : j = i
      · subst hj; rw [Function.update_self, if_pos (by omega)]; rfl
      · rw [Function.update_of_ne hj]
        by_cases hl : j < i
        · rw [if_pos hl, if_pos (by omega)]
        · rw [if_neg hl, if_neg (by omega)])
    (by simpa using h0)
  exact ⟨t, e, p.congr fun i hi => by rw [if_pos hi]⟩

/-- What `m_sincos` is to hold. -/
noncomputable def sincosAt (ix : Nat) : ℝ :=
  let phase : ℝ := 2 * Real.pi / (2 ^ (ix / 4 + 1) : Nat)
  if ix % 4 = 0 then Real.sin phase
  else if ix % 4 = 1 then Real.sin (2 * phase)
  else if ix % 4 = 2 then Real.cos phase
  else Real.cos (2 * phase)

theorem sincosAt_0 (r : Nat) : sincosAt (4 * r) = Real.sin (2 * Real.pi / (2 ^ (r + 1) : Nat)) := by
  unfold sincosAt
  have h1 : 4 * r / 4 = r := by omega
  have h2 : 4 * r % 4 = 0 := by omega
  simp only [h1, h2, if_true]

theorem sincosAt_1 (r : Nat) :
    sincosAt (4 * r + 1) = Real.sin (2 * (2 * Real.pi / (2 ^ (r + 1) : Nat))) := by
  unfold sincosAt
  have h1 : (4 * r + 1) / 4 = r := by omega
  have h2 : (4 * r + 1) % 4 = 1 := by omega
  simp only [h1, h2]
  norm_num

theorem sincosAt_2 (r : Nat) :
    sincosAt (4 * r + 2) = Real.cos (2 * Real.pi / (2 ^ (r + 1) : Nat)) := by
  unfold sincosAt
  have h1 : (4 * r + 2) / 4 = r := by omega
  have h2 : (4 * r + 2) % 4 = 2 := by omega
  simp only [h1, h2]
  norm_num

theorem sincosAt_3 (r : Nat) :
    sincosAt (4 * r + 3) = Real.cos (2 * (2 * Real.pi / (2 ^ (r + 1) : Nat))) := by
  unfold sincosAt
  have h1 : (4 * r + 3) / 4 = r := by omega
  have h2 : (4 * r + 3) % 4 = 3 := by omega
  simp only [h1, h2]
  norm_num

/-- Where an array already holds what it is to hold, and the rest is untouched. -/
theorem Holds.extend {α : Type} {l : List α} {n c : Nat} {f g : Nat → α} {x : α}
    (h : Holds l n (fun i => if i < c then f i else g i)) (hc : c < n) (hx : x = f c) :
    ∃ l', setAt l c x = some l' ∧ Holds l' n (fun i => if i < c + 1 then f i else g i) := by
  obtain ⟨l', e, p⟩ := h.set hc x
  refine ⟨l', e, p.congr ?_⟩
  intro j _
  by_cases hj : j = c
  · subst hj; rw [Function.update_self, if_pos (by omega), hx]
  · rw [Function.update_of_ne hj]
    by_cases hl : j < c
    · rw [if_pos hl, if_pos (by omega)]
    · rw [if_neg hl, if_neg (by omega)]

theorem holds_zeros {α : Type} (n : Nat) (z : α) : Holds (List.replicate n z) n (fun _ => z) :=
  ⟨List.length_replicate, fun i hi => by simp [hi]⟩

theorem fillSincos_holds :
    ∃ ix t, fillSincos (List.replicate (blockTableSize * 4) 0) = some (ix, t) ∧
      Holds t 64 sincosAt := by
  have hm : maxTabledBlock = 2 ^ 16 := by simp [maxTabledBlock, blockTableSize]
  obtain ⟨⟨ix, t⟩, e, p⟩ := doubling_inv (b := 16) (fuel := 17) (body := sincosEntry)
    (s := (0, List.replicate (blockTableSize * 4) 0))
    (fun r s => s.1 = 4 * r ∧ Holds s.2 64 (fun i => if i < 4 * r then sincosAt i else 0)) (by
      rintro r hr ⟨ix, t⟩ ⟨hix, ht⟩
      simp only at hix ht
      subst hix
      obtain ⟨t1, e1, p1⟩ := ht.extend (by omega) (sincosAt_0 r).symm
      obtain ⟨t2, e2, p2⟩ := p1.extend (by omega) (sincosAt_1 r).symm
      obtain ⟨t3, e3, p3⟩ := p2.extend (by omega) (sincosAt_2 r).symm
      obtain ⟨t4, e4, p4⟩ := p3.extend (by omega) (sincosAt_3 r).symm
      refine ⟨(4 * r + 4, t4), ?_, by simp only; omega, ?_⟩
      · simp only [sincosEntry, e1, e2, e3, e4, Option.bind_eq_bind, Option.bind_some]
      · exact p4)
    (by omega) ⟨rfl, by simpa [blockTableSize] using holds_zeros 64 (0 : ℝ)⟩
  refine ⟨ix, t, ?_, p.2.congr fun i hi => by rw [if_pos (by omega)]⟩
  rw [fillSincos, hm]
  exact e

/-- What `m_sincos_r` is to hold. -/
noncomputable def sincosRAt (half ix : Nat) : ℝ :=
  let phase : ℝ := Real.pi * (((ix / 2 + 1 : Nat) : ℝ) / half + 0.5)
  if ix % 2 = 0 then Real.sin phase else Real.cos phase

theorem sincosRAt_0 (half r : Nat) :
    sincosRAt half (2 * r) = Real.sin (Real.pi * (((r + 1 : Nat) : ℝ) / half + 0.5)) := by
  unfold sincosRAt
  have h1 : 2 * r / 2 = r := by omega
  have h2 : 2 * r % 2 = 0 := by omega
  simp only [h1, h2, if_true]

theorem sincosRAt_1 (half r : Nat) :
    sincosRAt half (2 * r + 1) = Real.cos (Real.pi * (((r + 1 : Nat) : ℝ) / half + 0.5)) := by
  unfold sincosRAt
  have h1 : (2 * r + 1) / 2 = r := by omega
  have h2 : (2 * r + 1) % 2 = 1 := by omega
  simp only [h1, h2]
  norm_num

theorem fillSincosR_holds (half : Nat) :
    ∃ ix t, fillSincosR half (List.replicate half 0) = some (ix, t) ∧
      t.length = half ∧ ∀ i < 2 * (half / 2), t[i]? = some (sincosRAt half i) := by
  obtain ⟨⟨ix, t⟩, e, p⟩ := times_inv (n := half / 2) (body := sincosREntry half)
    (s := (0, List.replicate half 0))
    (fun r s => s.1 = 2 * r ∧ Holds s.2 half (fun i => if i < 2 * r then sincosRAt half i else 0)) (by
      rintro r hr ⟨ix, t⟩ ⟨hix, ht⟩
      simp only at hix ht
      subst hix
      obtain ⟨t1, e1, p1⟩ := ht.extend (by omega) (sincosRAt_0 half r).symm
      obtain ⟨t2, e2, p2⟩ := p1.extend (by omega) (sincosRAt_1 half r).symm
      refine ⟨(2 * r + 2, t2), ?_, by simp only; omega, ?_⟩
      · simp only [sincosREntry, e1, e2, Option.bind_eq_bind, Option.bind_some]
      · exact p2)
    ⟨rfl, by simpa using holds_zeros half (0 : ℝ)⟩
  refine ⟨ix, t, e, p.2.1, fun i hi => ?_⟩
  rw [p.2.2 i (by omega)]
  simp only [hi, if_true]

/-- The object as the constructor leaves it and every call keeps it. -/
structure Valid (bits : Nat) (o : Builtin) : Prop where
  size : o.size = 2 ^ (bits + 1)
  half : o.half = 2 ^ bits
  table : Holds o.table (2 ^ bits) (rev bits)
  sincos : Holds o.sincos 64 sincosAt
  sincosR : o.sincosR.length = 2 ^ bits ∧
    ∀ i < 2 * (2 ^ bits / 2), o.sincosR[i]? = some (sincosRAt (2 ^ bits) i)
  vr : o.vr.length = 2 ^ bits
  vi : o.vi.length = 2 ^ bits
  a : o.a.length = 2 ^ bits + 1
  b : o.b.length = 2 ^ bits + 1
  c : o.c.length = 2 ^ bits + 1
  d : o.d.length = 2 ^ bits + 1

theorem make_valid {b : Nat} (hb : b < 31) : ∃ o, make (2 ^ (b + 1)) = some o ∧ Valid b o := by
  have hh : 2 ^ (b + 1) / 2 = 2 ^ b := by rw [pow_succ]; omega
  obtain ⟨t, et, pt⟩ := fillTable_holds b (2 ^ b)
  obtain ⟨ix, s, es, ps⟩ := fillSincos_holds
  obtain ⟨ix', r, er, pr⟩ := fillSincosR_holds (2 ^ b)
  refine ⟨{
    size := 2 ^ (b + 1), half := 2 ^ b, table := t, sincos := s, sincosR := r,
    vr := List.replicate (2 ^ b) 0, vi := List.replicate (2 ^ b) 0,
    a := List.replicate (2 ^ b + 1) 0, b := List.replicate (2 ^ b + 1) 0,
    c := List.replicate (2 ^ b + 1) 0, d := List.replicate (2 ^ b + 1) 0 }, ?_, ?_⟩
  · simp only [make, hh, lowestBit_pow hb, et, es, er, Option.bind_eq_bind, Option.bind_some]
  · exact ⟨rfl, rfl, pt, ps, pr, by simp, by simp, by simp, by simp, by simp, by simp⟩

/-! ### Butterflies -/

theorem butterfly_step {w : ℝ} {blockEnd n m : Nat} {s : Spin} {z : Nat → ℂ} {u : ℂ}
    (h : Carries s.ro s.io n z) (hb : 0 < blockEnd) (hk : s.j + blockEnd < n)
    (hr : w * s.ar1 - s.ar2 = u.re) (hi : w * s.ai1 - s.ai2 = u.im) :
    ∃ s', butterfly w blockEnd m s = some s' ∧ s'.ar1 = u.re ∧ s'.ar2 = s.ar1 ∧ s'.ai1 = u.im ∧
      s'.ai2 = s.ai1 ∧ s'.j = s.j + 1 ∧
      Carries s'.ro s'.io n (Function.update
        (Function.update z (s.j + blockEnd) (z s.j - u * z (s.j + blockEnd)))
        s.j (z s.j + u * z (s.j + blockEnd))) := by
  have hj : s.j < n := by omega
  have hne : s.j ≠ s.j + blockEnd := by omega
  obtain ⟨ro1, er1, pr1⟩ := h.re.set hk ((z s.j).re -
    ((w * s.ar1 - s.ar2) * (z (s.j + blockEnd)).re - (w * s.ai1 - s.ai2) * (z (s.j + blockEnd)).im))
  obtain ⟨io1, ei1, pi1⟩ := h.im.set hk ((z s.j).im -
    ((w * s.ar1 - s.ar2) * (z (s.j + blockEnd)).im + (w * s.ai1 - s.ai2) * (z (s.j + blockEnd)).re))
  obtain ⟨ro2, er2, pr2⟩ := pr1.set hj ((z s.j).re +
    ((w * s.ar1 - s.ar2) * (z (s.j + blockEnd)).re - (w * s.ai1 - s.ai2) * (z (s.j + blockEnd)).im))
  obtain ⟨io2, ei2, pi2⟩ := pi1.set hj ((z s.j).im +
    ((w * s.ar1 - s.ar2) * (z (s.j + blockEnd)).im + (w * s.ai1 - s.ai2) * (z (s.j + blockEnd)).re))
  have gr := pr1.get hj
  have gi := pi1.get hj
  rw [Function.update_of_ne hne] at gr gi
  refine ⟨{
    ar1 := w * s.ar1 - s.ar2, ar2 := s.ar1, ai1 := w * s.ai1 - s.ai2, ai2 := s.ai1,
    j := s.j + 1, ro := ro2, io := io2 }, ?_, ?_⟩
  · simp only [butterfly, h.re.get hk, h.im.get hk, h.re.get hj, h.im.get hj, er1, ei1, gr, gi,
      er2, ei2, Option.bind_eq_bind, Option.bind_some]
  · refine ⟨hr, rfl, hi, rfl, rfl, ?_, ?_⟩
    · rw [update_re, update_re]
      simp only [Complex.sub_re, Complex.add_re, Complex.mul_re]
      rw [← hr, ← hi]
      exact pr2
    · rw [update_im, update_im]
      simp only [Complex.sub_im, Complex.add_im, Complex.mul_im]
      rw [← hr, ← hi]
      exact pi2

/-- The factor of a butterfly: `e` to the `m`. -/
noncomputable def turn (f : ℝ) (size m : Nat) : ℂ :=
  ⟨Real.cos (m * (2 * Real.pi / size)), -f * Real.sin (m * (2 * Real.pi / size))⟩

theorem cos_next (θ x : ℝ) : 2 * Real.cos θ * Real.cos (x - θ) - Real.cos (x - 2 * θ) = Real.cos x := by
  rw [Real.cos_sub, Real.cos_sub, Real.cos_two_mul, Real.sin_two_mul]
  ring

theorem sin_next (θ x : ℝ) : 2 * Real.cos θ * Real.sin (x - θ) - Real.sin (x - 2 * θ) = Real.sin x := by
  rw [Real.sin_sub, Real.sin_sub, Real.cos_two_mul, Real.sin_two_mul]
  ring

/-- The array after `m` butterflies of the block at `i`. -/
noncomputable def partBlock (u : Nat → ℂ) (B i m : Nat) (z : Nat → ℂ) (p : Nat) : ℂ :=
  if i ≤ p ∧ p < i + m then z p + u (p - i) * z (p + B)
  else if i + B ≤ p ∧ p < i + B + m then z (p - B) - u (p - B - i) * z p
  else z p

theorem partBlock_zero (u : Nat → ℂ) (B i : Nat) (z : Nat → ℂ) : partBlock u B i 0 z = z := by
  funext p
  rw [partBlock, if_neg (by omega), if_neg (by omega)]

theorem partBlock_succ {u : Nat → ℂ} {B i m : Nat} {z : Nat → ℂ} (hm : m < B) :
    Function.update (Function.update (partBlock u B i m z) (i + m + B)
      (partBlock u B i m z (i + m) - u m * partBlock u B i m z (i + m + B)))
      (i + m) (partBlock u B i m z (i + m) + u m * partBlock u B i m z (i + m + B))
      = partBlock u B i (m + 1) z := by
  have h1 : partBlock u B i m z (i + m) = z (i + m) := by
    rw [partBlock, if_neg (by omega), if_neg (by omega)]
  have h2 : partBlock u B i m z (i + m + B) = z (i + m + B) := by
    rw [partBlock, if_neg (by omega), if_neg (by omega)]
  rw [h1, h2]
  funext p
  by_cases e1 : p = i + m
  · subst e1
    rw [Function.update_self, partBlock, if_pos (by omega), Nat.add_sub_cancel_left]
  · rw [Function.update_of_ne e1]
    by_cases e2 : p = i + m + B
    · subst e2
      rw [Function.update_self, partBlock, if_neg (by omega), if_pos (by omega)]
      have a1 : i + m + B - B = i + m := by omega
      have a2 : i + m - i = m := by omega
      rw [a1, a2]
    · rw [Function.update_of_ne e2, partBlock, partBlock]
      by_cases c1 : i ≤ p ∧ p < i + m
      · rw [if_pos c1, if_pos (by omega)]
      · by_cases c2 : i + B ≤ p ∧ p < i + B + m
        · rw [if_neg c1, if_pos c2, if_neg (by omega), if_pos (by omega)]
        · rw [if_neg c1, if_neg c2, if_neg (by omega), if_neg (by omega)]

theorem block_carries {f : ℝ} {size B i n : Nat} {s : List ℝ × List ℝ} {z : Nat → ℂ}
    (h : Carries s.1 s.2 n z) (hn : i + 2 * B ≤ n) :
    ∃ s', block (Real.cos (2 * Real.pi / size)) (Real.cos (2 * (2 * Real.pi / size)))
        (f * Real.sin (2 * Real.pi / size)) (f * Real.sin (2 * (2 * Real.pi / size))) B i s
        = some s' ∧
      Carries s'.1 s'.2 n (partBlock (turn f size) B i B z) := by
  set θ : ℝ := 2 * Real.pi / size with hθ
  obtain ⟨t, e, hj, h1, h2, h3, h4, hc⟩ := times_inv (n := B) (body := butterfly (2 * Real.cos θ) B)
    (s := { ar1 := Real.cos θ, ar2 := Real.cos (2 * θ), ai1 := f * Real.sin θ,
            ai2 := f * Real.sin (2 * θ), j := i, ro := s.1, io := s.2 })
    (fun m t => t.j = i + m ∧ t.ar1 = Real.cos (m * θ - θ) ∧ t.ar2 = Real.cos (m * θ - 2 * θ) ∧
      t.ai1 = -f * Real.sin (m * θ - θ) ∧ t.ai2 = -f * Real.sin (m * θ - 2 * θ) ∧
      Carries t.ro t.io n (partBlock (turn f size) B i m z)) (by
      rintro m hm t ⟨hj, h1, h2, h3, h4, hc⟩
      obtain ⟨t', e, g1, g2, g3, g4, gj, gc⟩ := butterfly_step (w := 2 * Real.cos θ) (m := m)
        (blockEnd := B) (u := turn f size m) hc (by omega) (by rw [hj]; omega)
        (by rw [h1, h2, cos_next]; rfl)
        (by
          rw [h3, h4]
          have := sin_next θ (m * θ)
          rw [show (turn f size m).im = -f * Real.sin (m * θ) from rfl, ← this]
          ring)
      refine ⟨t', e, by rw [gj, hj]; omega, ?_, ?_, ?_, ?_, ?_⟩
      · rw [g1, show (turn f size m).re = Real.cos (m * θ) from rfl]
        congr 1; push_cast; ring
      · rw [g2, h1]
        congr 1; push_cast; ring
      · rw [g3, show (turn f size m).im = -f * Real.sin (m * θ) from rfl]
        congr 2; push_cast; ring
      · rw [g4, h3]
        congr 2; push_cast; ring
      · rw [← partBlock_succ hm]
        rw [hj] at gc
        exact gc)
    (by
      refine ⟨rfl, ?_, ?_, ?_, ?_, ?_⟩
      · simp
      · simp
      · simp
      · simp
      · rw [partBlock_zero]; exact h)
  exact ⟨(t.ro, t.io), by rw [block, e]; rfl, hc⟩

/-- The array after all blocks of one size. -/
noncomputable def wholePass (u : Nat → ℂ) (B : Nat) (z : Nat → ℂ) (p : Nat) : ℂ :=
  if p % (2 * B) < B then z p + u (p % (2 * B)) * z (p + B)
  else z (p - B) - u (p % (2 * B) - B) * z p

theorem partBlock_pass {u : Nat → ℂ} {B r : Nat} {z : Nat → ℂ} (hB : 0 < B) (p : Nat) :
    partBlock u B (2 * B * r) B (fun p => if p < 2 * B * r then wholePass u B z p else z p) p =
      if p < 2 * B * (r + 1) then wholePass u B z p else z p := by
  rw [partBlock, Nat.mul_succ]
  generalize hs : 2 * B * r = s
  by_cases h1 : p < s
  · rw [if_neg (by omega), if_neg (by omega), if_pos h1, if_pos (by omega)]
  · by_cases h2 : p < s + 2 * B
    · have hm : p % (2 * B) = p - s := by
        rw [← hs]
        have : p = 2 * B * r + (p - 2 * B * r) := by omega
        rw [this, Nat.mul_add_mod, Nat.mod_eq_of_lt (by omega)]
        omega
      rw [if_pos h2, wholePass, hm]
      by_cases h3 : p - s < B
      · rw [if_pos (by omega), if_pos h3, if_neg h1, if_neg (by omega)]
      · rw [if_neg (by omega), if_pos (by omega), if_neg h3, if_neg (by omega), if_neg h1]
        have : p - B - s = p - s - B := by omega
        rw [this]
    · rw [if_neg (by omega), if_neg (by omega), if_neg h1, if_neg h2]

theorem factors_spec {sincos : List ℝ} (h : Holds sincos 64 sincosAt) (f : ℝ) (r : Nat) (ix : Nat)
    (hix : r ≤ 16 → ix = 4 * r) :
    ∃ ix', factors sincos f (2 ^ (r + 1)) ix =
        some (f * Real.sin (2 * Real.pi / (2 ^ (r + 1) : Nat)),
          f * Real.sin (2 * (2 * Real.pi / (2 ^ (r + 1) : Nat))),
          Real.cos (2 * Real.pi / (2 ^ (r + 1) : Nat)),
          Real.cos (2 * (2 * Real.pi / (2 ^ (r + 1) : Nat))), ix') ∧
      (r + 1 ≤ 16 → ix' = 4 * (r + 1)) := by
  have hm : maxTabledBlock = 2 ^ 16 := by simp [maxTabledBlock, blockTableSize]
  rw [factors, hm]
  by_cases hr : r + 1 ≤ 16
  · rw [if_pos (Nat.pow_le_pow_right (by omega) hr), hix (by omega), h.get (by omega),
      h.get (by omega), h.get (by omega), h.get (by omega), sincosAt_0, sincosAt_1, sincosAt_2,
      sincosAt_3]
    exact ⟨4 * r + 4, rfl, fun _ => by omega⟩
  · rw [if_neg]
    · exact ⟨ix, rfl, fun h => absurd h hr⟩
    · have : (2 : Nat) ^ 16 < 2 ^ (r + 1) := Nat.pow_lt_pow_right (by omega) (by omega)
      omega

theorem pass_carries {sincos : List ℝ} (hs : Holds sincos 64 sincosAt) {f : ℝ} {b r n : Nat}
    (hr : r < b) (hN : 2 ^ b ≤ n) {s : Pass} {z : Nat → ℂ} (hix : r ≤ 16 → s.ix = 4 * r)
    (he : s.blockEnd = 2 ^ r) (h : Carries s.ro s.io n z) :
    ∃ s', pass sincos f (2 ^ b) (2 ^ (r + 1)) s = some s' ∧
      (r + 1 ≤ 16 → s'.ix = 4 * (r + 1)) ∧ s'.blockEnd = 2 ^ (r + 1) ∧
      Carries s'.ro s'.io n (fun p =>
        if p < 2 ^ b then wholePass (turn f (2 ^ (r + 1))) (2 ^ r) z p else z p) := by
  obtain ⟨ix', ef, hix'⟩ := factors_spec hs f r s.ix hix
  have hpos : 0 < 2 ^ r := by positivity
  have h2 : 2 ^ (r + 1) = 2 * 2 ^ r := pow_succ' 2 r
  have hn : (2 : Nat) ^ b = 2 ^ (r + 1) * 2 ^ (b - (r + 1)) := by
    rw [← pow_add]; congr 1; omega
  obtain ⟨⟨ro, io⟩, e, hc⟩ := striding_inv (cnt := 2 ^ (b - (r + 1))) (step := 2 ^ (r + 1))
    (fuel := 2 ^ b + 1) (s := (s.ro, s.io))
    (body := block (Real.cos (2 * Real.pi / (2 ^ (r + 1) : Nat)))
      (Real.cos (2 * (2 * Real.pi / (2 ^ (r + 1) : Nat))))
      (f * Real.sin (2 * Real.pi / (2 ^ (r + 1) : Nat)))
      (f * Real.sin (2 * (2 * Real.pi / (2 ^ (r + 1) : Nat)))) s.blockEnd)
    (fun k t => Carries t.1 t.2 n (fun p => if p < 2 * 2 ^ r * k then
      wholePass (turn f (2 ^ (r + 1))) (2 ^ r) z p else z p))
    (by positivity)
    (by
      intro k hk t ht
      rw [he]
      have hle : 2 ^ (r + 1) * k + 2 * 2 ^ r ≤ 2 ^ b := by
        rw [hn, ← h2, ← Nat.mul_succ]
        exact Nat.mul_le_mul_left _ hk
      obtain ⟨t', e, hc⟩ := block_carries (f := f) (size := 2 ^ (r + 1)) (B := 2 ^ r)
        (i := 2 ^ (r + 1) * k) ht (hle.trans hN)
      refine ⟨t', e, hc.congr ?_⟩
      intro p _
      rw [h2]
      exact partBlock_pass hpos p)
    (by
      have : 2 ^ (b - (r + 1)) ≤ 2 ^ b := Nat.pow_le_pow_right (by omega) (by omega)
      omega)
    (h.congr fun p _ => by simp)
  refine ⟨{ ix := ix', blockEnd := 2 ^ (r + 1), ro := ro, io := io }, ?_, hix', rfl, ?_⟩
  · rw [← hn] at e
    simp only [pass, ef, Option.bind_eq_bind, Option.bind_some, e]
  · refine hc.congr fun p _ => ?_
    have : 2 * 2 ^ r * 2 ^ (b - (r + 1)) = 2 ^ b := by rw [← h2, ← hn]
    simp only [this]

/-! ### The sums -/

/-- `e^(-2πi f / 2^r)`. -/
noncomputable def unit (f : ℝ) (r : Nat) : ℂ := turn f (2 ^ r) 1

theorem turn_add {f : ℝ} (hf : f * f = 1) (size m k : Nat) :
    turn f size (m + k) = turn f size m * turn f size k := by
  apply Complex.ext
  · simp only [turn, Complex.mul_re]
    push_cast
    rw [add_mul, Real.cos_add]
    linear_combination (Real.sin (m * (2 * Real.pi / size)) * Real.sin (k * (2 * Real.pi / size))) * hf
  · simp only [turn, Complex.mul_im]
    push_cast
    rw [add_mul, Real.sin_add]
    ring

theorem turn_zero (f : ℝ) (size : Nat) : turn f size 0 = 1 := by
  apply Complex.ext <;> simp [turn]

theorem turn_pow {f : ℝ} (hf : f * f = 1) (size m k : Nat) :
    turn f size (m * k) = turn f size m ^ k := by
  induction k with
  | zero => rw [Nat.mul_zero, turn_zero, pow_zero]
  | succ k ih => rw [Nat.mul_succ, turn_add hf, ih, pow_succ]

theorem turn_half {f : ℝ} {size : Nat} (hs : 0 < size) : turn f (2 * size) size = -1 := by
  have h : (size : ℝ) * (2 * Real.pi / (2 * size : Nat)) = Real.pi := by
    have : (size : ℝ) ≠ 0 := by positivity
    push_cast
    field_simp
  apply Complex.ext <;> simp only [turn, h] <;> simp

theorem turn_double {f : ℝ} {size : Nat} (m : Nat) :
    turn f (2 * size) (2 * m) = turn f size m := by
  have h : ((2 * m : Nat) : ℝ) * (2 * Real.pi / (2 * size : Nat)) = m * (2 * Real.pi / size) := by
    push_cast
    rw [mul_comm (2 : ℝ) (m : ℝ), mul_assoc]
    congr 1
    rw [mul_div_assoc', mul_div_mul_left _ _ (by norm_num)]
  apply Complex.ext <;> simp only [turn, h]

theorem sum_even_odd (g : Nat → ℂ) (n : Nat) :
    ∑ q ∈ range (2 * n), g q = ∑ q ∈ range n, g (2 * q) + ∑ q ∈ range n, g (2 * q + 1) := by
  induction n with
  | zero => simp
  | succ n ih =>
    rw [Nat.mul_succ, sum_range_succ, sum_range_succ, ih, sum_range_succ, sum_range_succ]
    ring

/-- The array after the passes for block sizes up to `2^r`. -/
noncomputable def stage (f : ℝ) (b : Nat) (x : Nat → ℂ) (r p : Nat) : ℂ :=
  ∑ q ∈ range (2 ^ r), x (rev (b - r) (p / 2 ^ r) + q * 2 ^ (b - r)) *
    turn f (2 ^ r) ((p % 2 ^ r) * q)

theorem stage_succ {f : ℝ} (hf : f * f = 1) {b r : Nat} (hr : r < b) (x : Nat → ℂ) (p : Nat) :
    wholePass (turn f (2 ^ (r + 1))) (2 ^ r) (stage f b x r) p = stage f b x (r + 1) p := by
  obtain ⟨L, hL⟩ : ∃ L, b = L + (r + 1) := ⟨b - (r + 1), by omega⟩
  have hL1 : b - r = L + 1 := by omega
  have hL2 : b - (r + 1) = L := by omega
  have hB : 0 < 2 ^ r := by positivity
  have h2 : (2 : Nat) ^ (r + 1) = 2 * 2 ^ r := pow_succ' 2 r
  rw [wholePass, stage, stage, stage, stage, hL1, hL2, h2, sum_even_odd]
  generalize 2 ^ r = B at hB ⊢
  have hmod : p % (2 * B) < 2 * B := Nat.mod_lt _ (by omega)
  have hp : p = 2 * B * (p / (2 * B)) + p % (2 * B) := (Nat.div_add_mod p (2 * B)).symm
  generalize hc : p / (2 * B) = c at hp ⊢
  generalize hm : p % (2 * B) = m at hp hmod ⊢
  have hp' : p = B * (2 * c) + m := by rw [hp]; ring
  have ev : ∀ q, rev (L + 1) (2 * c) + q * 2 ^ (L + 1) = rev L c + 2 * q * 2 ^ L := by
    intro q; rw [rev_even, pow_succ]; ring
  have od : ∀ q, rev (L + 1) (2 * c + 1) + q * 2 ^ (L + 1) = rev L c + (2 * q + 1) * 2 ^ L := by
    intro q; rw [rev_odd, pow_succ]; ring
  by_cases hlt : m < B
  · rw [if_pos hlt]
    have d1 : p / B = 2 * c := by
      rw [hp', Nat.mul_add_div hB, Nat.div_eq_of_lt hlt, Nat.add_zero]
    have d2 : p % B = m := by rw [hp', Nat.mul_add_mod, Nat.mod_eq_of_lt hlt]
    have d3 : (p + B) / B = 2 * c + 1 := by rw [Nat.add_div_right _ hB, d1]
    have d4 : (p + B) % B = m := by rw [Nat.add_mod_right, d2]
    rw [d1, d2, d3, d4, mul_sum]
    congr 1
    · apply sum_congr rfl
      intro q _
      rw [ev, ← turn_double (size := B)]
      congr 2; ring
    · apply sum_congr rfl
      intro q _
      rw [od, ← turn_double (size := B) (m * q)]
      have : m * (2 * q + 1) = m + 2 * (m * q) := by ring
      rw [this, turn_add hf]
      ring
  · rw [if_neg hlt]
    obtain ⟨k, hk⟩ : ∃ k, m = k + B := ⟨m - B, by omega⟩
    subst hk
    have hkB : k < B := by omega
    have hp2 : p = B * (2 * c + 1) + k := by rw [hp']; ring
    have hp3 : p - B = B * (2 * c) + k := by rw [hp', ]; omega
    have d1 : (p - B) / B = 2 * c := by
      rw [hp3, Nat.mul_add_div hB, Nat.div_eq_of_lt hkB, Nat.add_zero]
    have d2 : (p - B) % B = k := by rw [hp3, Nat.mul_add_mod, Nat.mod_eq_of_lt hkB]
    have d3 : p / B = 2 * c + 1 := by
      rw [hp2, Nat.mul_add_div hB, Nat.div_eq_of_lt hkB, Nat.add_zero]
    have d4 : p % B = k := by rw [hp2, Nat.mul_add_mod, Nat.mod_eq_of_lt hkB]
    rw [d1, d2, d3, d4, mul_sum, Nat.add_sub_cancel, sub_eq_add_neg, ← sum_neg_distrib]
    congr 1
    · apply sum_congr rfl
      intro q _
      rw [ev, ← turn_double (size := B)]
      have : (k + B) * (2 * q) = 2 * (k * q) + B * (2 * q) := by ring
      rw [this, turn_add hf, turn_pow hf _ B, turn_half hB, pow_mul]
      simp
    · apply sum_congr rfl
      intro q _
      rw [od, ← turn_double (size := B) (k * q)]
      have : (k + B) * (2 * q + 1) = k + 2 * (k * q) + B * (2 * q + 1) := by ring
      rw [this, turn_add hf, turn_add hf, turn_pow hf _ B, turn_half hB, pow_succ, pow_mul]
      simp
      ring

theorem scatter_carries {b : Nat} {table : List Nat} {ri ii : List ℝ} {s : List ℝ × List ℝ}
    {x z : Nat → ℂ} {n : Nat} (ht : Holds table (2 ^ b) (rev b))
    (hr : ∀ i < 2 ^ b, ri[i]? = some (x i).re) (hi : ∀ i < 2 ^ b, ii[i]? = some (x i).im)
    (hn : 2 ^ b ≤ n) (hs : Carries s.1 s.2 n z) :
    ∃ s', times (2 ^ b) (scatterOne table ri ii) s = some s' ∧
      Carries s'.1 s'.2 n (fun p => if p < 2 ^ b then x (rev b p) else z p) := by
  obtain ⟨s', e, hc⟩ := times_inv (n := 2 ^ b) (body := scatterOne table ri ii) (s := s)
    (fun c t => Carries t.1 t.2 n (fun p => if p < 2 ^ b ∧ rev b p < c then x (rev b p) else z p)) (by
      intro i hib t hc
      have hlt : rev b i < n := lt_of_lt_of_le (rev_lt b i) hn
      obtain ⟨ro, er, pr⟩ := hc.re.set hlt (x i).re
      obtain ⟨io, ei, pi⟩ := hc.im.set hlt (x i).im
      refine ⟨(ro, io), ?_, ?_⟩
      · simp only [scatterOne, ht.get hib, hr i hib, hi i hib, er, ei, Option.bind_eq_bind,
          Option.bind_some]
      · have hcc : Carries ro io n (Function.update
            (fun p => if p < 2 ^ b ∧ rev b p < i then x (rev b p) else z p) (rev b i) (x i)) :=
          ⟨by rw [update_re]; exact pr, by rw [update_im]; exact pi⟩
        refine hcc.congr ?_
        intro p _
        by_cases e : p = rev b i
        · subst e
          rw [Function.update_self, rev_rev b i hib, if_pos ⟨rev_lt b i, by omega⟩]
        · rw [Function.update_of_ne e]
          by_cases hp : p < 2 ^ b
          · have : rev b p ≠ i := fun h => e (by rw [← h, rev_rev b p hp])
            by_cases hl : rev b p < i
            · rw [if_pos ⟨hp, hl⟩, if_pos ⟨hp, by omega⟩]
            · rw [if_neg (fun h => hl h.2), if_neg (fun h => by omega)]
          · rw [if_neg (fun h => hp h.1), if_neg (fun h => hp h.1)])
    (hs.congr fun p _ => by simp)
  refine ⟨s', e, hc.congr fun p _ => ?_⟩
  by_cases hp : p < 2 ^ b
  · rw [if_pos ⟨hp, rev_lt b p⟩, if_pos hp]
  · rw [if_neg (fun h => hp h.1), if_neg hp]

theorem wholePass_congr {u : Nat → ℂ} {b r : Nat} {z w : Nat → ℂ} (hr : r < b)
    (h : ∀ p < 2 ^ b, z p = w p) {p : Nat} (hp : p < 2 ^ b) :
    wholePass u (2 ^ r) z p = wholePass u (2 ^ r) w p := by
  have hpos : 0 < 2 ^ r := by positivity
  have hn : (2 : Nat) ^ b = 2 * 2 ^ r * 2 ^ (b - (r + 1)) := by
    rw [← pow_succ' 2 r, ← pow_add]; congr 1; omega
  rw [wholePass, wholePass]
  by_cases hm : p % (2 * 2 ^ r) < 2 ^ r
  · have hc : p / (2 * 2 ^ r) < 2 ^ (b - (r + 1)) := by
      rw [Nat.div_lt_iff_lt_mul (by omega), Nat.mul_comm, ← hn]
      exact hp
    have hq : p + 2 ^ r < 2 ^ b := by
      have e := Nat.div_add_mod p (2 * 2 ^ r)
      have : 2 * 2 ^ r * (p / (2 * 2 ^ r)) + 2 * 2 ^ r ≤ 2 ^ b := by
        rw [hn, ← Nat.mul_succ]
        exact Nat.mul_le_mul_left _ hc
      omega
    rw [if_pos hm, if_pos hm, h p hp, h _ hq]
  · rw [if_neg hm, if_neg hm, h p hp, h _ (by omega)]

/-- The sum that `transformComplex` computes. -/
noncomputable def sumAt (f : ℝ) (n : Nat) (x : Nat → ℂ) (p : Nat) : ℂ :=
  ∑ q ∈ range n, x q * turn f n (p * q)

theorem transformComplex_carries {b n : Nat} {o : Builtin} {ri ii ro io : List ℝ} {inv : Bool}
    {x : Nat → ℂ} (ho : Valid b o)
    (hr : ∀ i < 2 ^ b, ri[i]? = some (x i).re) (hi : ∀ i < 2 ^ b, ii[i]? = some (x i).im)
    (hn : 2 ^ b ≤ n) (hro : ro.length = n) (hio : io.length = n) :
    ∃ ro' io' z, transformComplex o ri ii ro io inv = some (ro', io') ∧ Carries ro' io' n z ∧
      ∀ p < 2 ^ b, z p = sumAt (if inv then -1 else 1) (2 ^ b) x p := by
  obtain ⟨z0, hz0⟩ := Carries.of_length hro hio
  obtain ⟨⟨ro1, io1⟩, e1, c1⟩ := scatter_carries (s := (ro, io)) ho.table hr hi hn hz0
  have hf : (if inv then (-1 : ℝ) else 1) * (if inv then -1 else 1) = 1 := by
    split <;> norm_num
  generalize hfe : (if inv then (-1 : ℝ) else 1) = f at hf
  obtain ⟨s, e2, _, _, z, c2, hz⟩ := doubling_inv (b := b) (fuel := 2 ^ b + 1)
    (body := pass o.sincos f (2 ^ b))
    (s := { ix := 0, blockEnd := 1, ro := ro1, io := io1 })
    (fun r s => (r ≤ 16 → s.ix = 4 * r) ∧ s.blockEnd = 2 ^ r ∧
      ∃ z, Carries s.ro s.io n z ∧ ∀ p < 2 ^ b, z p = stage f b x r p) (by
      rintro r hr s ⟨hix, he, z, hc, hz⟩
      obtain ⟨s', e, hix', he', hc'⟩ := pass_carries (f := f) ho.sincos hr hn hix he hc
      refine ⟨s', e, hix', he', _, hc', ?_⟩
      intro p hp
      simp only [hp, if_true]
      rw [wholePass_congr hr hz hp, stage_succ hf hr])
    (Nat.lt_succ_of_lt Nat.lt_two_pow_self)
    ⟨fun _ => rfl, rfl, _, c1, fun p hp => by
      simp only [hp, if_true]
      rw [stage]
      simp [Nat.mod_one, turn_zero]⟩
  refine ⟨s.ro, s.io, z, ?_, c2, ?_⟩
  · simp only [transformComplex, ho.half, e1, Option.bind_eq_bind, Option.bind_some, hfe, e2]
  · intro p hp
    rw [hz p hp, stage, sumAt]
    apply sum_congr rfl
    intro q _
    rw [Nat.div_eq_of_lt hp, Nat.mod_eq_of_lt hp, Nat.sub_self, rev_zero]
    simp

end Verif.FFT
