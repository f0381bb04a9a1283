import Verif.VectorOps
import Mathlib.Algebra.BigOperators.Group.List.Basic
import Mathlib.Tactic.Ring
import Mathlib.Tactic.Abel
namespace Verif.VectorOps
open Verif.MovingMedian (setAt)
open Verif.RingBuffer (load store)
variable {α : Type}

/-- Sample `k` of the interleaving of `src` over `c` channels. -/
def ilv (src : List (List α)) (c k : Nat) : Option α := (src[k % c]?).bind (·[k / c]?)

theorem ilv_frame (src : List (List α)) {c j : Nat} (i : Nat) (hj : j < c) :
    ilv src c (i * c + j) = (src[j]?).bind (·[i]?) := by
  unfold ilv
  have h1 : (i * c + j) % c = j := by
    rw [Nat.mul_comm, Nat.mul_add_mod]; exact Nat.mod_eq_of_lt hj
  have h2 : (i * c + j) / c = i := by
    rw [Nat.mul_comm, Nat.mul_add_div (by omega), Nat.div_eq_of_lt hj]; omega
  rw [h1, h2]

theorem interleaveFrame_spec {src : List (List α)} {c n i : Nat} (hs : src.length = c)
    (hl : ∀ ch ∈ src, n ≤ ch.length) (hi : i < n) : ∀ (rounds j : Nat) (dst : List α),
    j + rounds = c → i * c + c ≤ dst.length → (∀ k, k < i * c + j → dst[k]? = ilv src c k) →
    ∃ dst', interleaveFrame src i rounds j (i * c + j) dst = some (i * c + c, dst') ∧
      dst'.length = dst.length ∧ (∀ k, k < i * c + c → dst'[k]? = ilv src c k) ∧
      ∀ k, i * c + c ≤ k → dst'[k]? = dst[k]? := by
  intro rounds
  induction rounds with
  | zero =>
    intro j dst hj hd h
    have : j = c := by omega
    subst this
    exact ⟨dst, rfl, rfl, h, fun _ _ => rfl⟩
  | succ rounds ih =>
    intro j dst hj hd h
    have hjs : j < src.length := by omega
    have hin : i < src[j].length := Nat.lt_of_lt_of_le hi (hl _ (List.getElem_mem hjs))
    have hsrc := List.getElem?_eq_getElem hjs
    have hx := List.getElem?_eq_getElem hin
    unfold interleaveFrame
    simp only [hsrc, hx, Option.bind_eq_bind, Option.bind_some, setAt]
    rw [if_pos (by omega)]
    simp only [Option.bind_some]
    obtain ⟨d', a1, a2, a3, a4⟩ := ih (j + 1) (dst.set (i * c + j) src[j][i]) (by omega)
      (by simpa using hd) (by
        intro k hk
        by_cases hkj : k = i * c + j
        · subst hkj
          rw [List.getElem?_set_self (by omega), ilv_frame src i (by omega), hsrc]
          simp [hx]
        · rw [List.getElem?_set_ne (by omega)]
          exact h k (by omega))
    refine ⟨d', a1, by simpa using a2, a3, ?_⟩
    intro k hk
    rw [a4 k hk, List.getElem?_set_ne (by omega)]

theorem interleaveLoop_spec {src : List (List α)} {c n : Nat} (hs : src.length = c)
    (hl : ∀ ch ∈ src, n ≤ ch.length) : ∀ (rounds i : Nat) (dst : List α),
    i + rounds = n → n * c ≤ dst.length → (∀ k, k < i * c → dst[k]? = ilv src c k) →
    ∃ dst', interleaveLoop src c rounds i (i * c) dst = some dst' ∧
      dst'.length = dst.length ∧ (∀ k, k < n * c → dst'[k]? = ilv src c k) ∧
      ∀ k, n * c ≤ k → dst'[k]? = dst[k]? := by
  intro rounds
  induction rounds with
  | zero =>
    intro i dst hi hd h
    have : i = n := by omega
    subst this
    exact ⟨dst, rfl, rfl, h, fun _ _ => rfl⟩
  | succ rounds ih =>
    intro i dst hi hd h
    have hm : (i + 1) * c ≤ n * c := Nat.mul_le_mul_right c (by omega)
    rw [Nat.add_mul, Nat.one_mul] at hm
    obtain ⟨d1, a1, a2, a3, a4⟩ := interleaveFrame_spec hs hl (i := i) (by omega) c 0 dst (by omega)
      (by omega) (by simpa using h)
    unfold interleaveLoop
    simp only [Nat.add_zero] at a1
    simp only [a1, Option.bind_eq_bind, Option.bind_some]
    have he : i * c + c = (i + 1) * c := by rw [Nat.add_mul, Nat.one_mul]
    rw [he]
    obtain ⟨d', b1, b2, b3, b4⟩ := ih (i + 1) d1 (by omega) (by omega) (by rw [← he]; exact a3)
    refine ⟨d', b1, by omega, b3, ?_⟩
    intro k hk
    rw [b4 k hk, a4 k (by omega)]

theorem v_interleave_spec {src : List (List α)} {c n : Nat} (hs : src.length = c)
    (hl : ∀ ch ∈ src, n ≤ ch.length) (dst : List α) (hd : n * c ≤ dst.length) :
    ∃ dst', v_interleave dst src c n = some dst' ∧ dst'.length = dst.length ∧
      (∀ k, k < n * c → dst'[k]? = ilv src c k) ∧ ∀ k, n * c ≤ k → dst'[k]? = dst[k]? := by
  unfold v_interleave
  by_cases h2 : c = 2
  · subst h2
    rw [if_pos rfl]
    simpa using interleaveLoop_spec hs hl n 0 dst (by omega) hd (by simp)
  · rw [if_neg h2]
    by_cases h1 : c = 1
    · subst h1
      rw [if_pos rfl]
      have h0 : 0 < src.length := by omega
      have hlen := hl _ (List.getElem_mem h0)
      have hsrc := List.getElem?_eq_getElem h0
      have hlt : ((src[0].drop 0).take n).length = n := by simp; omega
      simp only [hsrc, Option.bind_eq_bind, Option.bind_some, load]
      rw [if_pos (by omega)]
      simp only [Option.bind_some, store]
      rw [if_pos (by omega)]
      refine ⟨_, rfl, by simp; omega, ?_, ?_⟩
      · intro k hk
        have : k % 1 = 0 := Nat.mod_one k
        simp only [ilv, this, hsrc, Nat.div_one, Option.bind_some]
        grind
      · intro k hk
        grind
    · rw [if_neg h1]
      simpa using interleaveLoop_spec hs hl n 0 dst (by omega) hd (by simp)

theorem deinterleaveFrame_spec {src : List α} {c n i : Nat} (hi : i < n) (hsrc : n * c ≤ src.length) :
    ∀ (rounds j : Nat) (dst : List (List α)),
    j + rounds = c → dst.length = c → (∀ ch ∈ dst, n ≤ ch.length) →
    ∃ dst', deinterleaveFrame src i rounds j (i * c + j) dst = some (i * c + c, dst') ∧
      dst'.length = c ∧
      ∀ m (hm : m < dst.length), ∃ ch', dst'[m]? = some ch' ∧ ch'.length = dst[m].length ∧
        (∀ t, t ≠ i ∨ m < j → ch'[t]? = dst[m][t]?) ∧ (j ≤ m → ch'[i]? = src[i * c + m]?) := by
  have hm : (i + 1) * c ≤ n * c := Nat.mul_le_mul_right c (by omega)
  rw [Nat.add_mul, Nat.one_mul] at hm
  intro rounds
  induction rounds with
  | zero =>
    intro j dst hj hd h
    have : j = c := by omega
    subst this
    refine ⟨dst, rfl, hd, ?_⟩
    intro m hm
    exact ⟨dst[m], List.getElem?_eq_getElem hm, rfl, fun _ _ => rfl, fun h => by omega⟩
  | succ rounds ih =>
    intro j dst hj hd h
    have hjd : j < dst.length := by omega
    have hin : i < dst[j].length := Nat.lt_of_lt_of_le hi (h _ (List.getElem_mem hjd))
    have hidx : i * c + j < src.length := by omega
    have hdst := List.getElem?_eq_getElem hjd
    have hx := List.getElem?_eq_getElem hidx
    unfold deinterleaveFrame
    simp only [hdst, hx, Option.bind_eq_bind, Option.bind_some, setAt]
    rw [if_pos hin]
    simp only [Option.bind_some]
    rw [if_pos hjd]
    simp only [Option.bind_some]
    obtain ⟨d', a1, a2, a3⟩ := ih (j + 1) (dst.set j (dst[j].set i src[i * c + j])) (by omega)
      (by simpa using hd) (by
        intro ch hch
        rcases List.mem_or_eq_of_mem_set hch with h' | h'
        · exact h ch h'
        · subst h'; simp; have := h _ (List.getElem_mem hjd); omega)
    refine ⟨d', a1, a2, ?_⟩
    intro m hm
    obtain ⟨ch', b1, b2, b3, b4⟩ := a3 m (by simpa using hm)
    refine ⟨ch', b1, ?_, ?_, ?_⟩
    · rw [b2]
      by_cases hmj : m = j
      · subst hmj; simp
      · simp [List.getElem_set_ne (Ne.symm hmj)]
    · intro t ht
      by_cases hmj : m = j
      · subst hmj
        rw [b3 t (by omega)]
        simp only [List.getElem_set_self]
        rw [List.getElem?_set_ne (by omega)]
      · rw [b3 t (by omega)]
        simp only [List.getElem_set_ne (Ne.symm hmj)]
    · intro hjm
      by_cases hmj : m = j
      · subst hmj
        rw [b3 i (by omega)]
        simp only [List.getElem_set_self]
        rw [List.getElem?_set_self hin, hx]
      · exact b4 (by omega)

theorem deinterleaveLoop_spec {src : List α} {c n : Nat} (hsrc : n * c ≤ src.length) :
    ∀ (rounds i : Nat) (dst : List (List α)), i + rounds = n → dst.length = c →
    (∀ ch ∈ dst, n ≤ ch.length) →
    ∃ dst', deinterleaveLoop src c rounds i (i * c) dst = some dst' ∧ dst'.length = c ∧
      ∀ m (hm : m < dst.length), ∃ ch', dst'[m]? = some ch' ∧ ch'.length = dst[m].length ∧
        (∀ t, t < i ∨ n ≤ t → ch'[t]? = dst[m][t]?) ∧
        (∀ t, i ≤ t → t < n → ch'[t]? = src[t * c + m]?) := by
  intro rounds
  induction rounds with
  | zero =>
    intro i dst hi hd h
    refine ⟨dst, rfl, hd, ?_⟩
    intro m hm
    exact ⟨dst[m], List.getElem?_eq_getElem hm, rfl, fun _ _ => rfl, fun t h1 h2 => by omega⟩
  | succ rounds ih =>
    intro i dst hi hd h
    obtain ⟨d1, a1, a2, a3⟩ := deinterleaveFrame_spec (i := i) (by omega) hsrc c 0 dst (by omega) hd h
    unfold deinterleaveLoop
    simp only [Nat.add_zero] at a1
    simp only [a1, Option.bind_eq_bind, Option.bind_some]
    have he : i * c + c = (i + 1) * c := by rw [Nat.add_mul, Nat.one_mul]
    rw [he]
    have hlen : ∀ ch ∈ d1, n ≤ ch.length := by
      intro ch hch
      obtain ⟨m, hm, rfl⟩ := List.getElem_of_mem hch
      obtain ⟨ch', b1, b2, _⟩ := a3 m (by omega)
      rw [List.getElem?_eq_getElem hm] at b1
      cases b1
      rw [b2]
      exact h _ (List.getElem_mem _)
    obtain ⟨d', c1, c2, c3⟩ := ih (i + 1) d1 (by omega) a2 hlen
    refine ⟨d', c1, c2, ?_⟩
    intro m hm
    obtain ⟨ch1, b1, b2, b3, b4⟩ := a3 m hm
    obtain ⟨ch2, e1, e2, e3, e4⟩ := c3 m (by omega)
    have hd1 : d1[m]'(by omega) = ch1 := by
      rw [List.getElem?_eq_getElem (by omega)] at b1
      exact Option.some.inj b1
    rw [hd1] at e2 e3
    refine ⟨ch2, e1, by omega, ?_, ?_⟩
    · intro t ht
      rw [e3 t (by omega), b3 t (by omega)]
    · intro t h1 h2
      by_cases hti : t = i
      · subst hti
        rw [e3 t (by omega), b4 (by omega)]
      · exact e4 t (by omega) h2

theorem v_deinterleave_spec {src : List α} {c n : Nat} (hsrc : n * c ≤ src.length)
    (dst : List (List α)) (hd : dst.length = c) (h : ∀ ch ∈ dst, n ≤ ch.length) :
    ∃ dst', v_deinterleave dst src c n = some dst' ∧ dst'.length = c ∧
      ∀ m (hm : m < dst.length), ∃ ch', dst'[m]? = some ch' ∧ ch'.length = dst[m].length ∧
        (∀ t, n ≤ t → ch'[t]? = dst[m][t]?) ∧ (∀ t, t < n → ch'[t]? = src[t * c + m]?) := by
  have gen : ∃ dst', deinterleaveLoop src c n 0 0 dst = some dst' ∧ dst'.length = c ∧
      ∀ m (hm : m < dst.length), ∃ ch', dst'[m]? = some ch' ∧ ch'.length = dst[m].length ∧
        (∀ t, n ≤ t → ch'[t]? = dst[m][t]?) ∧ (∀ t, t < n → ch'[t]? = src[t * c + m]?) := by
    obtain ⟨d, a1, a2, a3⟩ := deinterleaveLoop_spec hsrc n 0 dst (by omega) hd h
    refine ⟨d, by simpa using a1, a2, ?_⟩
    intro m hm
    obtain ⟨ch', b1, b2, b3, b4⟩ := a3 m hm
    exact ⟨ch', b1, b2, fun t ht => b3 t (by omega), fun t ht => b4 t (by omega) ht⟩
  unfold v_deinterleave
  by_cases h2 : c = 2
  · subst h2
    rw [if_pos rfl]; exact gen
  · rw [if_neg h2]
    by_cases h1 : c = 1
    · subst h1
      rw [if_pos rfl]
      have h0 : 0 < dst.length := by omega
      have hlen := h _ (List.getElem_mem h0)
      simp only [List.getElem?_eq_getElem h0, Option.bind_eq_bind, Option.bind_some, load]
      rw [if_pos (by omega)]
      have hlt : ((src.drop 0).take n).length = n := by simp; omega
      simp only [Option.bind_some, store]
      rw [if_pos (by omega)]
      simp only [Option.bind_some, setAt]
      rw [if_pos h0]
      refine ⟨_, rfl, by simpa using hd, ?_⟩
      intro m hm
      have : m = 0 := by omega
      subst this
      refine ⟨_, List.getElem?_set_self hm, by simp; omega, ?_, ?_⟩
      · intro t ht; grind
      · intro t ht; grind
    · rw [if_neg h1]; exact gen

theorem fftshiftLoop_spec (hs : Nat) (p0 : List α) (hl : 2 * hs ≤ p0.length) :
    ∀ (rounds i : Nat) (p : List α), i + rounds = hs → p.length = p0.length →
    (∀ k, k < i → p[k]? = p0[k + hs]? ∧ p[k + hs]? = p0[k]?) →
    (∀ k, (i ≤ k ∧ k < hs) ∨ (i + hs ≤ k) → p[k]? = p0[k]?) →
    ∃ p', fftshiftLoop hs rounds i p = some p' ∧ p'.length = p0.length ∧
      (∀ k, k < hs → p'[k]? = p0[k + hs]? ∧ p'[k + hs]? = p0[k]?) ∧
      (∀ k, 2 * hs ≤ k → p'[k]? = p0[k]?) := by
  intro rounds
  induction rounds with
  | zero =>
    intro i p hi hp h1 h2
    have : i = hs := by omega
    subst this
    exact ⟨p, rfl, hp, h1, fun k hk => h2 k (by omega)⟩
  | succ rounds ih =>
    intro i p hi hp h1 h2
    have hi1 : i < p.length := by omega
    have hi2 : i + hs < p.length := by omega
    unfold fftshiftLoop
    simp only [List.getElem?_eq_getElem hi1, List.getElem?_eq_getElem hi2, Option.bind_eq_bind,
      Option.bind_some, setAt]
    rw [if_pos hi1]
    simp only [Option.bind_some]
    rw [if_pos (by simpa using hi2)]
    simp only [Option.bind_some]
    apply ih (i + 1) _ (by omega) (by simpa using hp)
    · intro k hk
      by_cases hki : k = i
      · subst hki
        refine ⟨?_, ?_⟩
        · rw [List.getElem?_set_ne (by omega), List.getElem?_set_self hi1,
            ← List.getElem?_eq_getElem hi2]
          exact h2 _ (by omega)
        · rw [List.getElem?_set_self (by simpa using hi2), ← List.getElem?_eq_getElem hi1]
          exact h2 _ (by omega)
      · rw [List.getElem?_set_ne (by omega), List.getElem?_set_ne (by omega),
          List.getElem?_set_ne (by omega), List.getElem?_set_ne (by omega)]
        exact h1 k (by omega)
    · intro k hk
      rw [List.getElem?_set_ne (by omega), List.getElem?_set_ne (by omega)]
      exact h2 k (by omega)

theorem sum_set [AddCommMonoid α] (l : List α) (j : Nat) (y x : α) (h : l[j]? = some y) :
    (l.set j (y + x)).sum = l.sum + x := by
  induction l generalizing j with
  | nil => simp at h
  | cons a l ih =>
    cases j with
    | zero =>
      simp at h
      subst h
      simp only [List.set_cons_zero, List.sum_cons]
      abel
    | succ j =>
      simp at h
      simp only [List.set_cons_succ, List.sum_cons, ih j h]
      abel

/-- The sum of the elements of `src` numbered `i < n` that land on place `m`. -/
def landing [AddCommMonoid α] (src : List α) (base ts n m : Nat) : α :=
  (((src.take n).zipIdx.filter (fun x => decide ((base + x.2) % ts = m))).map (·.1)).sum

theorem landing_succ [AddCommMonoid α] (src : List α) (base ts n m : Nat) (h : n < src.length) :
    landing src base ts (n + 1) m =
      landing src base ts n m + (if (base + n) % ts = m then src[n] else 0) := by
  unfold landing
  rw [List.take_succ_eq_append_getElem h, List.zipIdx_append, List.filter_append, List.map_append,
    List.sum_append]
  congr 1
  have : (src.take n).length = n := by simp; omega
  simp only [this, Nat.zero_add, List.zipIdx_cons, List.zipIdx_nil, List.filter_cons, List.filter_nil]
  by_cases hc : (base + n) % ts = m
  · simp [hc]
  · simp [hc]

theorem foldLoop_spec [AddCommMonoid α] (src : List α) {ts n base : Nat} (hts : 0 < ts)
    (hn : n ≤ src.length) : ∀ (rounds i : Nat) (target : List α), i + rounds = n →
    ts ≤ target.length →
    (∀ m, m < ts → target[m]? = some (landing src base ts i m)) →
    ∃ t', foldLoop src ts rounds i ((base + i) % ts) target = some t' ∧ t'.length = target.length ∧
      (∀ m, m < ts → t'[m]? = some (landing src base ts n m)) ∧
      (∀ m, ts ≤ m → t'[m]? = target[m]?) ∧
      (t'.take ts).sum = (target.take ts).sum + ((src.take n).drop i).sum := by
  intro rounds
  induction rounds with
  | zero =>
    intro i target hi ht h
    have : i = n := by omega
    subst this
    exact ⟨target, rfl, rfl, h, fun _ _ => rfl, by simp⟩
  | succ rounds ih =>
    intro i target hi ht h
    have hi1 : i < src.length := by omega
    have hj : (base + i) % ts < ts := Nat.mod_lt _ hts
    have hy := h _ hj
    unfold foldLoop
    simp only [List.getElem?_eq_getElem hi1, hy, Option.bind_eq_bind, Option.bind_some, setAt]
    rw [if_pos (by omega)]
    simp only [Option.bind_some]
    have hnext : (if (base + i) % ts + 1 = ts then 0 else (base + i) % ts + 1) = (base + (i + 1)) % ts := by
      rw [← Nat.add_assoc, Nat.add_mod (base + i) 1 ts]
      rcases Nat.lt_or_ge 1 ts with h1 | h1
      · rw [Nat.mod_eq_of_lt h1]
        split
        · rename_i he; rw [he, Nat.mod_self]
        · exact (Nat.mod_eq_of_lt (show (base + i) % ts + 1 < ts by omega)).symm
      · have : ts = 1 := by omega
        subst this
        simp [Nat.mod_one]
    rw [hnext]
    obtain ⟨t', a1, a2, a3, a4, a5⟩ := ih (i + 1)
      (target.set ((base + i) % ts) (landing src base ts i ((base + i) % ts) + src[i])) (by omega)
      (by simpa using ht) (by
        intro m hm
        rw [landing_succ _ _ _ _ _ hi1]
        by_cases hmj : m = (base + i) % ts
        · rw [hmj, List.getElem?_set_self (by omega), if_pos rfl]
        · rw [List.getElem?_set_ne (fun h => hmj h.symm), h m hm, if_neg (fun h => hmj h.symm),
            add_zero])
    refine ⟨t', a1, by simpa using a2, a3, ?_, ?_⟩
    · intro m hm
      rw [a4 m hm, List.getElem?_set_ne (by omega)]
    · have hy' : (target.take ts)[(base + i) % ts]? = some (landing src base ts i ((base + i) % ts)) := by
        rw [List.getElem?_take_of_lt hj]; exact hy
      rw [a5, List.take_set, sum_set _ _ _ _ hy']
      have hd : ((src.take n).drop i) = src[i] :: ((src.take n).drop (i + 1)) := by
        rw [List.drop_eq_getElem_cons (by simp; omega)]
        simp
      rw [hd, List.sum_cons, add_assoc]

theorem raise_spec {ts : Nat} (hts : 0 < ts) : ∀ (fuel : Nat) (j : Int), -(fuel : Int) * ts ≤ j →
    ∃ r : Nat, raise ts fuel j = some r ∧ (0 ≤ j → (r : Int) = j) ∧ (j < 0 → r < ts) ∧
      ∃ k : Nat, (r : Int) = j + k * ts := by
  intro fuel
  induction fuel with
  | zero =>
    intro j hj
    unfold raise
    simp at hj
    rw [if_neg (by omega)]
    exact ⟨j.toNat, rfl, fun _ => by omega, fun _ => by omega, 0, by simp; omega⟩
  | succ fuel ih =>
    intro j hj
    unfold raise
    by_cases hneg : j < 0
    · rw [if_pos hneg]
      have hj' : -(fuel : Int) * ts ≤ j + ts := by
        push_cast at hj
        have e : -((fuel : Int) + 1) * ts = -(fuel : Int) * ts - ts := by ring
        rw [e] at hj; omega
      obtain ⟨r, a1, a2, a3, k, a4⟩ := ih (j + ts) hj'
      refine ⟨r, a1, fun h => by omega, fun _ => ?_, k + 1, by push_cast; rw [a4]; ring⟩
      rcases Int.lt_or_le (j + ts) 0 with h | h
      · exact a3 h
      · have := a2 h; omega
    · rw [if_neg hneg]
      exact ⟨j.toNat, rfl, fun _ => by omega, fun h => by omega, 0, by simp; omega⟩

end Verif.VectorOps
