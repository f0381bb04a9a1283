import Mathlib.Order.Basic
import Mathlib.Tactic.Linarith
import Mathlib.Data.Rat.Floor
import Verif.MovingMedianSpec
import Verif.SingleThreadRingBufferProps
namespace Verif.MovingMedian
open Verif.RingBuffer (RB Inv contents load store)
variable {α : Type}

theorem setAt_mid (pre : List α) (x v : α) (rest : List α) :
    setAt (pre ++ x :: rest) pre.length v = some (pre ++ v :: rest) := by
  simp [setAt]

theorem takeWhile_sat (p : α → Bool) : ∀ (l : List α), ∀ a ∈ l.takeWhile p, p a = true := by
  intro l
  induction l with
  | nil => simp
  | cons y l ih =>
    intro a ha
    by_cases hy : p y
    · simp only [hy, List.takeWhile_cons_of_pos, List.mem_cons] at ha
      rcases ha with h | h
      · rw [h]; exact hy
      · exact ih a h
    · simp [hy] at ha

section
variable [LinearOrder α]

theorem upLoop_eq (toPut : α) (n : Nat) : ∀ (rest pre : List α) (hole : α) (fuel : Nat),
    n = pre.length + 1 + rest.length → rest.length ≤ fuel →
    upLoop toPut n fuel pre.length (pre ++ hole :: rest) =
      some (pre ++ rest.takeWhile (fun y => decide (y ≤ toPut)) ++
        toPut :: rest.dropWhile (fun y => decide (y ≤ toPut))) := by
  intro rest
  induction rest with
  | nil =>
    intro pre hole fuel hn hf
    unfold upLoop
    rw [if_neg (by simp at hn; omega), setAt_mid]
    simp
  | cons y ys ih =>
    intro pre hole fuel hn hf
    unfold upLoop
    rw [if_pos (by simp at hn; omega)]
    have : (pre ++ hole :: y :: ys)[pre.length + 1]? = some y := by simp
    simp only [this, Option.bind_eq_bind, Option.bind_some]
    by_cases hy : y > toPut
    · rw [if_pos hy, setAt_mid]
      have : ¬ y ≤ toPut := not_le.mpr hy
      simp [this]
    · rw [if_neg hy]
      cases fuel with
      | zero => simp at hf
      | succ fuel =>
        simp only [setAt_mid, Option.bind_some]
        have h := ih (pre ++ [y]) y fuel (by simp at hn ⊢; omega) (by simpa using hf)
        simp only [List.length_append, List.length_singleton, List.append_assoc,
          List.singleton_append] at h
        rw [h]
        have : y ≤ toPut := not_lt.mp hy
        simp [this]

theorem downLoop_eq (toPut : α) : ∀ (k : Nat) (pre : List α) (hole : α) (rest : List α),
    pre.length = k → ∃ A B, pre = A ++ B ∧
      downLoop toPut k (pre ++ hole :: rest) = some (A ++ toPut :: (B ++ rest)) ∧
      (∀ a, A.getLast? = some a → a < toPut) ∧ ∀ b ∈ B, toPut ≤ b := by
  intro k
  induction k with
  | zero =>
    intro pre hole rest h
    have : pre = [] := List.length_eq_zero_iff.mp h
    subst this
    exact ⟨[], [], rfl, by simp [downLoop, setAt], by simp, by simp⟩
  | succ k ih =>
    intro pre hole rest h
    have hne : pre ≠ [] := by rintro rfl; simp at h
    obtain ⟨pre', y, rfl⟩ : ∃ pre' y, pre = pre' ++ [y] :=
      ⟨pre.dropLast, pre.getLast hne, (List.dropLast_concat_getLast hne).symm⟩
    have hk : pre'.length = k := by simpa using h
    unfold downLoop
    have hg : (pre' ++ [y] ++ hole :: rest)[k]? = some y := by
      rw [← hk]; simp
    simp only [hg, Option.bind_eq_bind, Option.bind_some]
    have hs : ∀ v, setAt (pre' ++ [y] ++ hole :: rest) (k + 1) v
        = some (pre' ++ [y] ++ v :: rest) := by
      intro v
      have := setAt_mid (pre' ++ [y]) hole v rest
      rwa [h] at this
    by_cases hy : y < toPut
    · rw [if_pos hy, hs]
      exact ⟨pre' ++ [y], [], by simp, by simp, by simpa using hy, by simp⟩
    · rw [if_neg hy, hs]
      simp only [Option.bind_some]
      obtain ⟨A, B, h1, h2, h3, h4⟩ := ih pre' y (y :: rest) hk
      refine ⟨A, B ++ [y], by rw [h1]; simp, ?_, h3, ?_⟩
      · rw [List.append_assoc, List.singleton_append, h2]
        simp
      · intro b hb
        rcases List.mem_append.mp hb with hb | hb
        · exact h4 b hb
        · simp at hb; subst hb; exact not_lt.mp hy

/-- Splitting a sorted list at the lower bound of one of its elements. -/
theorem lowerBound_split {S : List α} (hs : S.Pairwise (· ≤ ·)) {x : α} (hx : x ∈ S) :
    ∃ pre rest, S = pre ++ x :: rest ∧
      pre.length = (S.takeWhile (fun y => decide (y < x))).length ∧ ∀ a ∈ pre, a < x := by
  induction S with
  | nil => simp at hx
  | cons y S ih =>
    rw [List.pairwise_cons] at hs
    by_cases hy : y < x
    · have hxs : x ∈ S := by
        rcases List.mem_cons.mp hx with h | h
        · exact absurd h.symm (ne_of_lt hy)
        · exact h
      obtain ⟨pre, rest, h1, h2, h3⟩ := ih hs.2 hxs
      refine ⟨y :: pre, rest, by rw [h1]; rfl, ?_, ?_⟩
      · simp [hy, h2]
      · intro a ha
        rcases List.mem_cons.mp ha with h | h
        · rw [h]; exact hy
        · exact h3 a h
    · have hyx : y = x := by
        rcases List.mem_cons.mp hx with h | h
        · exact h.symm
        · exact le_antisymm (hs.1 x h) (not_lt.mp hy)
      subst hyx
      exact ⟨[], S, rfl, by simp, by simp⟩

/-- What is held in the sort space. -/
structure Sorted (S w : List α) : Prop where
  perm : S.Perm w
  sorted : S.Pairwise (· ≤ ·)

theorem pairwise_ins {A B : List α} {x : α} (h : (A ++ B).Pairwise (· ≤ ·))
    (ha : ∀ a ∈ A, a ≤ x) (hb : ∀ b ∈ B, x ≤ b) : (A ++ x :: B).Pairwise (· ≤ ·) := by
  rw [List.pairwise_append] at h ⊢
  obtain ⟨h1, h2, h3⟩ := h
  refine ⟨h1, List.pairwise_cons.mpr ⟨hb, h2⟩, ?_⟩
  intro a haA b hbB
  rcases List.mem_cons.mp hbB with h | h
  · rw [h]; exact ha a haA
  · exact h3 a haA b h

theorem takeWhile_split (S : List α) (hs : S.Pairwise (· ≤ ·)) (x : α) :
    (∀ b ∈ S.drop ((S.takeWhile (fun y => decide (y < x))).length), x ≤ b) ∧
    (∀ a ∈ S.take ((S.takeWhile (fun y => decide (y < x))).length), a < x) := by
  induction S with
  | nil => simp
  | cons y S ih =>
    rw [List.pairwise_cons] at hs
    by_cases hy : y < x
    · simp only [hy, decide_true, List.takeWhile_cons_of_pos, List.length_cons,
        List.drop_succ_cons, List.take_succ_cons]
      refine ⟨(ih hs.2).1, ?_⟩
      intro a ha
      rcases List.mem_cons.mp ha with h | h
      · rw [h]; exact hy
      · exact (ih hs.2).2 a h
    · have : x ≤ y := not_lt.mp hy
      simp only [hy, decide_false, Bool.false_eq_true, not_false_eq_true,
        List.takeWhile_cons_of_neg, List.length_nil, List.drop_zero, List.take_zero]
      refine ⟨?_, by simp⟩
      intro b hb
      rcases List.mem_cons.mp hb with h | h
      · rw [h]; exact this
      · exact le_trans this (hs.1 b h)

theorem dropAndPut_spec {f : MM α} {d : α} {tail : List α} (hfill : f.fill = f.sortspace.length)
    (h : Sorted f.sortspace (d :: tail)) (x : α) :
    ∃ S', dropAndPut f d x = some { f with sortspace := S' } ∧ S'.length = f.sortspace.length ∧
      Sorted S' (tail ++ [x]) := by
  obtain ⟨hp, hs⟩ := h
  have hmem : d ∈ f.sortspace := hp.mem_iff.mpr (by simp)
  obtain ⟨pre, rest, h1, h2, h3⟩ := lowerBound_split hs hmem
  have hlb : lowerBound f.sortspace f.fill d = pre.length := by
    unfold lowerBound
    rw [hfill, List.take_length, h2]
  have hfirst : ∃ first, f.sortspace[0]? = some first := by
    rw [h1]; cases pre <;> simp
  obtain ⟨first, hfirst⟩ := hfirst
  have hix : (if d ≤ first then 0 else lowerBound f.sortspace f.fill d) = pre.length := by
    split
    · rename_i hle
      cases pre with
      | nil => rfl
      | cons a pre =>
        rw [h1] at hfirst
        simp at hfirst
        have := h3 a (by simp)
        rw [hfirst] at this
        exact absurd hle (not_le.mpr this)
    · exact hlb
  have hpr : (pre ++ rest).Perm tail := by
    have : (pre ++ d :: rest).Perm (d :: (pre ++ rest)) := List.perm_middle
    rw [h1] at hp
    exact List.Perm.cons_inv (this.symm.trans hp)
  have hs' : (pre ++ d :: rest).Pairwise (· ≤ ·) := h1 ▸ hs
  have hsr : (pre ++ rest).Pairwise (· ≤ ·) :=
    hs'.sublist (List.Sublist.append_left (List.sublist_cons_self _ _) _)
  have hdr : ∀ b ∈ rest, d ≤ b := by
    rw [List.pairwise_append] at hs'
    exact (List.pairwise_cons.mp hs'.2.1).1
  unfold dropAndPut
  simp only [hfirst, Option.bind_eq_bind, Option.bind_some, hix]
  have hlen : f.sortspace.length = pre.length + 1 + rest.length := by rw [h1]; simp; omega
  by_cases hgt : x > d
  · rw [if_pos hgt]
    have hu := upLoop_eq x f.fill rest pre d f.fill (by omega) (by omega)
    rw [← h1] at hu
    rw [hu]
    refine ⟨_, rfl, ?_, ?_, ?_⟩
    · rw [hlen]
      have := congrArg List.length
        (List.takeWhile_append_dropWhile (p := fun y => decide (y ≤ x)) (l := rest))
      simp only [List.length_append, List.length_cons] at this ⊢
      omega
    · refine List.perm_middle.trans ?_
      rw [List.append_assoc, List.takeWhile_append_dropWhile]
      refine (List.Perm.cons x hpr).trans ?_
      exact (List.perm_append_singleton x tail).symm
    · rw [List.append_assoc]
      have hsplit : pre ++ rest = (pre ++ rest.takeWhile (fun y => decide (y ≤ x))) ++
          rest.dropWhile (fun y => decide (y ≤ x)) := by
        rw [List.append_assoc, List.takeWhile_append_dropWhile]
      rw [← List.append_assoc]
      apply pairwise_ins (hsplit ▸ hsr)
      · intro a ha
        rcases List.mem_append.mp ha with h | h
        · exact le_of_lt (lt_trans (h3 a h) hgt)
        · have := takeWhile_sat _ _ _ h
          simpa using this
      · intro b hb
        have hrs : rest.Pairwise (· ≤ ·) := (List.pairwise_append.mp hsr).2.1
        have : (rest.dropWhile (fun y => decide (y ≤ x))).Pairwise (· ≤ ·) :=
          hrs.sublist (List.dropWhile_sublist _)
        cases hd : rest.dropWhile (fun y => decide (y ≤ x)) with
        | nil => rw [hd] at hb; simp at hb
        | cons z zs =>
          have hz : ¬ z ≤ x := by
            have hh := List.head_dropWhile_not (l := rest) (fun y => decide (y ≤ x))
              (by rw [hd]; simp)
            simpa [hd] using hh
          rw [hd] at hb this
          rcases List.mem_cons.mp hb with h | h
          · rw [h]; exact le_of_lt (not_le.mp hz)
          · exact le_trans (le_of_lt (not_le.mp hz)) ((List.pairwise_cons.mp this).1 b h)
  · rw [if_neg hgt]
    by_cases hlt : x < d
    · rw [if_pos hlt]
      obtain ⟨A, B, a1, a2, a3, a4⟩ := downLoop_eq x pre.length pre d rest rfl
      rw [← h1] at a2
      rw [a2]
      refine ⟨_, rfl, ?_, ?_, ?_⟩
      · rw [hlen, a1]; simp; omega
      · refine List.perm_middle.trans ?_
        rw [← List.append_assoc, ← a1]
        refine (List.Perm.cons x hpr).trans ?_
        exact (List.perm_append_singleton x tail).symm
      · have hsplit : pre ++ rest = A ++ (B ++ rest) := by rw [a1, List.append_assoc]
        apply pairwise_ins (hsplit ▸ hsr)
        · intro a ha
          have hApw : A.Pairwise (· ≤ ·) := (List.pairwise_append.mp (hsplit ▸ hsr)).1
          have hne : A ≠ [] := by rintro rfl; simp at ha
          have hl := a3 (A.getLast hne) (List.getLast?_eq_some_getLast hne)
          have hle : a ≤ A.getLast hne := by
            rw [← List.dropLast_concat_getLast hne] at hApw ha
            rcases List.mem_append.mp ha with h | h
            · exact (List.pairwise_append.mp hApw).2.2 a h _ (by simp)
            · simp at h; rw [h]
          exact le_of_lt (lt_of_le_of_lt hle hl)
        · intro b hb
          rcases List.mem_append.mp hb with h | h
          · exact a4 b h
          · exact le_trans (le_of_lt hlt) (hdr b h)
    · rw [if_neg hlt]
      have hxd : x = d := le_antisymm (not_lt.mp hgt) (not_lt.mp hlt)
      subst hxd
      refine ⟨f.sortspace, rfl, rfl, ?_, hs⟩
      exact hp.trans (List.perm_append_singleton x tail).symm

theorem move_up (S : List α) (n p : Nat) (hp : p ≤ n) (hn : n < S.length) (v : α) :
    ∃ S1, openGap S n p = some S1 ∧
      ∃ S2, setAt S1 p v = some S2 ∧ S2.length = S.length ∧
        S2.take (n + 1) = (S.take n).take p ++ v :: (S.take n).drop p := by
  unfold openGap
  by_cases h : p < n
  · rw [if_pos h]
    unfold move load
    rw [if_pos (by omega)]
    simp only [Option.bind_eq_bind, Option.bind_some]
    unfold store
    rw [if_pos (by simp; omega)]
    refine ⟨_, rfl, ?_⟩
    unfold setAt
    rw [if_pos (by simp; omega)]
    refine ⟨_, rfl, by simp; omega, ?_⟩
    have hl : (List.take (n - p) (List.drop p S)).length = n - p := by simp; omega
    rw [hl]
    apply List.ext_getElem?
    intro i
    simp only [List.getElem?_take, List.getElem?_set, List.getElem?_append, List.getElem?_drop,
      List.length_append, List.length_take, List.length_drop, List.getElem?_cons]
    grind
  · rw [if_neg h]
    have hpn : p = n := by omega
    subst hpn
    refine ⟨S, rfl, S.set p v, by simp [setAt, hn], by simp, ?_⟩
    apply List.ext_getElem?
    intro i
    grind

theorem put_spec {f : MM α} {w : List α} (hfill : f.fill < f.sortspace.length)
    (h : Sorted (f.sortspace.take f.fill) w) (x : α) :
    ∃ S', put f x = some { f with sortspace := S', fill := f.fill + 1 } ∧
      S'.length = f.sortspace.length ∧ Sorted (S'.take (f.fill + 1)) (w ++ [x]) := by
  obtain ⟨hp, hs⟩ := h
  have hle : lowerBound f.sortspace f.fill x ≤ f.fill := by
    unfold lowerBound
    have := (List.takeWhile_sublist (fun y => decide (y < x))
      (l := f.sortspace.take f.fill)).length_le
    simp at this
    omega
  obtain ⟨S1, h1, S2, h2, h3, h4⟩ := move_up f.sortspace f.fill _ hle hfill x
  unfold put
  simp only [h1, Option.bind_eq_bind, Option.bind_some, h2]
  refine ⟨S2, rfl, h3, ?_, ?_⟩
  · rw [h4]
    refine List.perm_middle.trans ?_
    rw [List.take_append_drop]
    exact (List.Perm.cons x hp).trans (List.perm_append_singleton x w).symm
  · rw [h4]
    obtain ⟨t1, t2⟩ := takeWhile_split (f.sortspace.take f.fill) hs x
    apply pairwise_ins
    · rw [List.take_append_drop]; exact hs
    · intro a ha; exact le_of_lt (t2 a ha)
    · intro b hb; exact t1 b hb

theorem dropValue_spec {f : MM α} {d : α} {w : List α} (hfill : f.fill ≤ f.sortspace.length)
    (h : Sorted (f.sortspace.take f.fill) (d :: w)) :
    ∃ S', dropValue f d = some { f with sortspace := S', fill := f.fill - 1 } ∧
      S'.length = f.sortspace.length ∧ Sorted (S'.take (f.fill - 1)) w := by
  obtain ⟨hp, hs⟩ := h
  have hmem : d ∈ f.sortspace.take f.fill := hp.mem_iff.mpr (by simp)
  obtain ⟨pre, rest, h1, h2, h3⟩ := lowerBound_split hs hmem
  have hlb : lowerBound f.sortspace f.fill d = pre.length := by unfold lowerBound; rw [h2]
  have hlen : f.fill = pre.length + 1 + rest.length := by
    have := congrArg List.length h1
    simp at this
    omega
  have hS : f.sortspace = pre ++ d :: rest ++ f.sortspace.drop f.fill := by
    rw [← h1, List.take_append_drop]
  have key : ∃ S', closeGap f.sortspace f.fill pre.length = some S' ∧ S'.length = f.sortspace.length ∧
      S'.take (f.fill - 1) = pre ++ rest := by
    generalize htl : f.sortspace.drop f.fill = tl at hS
    unfold closeGap
    split
    · unfold move load
      rw [if_pos (by omega)]
      simp only [Option.bind_eq_bind, Option.bind_some]
      unfold store
      rw [if_pos (by simp; omega)]
      refine ⟨_, rfl, by simp; omega, ?_⟩
      have e1 : f.sortspace.take pre.length = pre := by rw [hS]; simp
      have e2 : (f.sortspace.drop (pre.length + 1)).take (f.fill - pre.length - 1) = rest := by
        rw [hS, hlen]
        rw [List.append_assoc, List.drop_append, List.drop_eq_nil_of_le (by omega)]
        simp
        rw [show pre.length + 1 + rest.length - pre.length - 1 = rest.length by omega]
        simp
      rw [e1, e2]
      rw [List.take_append_of_le_length (by simp; omega), List.take_of_length_le (by simp; omega)]
    · refine ⟨_, rfl, rfl, ?_⟩
      have hr0 : rest = [] := List.length_eq_zero_iff.mp (by omega)
      subst hr0
      rw [hS, show f.fill - 1 = pre.length by simp at hlen; omega]
      simp
  obtain ⟨S', k1, k2, k3⟩ := key
  unfold dropValue
  simp only [hlb, k1, Option.bind_eq_bind, Option.bind_some]
  refine ⟨S', rfl, k2, ?_, ?_⟩
  · rw [k3]
    rw [h1] at hp
    have : (pre ++ d :: rest).Perm (d :: (pre ++ rest)) := List.perm_middle
    exact List.Perm.cons_inv (this.symm.trans hp)
  · rw [k3]
    rw [h1] at hs
    exact hs.sublist (List.Sublist.append_left (List.sublist_cons_self _ _) _)

/-- Representation invariant of the filter, with `w` the values held. -/
structure FInv (L : Nat) (f : MM α) (w : List α) : Prop where
  binv : Inv f.buffer
  bsize : f.buffer.size = L + 1
  bcont : contents f.buffer = w
  slen : f.sortspace.length = L
  fill : f.fill = w.length
  le : w.length ≤ L
  srt : Sorted (f.sortspace.take f.fill) w

variable [Zero α]

theorem strb_readOne {b : RB α} (h : Inv b) {x : α} {w : List α} (hc : contents b = x :: w) :
    ∃ b', STRB.readOne b = some (b', x) ∧ Inv b' ∧ b'.size = b.size ∧ contents b' = w := by
  have hz : ¬ b.writer = b.reader := by
    intro he
    have : contents b = [] := by simp [contents, he]
    rw [this] at hc; simp at hc
  have h1 := STRB.skipOne_spec h
  have hlen := RingBuffer.contents_length h
  refine ⟨STRB.skipOne b, ?_, h1.1, h1.2.1, by rw [h1.2.2, hc]; rfl⟩
  unfold STRB.readOne STRB.skipOne
  rw [if_neg hz, if_neg hz]
  have hx : b.buf[b.reader]? = some x := by
    have := RingBuffer.contents_getElem? h 0
    rw [hc] at this hlen
    rw [if_pos (by simp at hlen; omega)] at this
    have hr := h.r
    simp only [Nat.add_zero] at this
    rw [if_neg (by omega)] at this
    simpa using this.symm
  rw [hx]; rfl

theorem push_spec {L : Nat} (hL : 1 ≤ L) {f : MM α} {w : List α} (h : FInv L f w) (v : Option α) :
    ∃ f', push f v = some f' ∧ f'.percentile = f.percentile ∧
      FInv L f' (windowStep L w (.push v)) := by
  obtain ⟨binv, bsize, bcont, slen, fill, le, srt⟩ := h
  unfold push pushSorted windowStep
  have hsz : getSize f = L := by simp [getSize, STRB.getSize, bsize]
  rw [hsz]
  simp only
  by_cases hf : f.fill = L
  · rw [if_pos hf, if_pos (by omega)]
    cases w with
    | nil => simp at fill; omega
    | cons d tail =>
      obtain ⟨b1, r1, r2, r3, r4⟩ := strb_readOne binv bcont
      simp only [r1, Option.bind_eq_bind, Option.bind_some]
      rw [hf, ← slen, List.take_length] at srt
      obtain ⟨S', d1, d2, d3⟩ := dropAndPut_spec (f := { f with buffer := b1 })
        (by simp only; omega) srt (v.getD 0)
      rw [d1]
      simp only [Option.bind_some]
      obtain ⟨b2, w1, w2, w3, w4⟩ := STRB.writeOne_spec r2 (v.getD 0)
      rw [w1]
      have hlt : (contents b1).length < b1.size - 1 := by
        rw [r4, r3, bsize]; simp at le fill ⊢; omega
      rw [if_pos hlt] at w4
      simp at fill le
      refine ⟨_, rfl, rfl, w2, by simp only; omega, ?_, by simp only at d2 ⊢; omega, ?_, ?_, ?_⟩
      · simp only; rw [w4, r4]; rfl
      · simp; omega
      · simp; omega
      · simp only at d2
        show Sorted (S'.take f.fill) _
        rw [List.take_of_length_le (by omega)]
        exact d3
  · rw [if_neg hf, if_neg (by omega)]
    obtain ⟨S', p1, p2, p3⟩ := put_spec (by omega) srt (v.getD 0)
    simp only [p1, Option.bind_eq_bind, Option.bind_some]
    obtain ⟨b2, w1, w2, w3, w4⟩ := STRB.writeOne_spec binv (v.getD 0)
    rw [w1]
    have hlt : (contents f.buffer).length < f.buffer.size - 1 := by
      rw [bcont, bsize]; omega
    rw [if_pos hlt] at w4
    refine ⟨_, rfl, rfl, w2, by simp only; omega, ?_, by simp only; omega, ?_, ?_, ?_⟩
    · simp only; rw [w4, bcont]
    · simp; omega
    · simp; omega
    · exact p3

theorem drop_spec {L : Nat} {f : MM α} {w : List α} (h : FInv L f w) :
    ∃ f', drop f = some f' ∧ f'.percentile = f.percentile ∧ FInv L f' w.tail := by
  have h0 := h
  obtain ⟨binv, bsize, bcont, slen, fill, le, srt⟩ := h
  unfold drop
  cases w with
  | nil =>
    simp at fill
    rw [if_neg (by omega)]
    exact ⟨f, rfl, rfl, h0⟩
  | cons d tail =>
    simp at fill le
    rw [if_pos (by omega)]
    obtain ⟨b1, r1, r2, r3, r4⟩ := strb_readOne binv bcont
    simp only [r1, Option.bind_eq_bind, Option.bind_some]
    obtain ⟨S', d1, d2, d3⟩ := dropValue_spec (f := { f with buffer := b1 }) (d := d) (w := tail)
      (by simp only; omega) srt
    rw [d1]
    refine ⟨_, rfl, rfl, r2, by simp only; omega, r4, by simp only at d2 ⊢; omega, ?_, ?_, ?_⟩
    · simp only [List.tail_cons]; omega
    · simp only [List.tail_cons]; omega
    · exact d3

theorem reset_spec {L : Nat} {f : MM α} {w : List α} (h : FInv L f w) :
    FInv L (reset f) [] := by
  obtain ⟨binv, bsize, bcont, slen, fill, le, srt⟩ := h
  refine ⟨⟨binv.len, binv.r, binv.r⟩, bsize, ?_, by simp [reset, slen], rfl, by simp, ?_⟩
  · simp [reset, STRB.reset, contents]
  · exact ⟨by simp [reset], by simp [reset]⟩

theorem init_spec (L : Nat) (p : Rat) : FInv L (init L p : MM α) [] :=
  ⟨STRB.init_inv L, rfl, STRB.contents_init L, by simp [init], rfl, by simp,
    ⟨by simp [init], by simp [init]⟩⟩

theorem step_spec {L : Nat} (hL : 1 ≤ L) {f : MM α} {w : List α} (h : FInv L f w) (op : Op α) :
    ∃ f', step f op = some f' ∧ FInv L f' (windowStep L w op) ∧
      f'.percentile = percentileAfter f.percentile [op] := by
  cases op with
  | push v => obtain ⟨f', h1, h2, h3⟩ := push_spec hL h v; exact ⟨f', h1, h3, h2⟩
  | drop => obtain ⟨f', h1, h2, h3⟩ := drop_spec h; exact ⟨f', h1, h3, h2⟩
  | reset => exact ⟨_, rfl, reset_spec h, rfl⟩
  | setPercentile p =>
    exact ⟨_, rfl, ⟨h.binv, h.bsize, h.bcont, h.slen, h.fill, h.le, h.srt⟩, rfl⟩

theorem run_spec {L : Nat} (hL : 1 ≤ L) (ops : List (Op α)) {f : MM α} {w : List α}
    (h : FInv L f w) :
    ∃ f', run f ops = some f' ∧ FInv L f' (window L w ops) ∧
      f'.percentile = percentileAfter f.percentile ops := by
  induction ops generalizing f w with
  | nil => exact ⟨f, rfl, h, rfl⟩
  | cons op ops ih =>
    obtain ⟨f1, h1, h2, h3⟩ := step_spec hL h op
    obtain ⟨f2, k1, k2, k3⟩ := ih h2
    refine ⟨f2, ?_, k2, ?_⟩
    · simp only [run, h1, Option.bind_eq_bind, Option.bind_some, k1]
    · rw [k3, h3]; rfl

theorem get_spec {L : Nat} {f : MM α} {w : List α} (h : FInv L f w) (hne : w ≠ [])
    (hp0 : 0 ≤ f.percentile) (hp1 : f.percentile ≤ 100) :
    ∃ v, get f = some v ∧ IsRank w (rank f.percentile w.length) v := by
  obtain ⟨binv, bsize, bcont, slen, fill, le, srt⟩ := h
  have hpos : 0 < w.length := List.length_pos_iff.mpr hne
  have hk : ∀ k, k < w.length → ∃ v, f.sortspace[k]? = some v ∧ IsRank w k v := by
    intro k hk
    refine ⟨f.sortspace[k]'(by omega), List.getElem?_eq_getElem _, ?_⟩
    refine ⟨_, srt.perm, srt.sorted, ?_⟩
    rw [List.getElem?_take_of_lt (by omega), List.getElem?_eq_getElem]
  unfold get rank
  have hn : ((f.fill : Int) - 1) = ((w.length - 1 : Nat) : Int) := by omega
  rw [hn]
  simp only
  by_cases h50 : f.percentile = 50
  · rw [if_pos h50, if_pos h50]
    have : (((w.length - 1 : Nat) : Int).tdiv 2).toNat = (w.length - 1) / 2 := by
      rw [Int.tdiv_eq_ediv_of_nonneg (by omega)]; omega
    rw [this]
    exact hk _ (by omega)
  · rw [if_neg h50, if_neg h50]
    have hcast : (((w.length - 1 : Nat) : Int) : Rat) = ((w.length - 1 : Nat) : Rat) := by
      exact Rat.intCast_natCast _
    rw [hcast]
    generalize hm : w.length - 1 = m
    have hm0 : (0 : Rat) ≤ (m : Rat) := by exact_mod_cast Nat.zero_le m
    have hx0 : (0 : Rat) ≤ (m : Rat) * f.percentile / 100 := by
      have := mul_nonneg hm0 hp0
      linarith
    have hx1 : (m : Rat) * f.percentile / 100 ≤ (m : Rat) := by
      have := mul_le_mul_of_nonneg_left hp1 hm0
      linarith
    generalize hidx : ((m : Rat) * f.percentile / 100).floor = idx
    have hi0 : 0 ≤ idx := by
      rw [← hidx, Rat.le_floor_iff]; exact_mod_cast hx0
    have hi1 : idx ≤ (m : Int) := by
      have h1 := Rat.floor_le ((m : Rat) * f.percentile / 100)
      rw [hidx] at h1
      have : (idx : Rat) ≤ ((m : Int) : Rat) := by
        rw [Rat.intCast_natCast]; exact Rat.le_trans h1 hx1
      exact_mod_cast this
    rw [if_neg (by omega), if_neg (by omega)]
    exact hk _ (by omega)

/-- The values held by the filter after `j` rounds of `filter`. -/
def heldAfter (L : Nat) (v0 : List α) (j : Nat) : List α := (v0.take j).drop (j - L)

theorem feed_spec {L : Nat} (hL : 1 ≤ L) {f : MM α} {v0 v : List α} {j : Nat}
    (h : FInv L f (heldAfter L v0 j)) (hv : j < v0.length → v[j]? = v0[j]?) :
    ∃ f', feed L v0.length j f v = some f' ∧ f'.percentile = f.percentile ∧
      FInv L f' (heldAfter L v0 (j + 1)) := by
  unfold feed
  by_cases hj : j < v0.length
  · rw [if_pos hj, hv hj, List.getElem?_eq_getElem hj]
    simp only [Option.bind_eq_bind, Option.bind_some]
    obtain ⟨f', h1, h2, h3⟩ := push_spec hL h (some v0[j])
    refine ⟨f', h1, h2, ?_⟩
    have e : windowStep L (heldAfter L v0 j) (.push (some v0[j])) = heldAfter L v0 (j + 1) := by
      simp only [windowStep, heldAfter, Option.getD_some]
      rw [List.take_succ_eq_append_getElem hj]
      by_cases hjl : L ≤ j
      · have hc : (List.drop (j - L) (List.take j v0)).length = L := by simp; omega
        simp only [hc, ↓reduceIte]
        rw [List.tail_drop,
          List.drop_append_of_le_length (by simp; omega), show j - L + 1 = j + 1 - L by omega]
      · have hc : ¬ (List.drop (j - L) (List.take j v0)).length = L := by simp; omega
        simp only [hc, ↓reduceIte]
        rw [show j - L = 0 by omega, show j + 1 - L = 0 by omega]
        simp
    rw [← e]; exact h3
  · rw [if_neg hj]
    by_cases hjl : j ≥ L
    · rw [if_pos hjl]
      obtain ⟨f', h1, h2, h3⟩ := drop_spec h
      refine ⟨f', h1, h2, ?_⟩
      have e : (heldAfter L v0 j).tail = heldAfter L v0 (j + 1) := by
        simp only [heldAfter, List.tail_drop]
        rw [List.take_of_length_le (by omega), List.take_of_length_le (by omega),
          show j - L + 1 = j + 1 - L by omega]
      rw [← e]; exact h3
    · rw [if_neg hjl]
      refine ⟨f, rfl, rfl, ?_⟩
      have e : heldAfter L v0 j = heldAfter L v0 (j + 1) := by
        simp only [heldAfter]
        rw [List.take_of_length_le (by omega), List.take_of_length_le (by omega),
          show j - L = 0 by omega, show j + 1 - L = 0 by omega]
      rw [← e]; exact h

theorem filterLoop_spec {L : Nat} (hL : 1 ≤ L) (v0 : List α) (p : Rat) (hp0 : 0 ≤ p)
    (hp1 : p ≤ 100) : ∀ (fuel : Nat) (i : Int) (j : Nat) (f : MM α) (v : List α),
      i = (j : Int) - ((L / 2 : Nat) : Int) → i ≤ v0.length → (v0.length : Int) - i ≤ fuel →
      f.percentile = p → FInv L f (heldAfter L v0 j) → v.length = v0.length →
      (∀ k : Nat, i ≤ k → v[k]? = v0[k]?) →
      (∀ k : Nat, (k : Int) < i → ∃ x, v[k]? = some x ∧
        IsRank (heldAfter L v0 (k + L / 2 + 1)) (rank p (heldAfter L v0 (k + L / 2 + 1)).length) x) →
      ∃ f' v', filterLoop L v0.length fuel i j f v = some (f', v') ∧ v'.length = v0.length ∧
        (∀ k : Nat, k < v0.length → ∃ x, v'[k]? = some x ∧
          IsRank (heldAfter L v0 (k + L / 2 + 1))
            (rank p (heldAfter L v0 (k + L / 2 + 1)).length) x) ∧
        f'.percentile = p ∧ ∃ w, FInv L f' w := by
  intro fuel
  induction fuel with
  | zero =>
    intro i j f v hi hin hf hp hinv hlen hrest hdone
    have : i = v0.length := by omega
    unfold filterLoop
    rw [if_neg (by simp [this])]
    exact ⟨f, v, rfl, hlen, fun k hk => hdone k (by omega), hp, _, hinv⟩
  | succ fuel ih =>
    intro i j f v hi hin hf hp hinv hlen hrest hdone
    unfold filterLoop
    by_cases hend : i = v0.length
    · rw [if_neg (by simp [hend])]
      exact ⟨f, v, rfl, hlen, fun k hk => hdone k (by omega), hp, _, hinv⟩
    · rw [if_pos hend]
      obtain ⟨f1, a1, a2, a3⟩ := feed_spec hL hinv (v := v) (fun _ => hrest j (by omega))
      simp only [a1, Option.bind_eq_bind, Option.bind_some]
      by_cases hi0 : i ≥ 0
      · have hne : heldAfter L v0 (j + 1) ≠ [] := by
          intro he
          have := congrArg List.length he
          simp [heldAfter] at this
          omega
        obtain ⟨x, g1, g2⟩ := get_spec a3 hne (by rw [a2, hp]; exact hp0) (by rw [a2, hp]; exact hp1)
        have hem : emit i f1 v = some (v.set i.toNat x) := by
          unfold emit setAt
          rw [if_pos hi0, g1]
          simp only [Option.bind_eq_bind, Option.bind_some]
          rw [if_pos (by omega)]
        rw [hem]
        simp only [Option.bind_some]
        apply ih (i + 1) (j + 1) f1 _ (by omega) (by omega) (by omega) (by rw [a2, hp]) a3
          (by simpa using hlen)
        · intro k hk
          rw [List.getElem?_set_ne (by omega)]
          exact hrest k (by omega)
        · intro k hk
          by_cases hki : (k : Int) = i
          · refine ⟨x, ?_, ?_⟩
            · rw [show i.toNat = k by omega, List.getElem?_set_self (by omega)]
            · rw [show k + L / 2 + 1 = j + 1 by omega]
              rw [a2, hp] at g2
              exact g2
          · rw [List.getElem?_set_ne (by omega)]
            exact hdone k (by omega)
      · have hem : emit i f1 v = some v := by
          unfold emit
          rw [if_neg hi0]
        rw [hem]
        simp only [Option.bind_some]
        apply ih (i + 1) (j + 1) f1 _ (by omega) (by omega) (by omega) (by rw [a2, hp]) a3 hlen
        · intro k hk; exact hrest k (by omega)
        · intro k hk; omega

end
theorem filter_spec [LinearOrder α] [Zero α] {L : Nat} (hL : 1 ≤ L) {f : MM α} {w : List α} (h : FInv L f w) {p : Rat} (hp : f.percentile = p) (hp0 : 0 ≤ p) (hp1 : p ≤ 100)
    (v : List α) : ∃ f' v', filter f v = some (f', v') ∧ v'.length = v.length ∧
      (∀ k : Nat, k < v.length → ∃ x, v'[k]? = some x ∧
        IsRank (heldAfter L v (k + L / 2 + 1)) (rank p (heldAfter L v (k + L / 2 + 1)).length) x) ∧
      f'.percentile = p ∧ ∃ w, FInv L f' w := by
  have hr := reset_spec h
  have hsz : getSize (reset f) = L := by simp [getSize, STRB.getSize, hr.bsize]
  have := filterLoop_spec hL v p hp0 hp1 (v.length + L / 2) (-((L / 2 : Nat) : Int)) 0 (reset f) v (by simp) (by omega) (by omega)
    hp (by simpa [heldAfter] using hr) rfl (fun _ _ => rfl) (fun k hk => by omega)
  unfold filter
  simp only [hsz]
  exact this

end Verif.MovingMedian
