import Verif.BQChannelCalls
/-!
# The mono resampler at a fixed ratio: lemmas

`At cfg xs k s`: state `s` of a mono resampler that was built afresh, has taken in
`xs` and has made `k` samples.
-/
namespace Verif.BQ
open Verif.MovingMedian (setAt)
variable {α : Type}

/-- The number of samples dropped when `k` have been made. -/
def dropped (num den ip k : Nat) : Nat := ceilDiv (k * den - ip) num

/-- The phase when `k` samples have been made. -/
def phaseAt (num den ip k : Nat) : Nat := dropped num den ip k * num + ip - k * den

theorem dropped_spec {num : Nat} (hn : 0 < num) {ip : Nat} (hip : ip < num) (den k : Nat) :
    k * den ≤ dropped num den ip k * num + ip ∧ dropped num den ip k * num + ip < k * den + num := by
  constructor
  · have := (ceilDiv_le (a := k * den - ip) (c := dropped num den ip k) hn).mp (Nat.le_refl _)
    omega
  · rcases Nat.eq_zero_or_pos (dropped num den ip k) with h | h
    · rw [h]; omega
    · obtain ⟨d, hd⟩ : ∃ d, dropped num den ip k = d + 1 := ⟨_, (Nat.succ_pred_eq_of_pos h).symm⟩
      have := (lt_ceilDiv (a := k * den - ip) (c := d) hn).mp (by
        have : dropped num den ip k = ceilDiv (k * den - ip) num := rfl
        omega)
      rw [hd, Nat.add_mul]
      omega

theorem dropped_unique {num : Nat} (hn : 0 < num) {ip : Nat} (hip : ip < num) {den k d : Nat}
    (h1 : k * den ≤ d * num + ip) (h2 : d * num + ip < k * den + num) : dropped num den ip k = d := by
  obtain ⟨a1, a2⟩ := dropped_spec hn hip den k
  generalize dropped num den ip k = e at *
  rcases Nat.lt_trichotomy e d with h | h | h
  · have : (e + 1) * num ≤ d * num := Nat.mul_le_mul_right _ h
    rw [Nat.add_mul] at this
    omega
  · exact h
  · have : (d + 1) * num ≤ e * num := Nat.mul_le_mul_right _ h
    rw [Nat.add_mul] at this
    omega

theorem dropped_zero {num : Nat} (hn : 0 < num) {ip : Nat} (hip : ip < num) (den : Nat) :
    dropped num den ip 0 = 0 := dropped_unique hn hip (by omega) (by omega)

theorem phaseAt_zero {num : Nat} (hn : 0 < num) {ip : Nat} (hip : ip < num) (den : Nat) :
    phaseAt num den ip 0 = ip := by
  unfold phaseAt; rw [dropped_zero hn hip]; omega

theorem phaseAt_add {num : Nat} (hn : 0 < num) {ip : Nat} (hip : ip < num) (den k : Nat) :
    phaseAt num den ip k + k * den = dropped num den ip k * num + ip := by
  have := (dropped_spec hn hip den k).1
  unfold phaseAt; omega

theorem phaseAt_lt {num : Nat} (hn : 0 < num) {ip : Nat} (hip : ip < num) (den k : Nat) :
    phaseAt num den ip k < num := by
  have := (dropped_spec hn hip den k).2
  unfold phaseAt; omega

theorem dropped_succ {num : Nat} (hn : 0 < num) {ip : Nat} (hip : ip < num) (den k : Nat) :
    dropped num den ip (k + 1) = dropped num den ip k + ceilDiv (den - phaseAt num den ip k) num := by
  have a1 := phaseAt_add hn hip den k
  have a2 := phaseAt_lt hn hip den k
  generalize dropped num den ip k = d at *
  generalize phaseAt num den ip k = p at *
  have b1 := (ceilDiv_le (a := den - p) (c := ceilDiv (den - p) num) hn).mp (Nat.le_refl _)
  have b2 : ceilDiv (den - p) num = 0 ∨ (ceilDiv (den - p) num - 1) * num < den - p := by
    rcases Nat.eq_zero_or_pos (ceilDiv (den - p) num) with h | h
    · exact Or.inl h
    · exact Or.inr ((lt_ceilDiv hn).mp (by omega))
  generalize ceilDiv (den - p) num = e at *
  apply dropped_unique hn hip
  · rw [Nat.add_mul, Nat.add_mul]; omega
  · rw [Nat.add_mul, Nat.add_mul]
    rcases b2 with b2 | b2
    · subst b2; omega
    · cases e with
      | zero => omega
      | succ e =>
        rw [Nat.add_sub_cancel] at b2
        rw [Nat.add_mul]; omega

theorem phaseAt_succ {num : Nat} (hn : 0 < num) {ip : Nat} (hip : ip < num) (den k : Nat) :
    phaseAt num den ip (k + 1) = nextPhase num den (phaseAt num den ip k) := by
  have a1 := phaseAt_add hn hip den k
  have a2 := phaseAt_add hn hip den (k + 1)
  have a3 := phaseAt_lt hn hip den (k + 1)
  rw [dropped_succ hn hip] at a2
  generalize ceilDiv (den - phaseAt num den ip k) num = e at *
  have h : ((phaseAt num den ip (k + 1) : Nat) : Int) = nextPhase num den (phaseAt num den ip k) := by
    rw [nextPhase_int hn]
    have : ((phaseAt num den ip k : Nat) : Int) - den = (phaseAt num den ip (k + 1) : Nat) + (num : Int) * (-(e : Int)) := by
      have a1' : ((phaseAt num den ip k : Nat) : Int) + k * den = dropped num den ip k * num + ip := by exact_mod_cast a1
      have a2' : ((phaseAt num den ip (k + 1) : Nat) : Int) + (k + 1) * den = (dropped num den ip k + e) * num + ip := by
        exact_mod_cast a2
      linarith
    rw [this, Int.add_mul_emod_self_left, Int.emod_eq_of_lt (by omega) (by omega)]
  exact_mod_cast h

theorem dropped_mono {num : Nat} (hn : 0 < num) {ip : Nat} (hip : ip < num) (den : Nat) {j k : Nat} (h : j ≤ k) :
    dropped num den ip j ≤ dropped num den ip k := by
  induction h with
  | refl => exact Nat.le_refl _
  | step _ ih => rw [Nat.succ_eq_add_one, dropped_succ hn hip]; omega

/-- The input `xs`, preceded by `c` zeros and followed by zeros without end. -/
def sig (z : α) (c : Nat) (xs : List α) (i : Nat) : α := if i < c then z else (xs[i - c]?).getD z

/-- Sample `k` made from the input `xs` by a mono resampler with a filter of length `fl`, a
buffer of `len` samples, of which `c` come before the centre and `left` before the filter. -/
def value (cfg : Cfg α) (p : Params) (fl len c left : Nat) (xs : List α) (k : Nat) : α :=
  let ph := phaseAt p.num p.den (fl / 2 % p.num) k
  let n := min (ceilDiv (fl - ph) p.num) (len - left)
  weigh cfg p (coefs cfg p fl ph n)
    ((List.range n).map fun i => sig cfg.ar.zero c xs (dropped p.num p.den (fl / 2 % p.num) k + (left + i)))

/-- See the head of this file. -/
structure At (cfg : Cfg α) (xs : List α) (k : Nat) (s : State α) : Prop where
  good : Good cfg s
  cp : s.currentPhase = phaseAt s.params.num s.params.den (s.filterLength / 2 % s.params.num) k
  fill : s.fill + dropped s.params.num s.params.den (s.filterLength / 2 % s.params.num) k = s.centre + xs.length
  buf : ∀ i, i < s.buffer.length → s.buffer[i]? =
    some (sig cfg.ar.zero s.centre xs (dropped s.params.num s.params.den (s.filterLength / 2 % s.params.num) k + i))

/-- The parts of a state that making samples does not change. -/
structure Same (s t : State α) : Prop where
  params : t.params = s.params
  fl : t.filterLength = s.filterLength
  len : t.buffer.length = s.buffer.length
  centre : t.centre = s.centre
  left : t.left = s.left

theorem Same.refl (s : State α) : Same s s := ⟨rfl, rfl, rfl, rfl, rfl⟩

theorem Same.trans {s t u : State α} (h : Same s t) (h' : Same t u) : Same s u :=
  ⟨h'.1.trans h.1, h'.2.trans h.2, h'.3.trans h.3, h'.4.trans h.4, h'.5.trans h.5⟩

theorem Good.ip_lt {cfg : Cfg α} {s : State α} (h : Good cfg s) :
    s.filterLength / 2 % s.params.num < s.params.num := Nat.mod_lt _ h.num_pos

theorem sig_append (z : α) (c : Nat) (xs ys : List α) (i : Nat) (h : i < c + xs.length) :
    sig z c (xs ++ ys) i = sig z c xs i := by
  unfold sig
  split
  · rfl
  · rw [List.getElem?_append_left (by omega)]

theorem sig_beyond (z : α) (c : Nat) (xs : List α) (i : Nat) (h : c + xs.length ≤ i) : sig z c xs i = z := by
  unfold sig
  split
  · rfl
  · rw [List.getElem?_eq_none (by omega)]; rfl

theorem taken_same {s : State α} {inp : List α} {i n : Nat} (hs : s.fill ≤ s.buffer.length)
    (hi : i + n ≤ inp.length) : Same s (taken s inp i (takes s n)) :=
  ⟨rfl, rfl, taken_length s inp i n hs hi, rfl, rfl⟩

theorem taken_at {cfg : Cfg α} {xs : List α} {k : Nat} {s : State α} (h : At cfg xs k s)
    {inp : List α} {i n : Nat} (hi : i + n ≤ inp.length) :
    At cfg (xs ++ (inp.drop i).take (takes s n)) k (taken s inp i (takes s n)) := by
  have hg := taken_good h.good inp i n hi
  have hsame := taken_same h.good.fill hi
  have hm : takes s n ≤ n := by unfold takes; omega
  have hm2 : s.fill + takes s n ≤ s.buffer.length := by have := h.good.fill; unfold takes; omega
  have hlen : ((inp.drop i).take (takes s n)).length = takes s n := by simp; omega
  refine ⟨hg, h.cp, ?_, ?_⟩
  · show s.fill + takes s n + _ = s.centre + _
    rw [List.length_append, hlen]
    have := h.fill
    show s.fill + takes s n + dropped s.params.num s.params.den (s.filterLength / 2 % s.params.num) k = _
    omega
  · intro j hj
    rw [hsame.len] at hj
    have hf := h.fill
    have hb := h.buf j hj
    show (s.buffer.take s.fill ++ (inp.drop i).take (takes s n) ++ s.buffer.drop (s.fill + takes s n))[j]? =
      some (sig cfg.ar.zero s.centre _ (dropped s.params.num s.params.den (s.filterLength / 2 % s.params.num) k + j))
    generalize takes s n = m at *
    generalize dropped s.params.num s.params.den (s.filterLength / 2 % s.params.num) k = d at *
    have hgf := h.good.fill
    have hl1 : (s.buffer.take s.fill).length = s.fill := by simp; omega
    rcases Nat.lt_or_ge j s.fill with c1 | c1
    · rw [List.getElem?_append_left (by rw [List.length_append]; omega),
        List.getElem?_append_left (by omega), List.getElem?_take_of_lt c1, hb, sig_append]
      omega
    · rcases Nat.lt_or_ge j (s.fill + m) with c2 | c2
      · rw [List.getElem?_append_left (by rw [List.length_append]; omega),
          List.getElem?_append_right (by omega), hl1]
        unfold sig
        have hx : j - s.fill < ((inp.drop i).take m).length := by omega
        by_cases hc : d + j < s.centre
        · omega
        · rw [if_neg hc, List.getElem?_append_right (by omega),
            show d + j - s.centre - xs.length = j - s.fill by omega, List.getElem?_eq_getElem hx]
          rfl
      · rw [List.getElem?_append_right (by rw [List.length_append]; omega), List.length_append, hl1, hlen,
          List.getElem?_drop, show s.fill + m + (j - (s.fill + m)) = j by omega, hb,
          sig_beyond _ _ _ _ (by omega), sig_beyond _ _ _ _ (by rw [List.length_append]; omega)]

theorem stepped_same {cfg : Cfg α} {s : State α} (h : Good cfg s) : Same s (stepped cfg s) := by
  refine ⟨rfl, rfl, ?_, rfl, rfl⟩
  have := dropOf_le h
  have := h.centre
  unfold stepped; simp; omega

theorem stepped_at {cfg : Cfg α} {xs : List α} {k : Nat} {s : State α} (h : At cfg xs k s)
    (hf : s.centre ≤ s.fill) : At cfg xs (k + 1) (stepped cfg s) := by
  have hg := stepped_good h.good hf
  have hsame := stepped_same h.good
  have hn := h.good.num_pos
  have hip := h.good.ip_lt
  have hd : dropOf s = ceilDiv (s.params.den - phaseAt s.params.num s.params.den (s.filterLength / 2 % s.params.num) k) s.params.num := by
    unfold dropOf; rw [h.cp]
  have hd2 : dropped s.params.num s.params.den (s.filterLength / 2 % s.params.num) (k + 1) =
      dropped s.params.num s.params.den (s.filterLength / 2 % s.params.num) k + dropOf s := by
    rw [dropped_succ hn hip, hd]
  have hle := dropOf_le h.good
  have hfl := h.fill
  refine ⟨hg, ?_, ?_, ?_⟩
  · show nextPhase s.params.num s.params.den s.currentPhase = phaseAt s.params.num s.params.den (s.filterLength / 2 % s.params.num) (k + 1)
    rw [phaseAt_succ hn hip, h.cp]
  · show s.fill - dropOf s + dropped s.params.num s.params.den (s.filterLength / 2 % s.params.num) (k + 1) = s.centre + xs.length
    rw [hd2]; omega
  · intro j hj
    rw [hsame.len] at hj
    show (s.buffer.drop (dropOf s) ++ List.replicate (dropOf s) cfg.ar.zero)[j]? =
      some (sig cfg.ar.zero s.centre xs (dropped s.params.num s.params.den (s.filterLength / 2 % s.params.num) (k + 1) + j))
    rw [hd2]
    have hcb := h.good.centre
    have hgf := h.good.fill
    rcases Nat.lt_or_ge (j + dropOf s) s.buffer.length with c1 | c1
    · rw [List.getElem?_append_left (by simp; omega), List.getElem?_drop, Nat.add_comm (dropOf s) j,
        h.buf _ c1]
      congr 2; omega
    · rw [List.getElem?_append_right (by simp; omega), sig_beyond _ _ _ _ (by omega),
        List.getElem?_replicate_of_lt (by simp; omega)]

theorem sample_at {cfg : Cfg α} {xs : List α} {k : Nat} {s : State α} (h : At cfg xs k s) :
    sample cfg s = value cfg s.params s.filterLength s.buffer.length s.centre s.left xs k := by
  unfold sample value taps
  rw [h.cp]
  simp only
  congr 1
  apply List.ext_getElem?
  intro i
  have hleft : s.left ≤ s.buffer.length := by
    have h1 : s.left ≤ s.centre := by rw [h.good.left]; exact Nat.sub_le _ _
    have h2 := h.good.centre
    omega
  generalize hnn : min (ceilDiv (s.filterLength - phaseAt s.params.num s.params.den (s.filterLength / 2 % s.params.num) k)
    s.params.num) (s.buffer.length - s.left) = n
  have hnle : n ≤ s.buffer.length - s.left := by rw [← hnn]; exact Nat.min_le_right _ _
  by_cases hi : i < n
  · rw [List.getElem?_take_of_lt hi, List.getElem?_drop, h.buf _ (by omega)]
    simp [hi]
  · rw [List.getElem?_eq_none (by simp; omega), List.getElem?_eq_none (by simp; omega)]

theorem value_append (cfg : Cfg α) (p : Params) (fl len c left : Nat) (hleft : left ≤ len) (xs ys : List α) (k : Nat)
    (h : dropped p.num p.den (fl / 2 % p.num) k + len ≤ c + xs.length) :
    value cfg p fl len c left (xs ++ ys) k = value cfg p fl len c left xs k := by
  unfold value
  simp only
  congr 1
  apply List.map_congr_left
  intro i hi
  rw [List.mem_range] at hi
  apply sig_append
  omega

/-- Whether sample `k` is made when `n` samples have been taken in. -/
def Due (p : Params) (fl len c : Nat) (final : Bool) (n k : Nat) : Prop :=
  let d := dropped p.num p.den (fl / 2 % p.num) k
  d + len ≤ c + n ∨
    final = true ∧ (d < n ∨ d = n ∧ phaseAt p.num p.den (fl / 2 % p.num) k ≠ fl / 2 % p.num)

theorem ready_at {cfg : Cfg α} {xs : List α} {k : Nat} {s : State α} (h : At cfg xs k s) (final : Bool) :
    ready final s = true ↔ Due s.params s.filterLength s.buffer.length s.centre final xs.length k := by
  have h1 := h.fill
  have h2 := h.good.fill
  have h3 := h.cp
  have h4 := h.good.ip
  unfold ready Due
  simp only [Bool.or_eq_true, Bool.and_eq_true, beq_iff_eq, decide_eq_true_eq, bne_iff_ne, ne_eq, h3, h4]
  generalize dropped s.params.num s.params.den (s.filterLength / 2 % s.params.num) k = d at *
  constructor
  · rintro ((a | ⟨a, b⟩) | ⟨⟨a, b⟩, c⟩)
    · left; omega
    · right; exact ⟨a, Or.inl (by omega)⟩
    · right; exact ⟨a, Or.inr ⟨by omega, c⟩⟩
  · rintro (a | ⟨a, b | ⟨b, c⟩⟩)
    · left; left; omega
    · left; right; exact ⟨a, by omega⟩
    · right; exact ⟨⟨a, by omega⟩, c⟩

/-- What is due stays due when more comes in, unless it was due only at the very end. -/
theorem Due.more {p : Params} {fl len c : Nat} {final : Bool} {n m k : Nat}
    (h : Due p fl len c final n k) (hnm : n ≤ m)
    (he : dropped p.num p.den (fl / 2 % p.num) k + len ≤ c + n ∨ n = m) : Due p fl len c final m k := by
  unfold Due at *
  simp only at *
  rcases he with he | he
  · left; omega
  · subst he; exact h

theorem mainLoop_at {cfg : Cfg α} (hc : cfg.channels = 1) (final : Bool) (inp : List α) (count : Nat)
    (hcount : count ≤ inp.length) : ∀ (space i o : Nat) (s : State α) (out : List α) (xs : List α) (k : Nat),
    At cfg xs k s → i ≤ count → o + space ≤ out.length →
    ∃ s' o' out' m, mainLoop cfg final inp count space i o s out = some (s', o', out') ∧
      At cfg (xs ++ (inp.drop i).take m) (k + (o' - o)) s' ∧ Same s s' ∧ m ≤ count - i ∧ o ≤ o' ∧ o' ≤ o + space ∧
      (o' < o + space → m = count - i ∧ ready final s' = false) ∧
      (∀ j, j < o' - o → out'[o + j]? =
        some (value cfg s.params s.filterLength s.buffer.length s.centre s.left (xs ++ (inp.drop i).take m) (k + j))) ∧
      (∀ j, j < o' - o → Due s.params s.filterLength s.buffer.length s.centre final (xs.length + m) (k + j)) ∧
      out'.length = out.length ∧ (∀ j, j < o ∨ o' ≤ j → out'[j]? = out[j]?) ∧
      (o' = o + space → m = 0 ∨ 0 < space ∧ s.centre + (xs.length + m) ≤
        dropped s.params.num s.params.den (s.filterLength / 2 % s.params.num) (k + space - 1) + s.buffer.length) := by
  intro space
  induction space with
  | zero =>
    intro i o s out xs k h _ _
    refine ⟨s, o, out, 0, rfl, ?_, Same.refl s, by omega, by omega, by omega, fun h => by omega,
      fun j hj => by omega, fun j hj => by omega, rfl, fun _ _ => rfl, fun _ => Or.inl rfl⟩
    simpa using h
  | succ space ih =>
    intro i o s out xs k h hi ho
    unfold mainLoop
    rw [fillLoop_spec inp (count - i) i s h.good.fill (by omega)]
    simp only [Option.bind_eq_bind, Option.bind_some]
    have ha := taken_at h (inp := inp) (i := i) (n := count - i) (by omega)
    have hs := taken_same h.good.fill (inp := inp) (i := i) (n := count - i) (by omega)
    have hm1 : takes s (count - i) ≤ count - i := by unfold takes; omega
    have hfits : s.fill + takes s (count - i) ≤ s.buffer.length := by
      have := h.good.fill
      unfold takes; omega
    have hfull : takes s (count - i) = count - i ∨
        (taken s inp i (takes s (count - i))).fill = (taken s inp i (takes s (count - i))).buffer.length := by
      rw [hs.len]
      show _ ∨ s.fill + takes s (count - i) = _
      have := h.good.fill
      unfold takes; omega
    generalize hm : takes s (count - i) = m1 at *
    have hlen1 : ((inp.drop i).take m1).length = m1 := by simp; omega
    generalize taken s inp i m1 = s1 at *
    cases hr : ready final s1 with
    | false =>
      simp only [Bool.false_eq_true, if_false]
      have hall : m1 = count - i := by
        rcases hfull with h' | h'
        · exact h'
        · unfold ready at hr
          simp [h'] at hr
      refine ⟨s1, o, out, m1, rfl, by simpa using ha, hs, hm1, by omega, by omega, fun _ => ⟨hall, hr⟩,
        fun j hj => by omega, fun j hj => by omega, rfl, fun _ _ => rfl, fun h => by omega⟩
    | true =>
      simp only [if_true]
      have hf := ready_fill ha.good hr
      simp only [reconstructOne_spec hc ha.good hf, Option.bind_some, setAt]
      rw [if_pos (by omega)]
      simp only [Option.bind_some]
      obtain ⟨s', o', out', m2, a1, a2, a3, a4, a5, a6, a7, a8, a9, a10, a11, a12⟩ := ih (i + m1) (o + 1)
        (stepped cfg s1) (out.set o (sample cfg s1)) _ _ (stepped_at ha hf) (by omega) (by simp; omega)
      have hsame := hs.trans (stepped_same ha.good)
      have hxs : xs ++ (inp.drop i).take m1 ++ (inp.drop (i + m1)).take m2 = xs ++ (inp.drop i).take (m1 + m2) := by
        rw [List.append_assoc, List.take_add, List.drop_drop]
      rw [hxs] at a2 a8
      rw [hsame.params, hsame.fl, hsame.len, hsame.centre, hsame.left] at a8
      rw [hsame.params, hsame.fl, hsame.len, hsame.centre, List.length_append, hlen1] at a9 a12
      have hdue := (ready_at ha final).mp hr
      rw [hs.params, hs.fl, hs.len, hs.centre, List.length_append, hlen1] at hdue
      have hend : dropped s.params.num s.params.den (s.filterLength / 2 % s.params.num) k + s.buffer.length ≤
          s.centre + (xs.length + m1) ∨ m2 = 0 := by
        rcases hfull with h' | h'
        · right; omega
        · left
          have := ha.fill
          rw [hs.params, hs.fl, hs.centre, h', hs.len, List.length_append, hlen1] at this
          omega
      refine ⟨s', o', out', m1 + m2, a1, ?_, hsame.trans a3, by omega, by omega, by omega, ?_, ?_, ?_, by simpa using a10, ?_, ?_⟩
      · rw [show k + (o' - o) = k + 1 + (o' - (o + 1)) by omega]
        exact a2
      · intro hlt
        obtain ⟨b1, b2⟩ := a7 (by omega)
        exact ⟨by omega, b2⟩
      · intro j hj
        cases j with
        | zero =>
          rw [Nat.add_zero, a11 o (by omega), List.getElem?_set_self (by omega), sample_at ha, hs.params, hs.fl, hs.len,
            hs.centre, hs.left, Nat.add_zero]
          congr 1
          rcases hend with he | he
          · rw [← hxs]
            symm
            apply value_append
            · have h1 : s.left ≤ s.centre := by rw [h.good.left]; exact Nat.sub_le _ _
              have h2 := h.good.centre
              omega
            · rw [List.length_append, hlen1]; exact he
          · rw [he, Nat.add_zero]
        | succ j =>
          have := a8 j (by omega)
          rw [show o + (j + 1) = o + 1 + j by omega, this, show k + 1 + j = k + (j + 1) by omega]
      · intro j hj
        cases j with
        | zero =>
          refine hdue.more (by omega) ?_
          rcases hend with he | he
          · left; exact he
          · right; omega
        | succ j =>
          have := a9 j (by omega)
          rw [show k + (j + 1) = k + 1 + j by omega, ← Nat.add_assoc]
          exact this
      · intro j hj
        rw [a11 j (by omega), List.getElem?_set_ne (by omega)]
      · intro hlast
        right
        refine ⟨by omega, ?_⟩
        rcases a12 (by omega) with e | ⟨e1, e2⟩
        · have hf := h.fill
          have hmono := dropped_mono h.good.num_pos (Nat.mod_lt (s.filterLength / 2) h.good.num_pos) s.params.den
            (show k ≤ k + (space + 1) - 1 by omega)
          omega
        · rw [show k + (space + 1) - 1 = k + 1 + space - 1 by omega]
          omega

end Verif.BQ
