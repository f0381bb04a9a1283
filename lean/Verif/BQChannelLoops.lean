import Verif.BQChannels
/-!
# Several channels are as many mono resamplers: the loops
-/
namespace Verif.BQ
open Verif.MovingMedian (setAt)
variable {α : Type}

theorem taken_zero (s : State α) (inp : List α) (i : Nat) : taken s inp i 0 = s := by
  unfold taken; simp

/-- Taking in twice is taking in once. -/
theorem takes_taken (s : State α) (inp : List α) (i n : Nat) (hs : s.fill ≤ s.buffer.length)
    (hi : i + n ≤ inp.length) :
    takes (taken s inp i (takes s n)) (n - takes s n) = 0 := by
  have := taken_length s inp i n hs hi
  have hf : (taken s inp i (takes s n)).fill = s.fill + takes s n := rfl
  unfold takes at *
  rw [this, hf]
  omega

/-- `out` with `m` values from `x` put at `o`. -/
def Put (out out' : List α) (o m : Nat) (x : Nat → α) : Prop :=
  out'.length = out.length ∧ (∀ k, k < m → out'[o + k]? = some (x k)) ∧
    ∀ k, k < o ∨ o + m ≤ k → out'[k]? = out[k]?

theorem Put.cons {out out' : List α} {o m : Nat} {x : Nat → α} (ho : o < out.length)
    (h : Put (out.set o (x 0)) out' (o + 1) m (fun k => x (k + 1))) : Put out out' o (m + 1) x := by
  obtain ⟨h1, h2, h3⟩ := h
  refine ⟨by simpa using h1, ?_, ?_⟩
  · intro k hk
    cases k with
    | zero =>
      rw [Nat.add_zero, h3 o (by omega), List.getElem?_set_self ho]
    | succ k =>
      have := h2 k (by omega)
      rw [← this]; congr 1; omega
  · intro k hk
    rw [h3 k (by omega), List.getElem?_set_ne (by omega)]

theorem mainLoop_frame {cfg : Cfg α} {c : Nat} (hc : cfg.channels = c) {s : State α}
    {t : Nat → State α} (h : Sim c s t) (hg : ∀ j, j < c → Good (monoCfg cfg) (t j))
    (hf : ∀ j, j < c → (t j).centre ≤ (t j).fill) {final : Bool} (hr : ready final s = true)
    (hfill : s.fill ≤ s.buffer.length) {inp : List α} {count i : Nat} (hi : i ≤ count)
    (hin : count ≤ inp.length) (hfull : takes s (count - i) = 0) (space : Nat) :
    ∀ (m j o : Nat) (out : List α), j + (m + 1) = c → o + (m + 1) ≤ out.length →
    ∃ out', mainLoop cfg final inp count (space + (m + 1)) i o (atCh s j) out
        = mainLoop cfg final inp count space i (o + (m + 1)) (steppedC cfg s) out' ∧
      Put out out' o (m + 1) (fun k => sample (monoCfg cfg) (t (j + k))) := by
  intro m
  induction m with
  | zero =>
    intro j o out hj ho
    have hfl := fillLoop_spec inp (count - i) i (atCh s j) hfill (by omega)
    have ht : takes (atCh s j) (count - i) = 0 := hfull
    rw [ht, taken_zero] at hfl
    refine ⟨out.set o (sample (monoCfg cfg) (t j)), ?_, ?_⟩
    · rw [show space + (0 + 1) = space + 1 from rfl]
      conv => lhs; unfold mainLoop
      rw [hfl]
      have hr' : ready final (atCh s j) = true := hr
      simp only [Option.bind_eq_bind, Option.bind_some, hr', if_true,
        reconstructOne_sim hc h hg hf (show j < c by omega), setAt]
      rw [if_pos (by omega)]
      simp only [Option.bind_some]
      rw [if_neg (by omega)]
      rfl
    · apply Put.cons (by omega)
      exact ⟨rfl, fun k hk => by omega, fun _ _ => rfl⟩
  | succ m ih =>
    intro j o out hj ho
    have hfl := fillLoop_spec inp (count - i) i (atCh s j) hfill (by omega)
    have ht : takes (atCh s j) (count - i) = 0 := hfull
    rw [ht, taken_zero] at hfl
    obtain ⟨out', a1, a2⟩ := ih (j + 1) (o + 1) (out.set o (sample (monoCfg cfg) (t j))) (by omega) (by simp; omega)
    refine ⟨out', ?_, ?_⟩
    · rw [show space + (m + 1 + 1) = (space + (m + 1)) + 1 by omega]
      conv => lhs; unfold mainLoop
      rw [hfl]
      have hr' : ready final (atCh s j) = true := hr
      simp only [Option.bind_eq_bind, Option.bind_some, hr', if_true,
        reconstructOne_sim hc h hg hf (show j < c by omega), setAt]
      rw [if_pos (by omega)]
      simp only [Option.bind_some]
      rw [if_pos (by omega), Nat.add_zero i, a1]
      congr 1
      omega
    · apply Put.cons (by omega)
      have e : (fun k => sample (monoCfg cfg) (t (j + (k + 1)))) = (fun k => sample (monoCfg cfg) (t (j + 1 + k))) := by
        funext k; congr 2; omega
      rw [e]
      exact a2

theorem mainLoop_refill {cfg : Cfg α} {final : Bool} {inp : List α} {count i : Nat} (hi : i ≤ count)
    (hin : count ≤ inp.length) {s : State α} (hs : s.fill ≤ s.buffer.length) (space o : Nat) (out : List α) :
    mainLoop cfg final inp count (space + 1) i o s out =
      mainLoop cfg final inp count (space + 1) (i + takes s (count - i)) o
        (taken s inp i (takes s (count - i))) out := by
  have hk : takes s (count - i) ≤ count - i := by unfold takes; omega
  have h1 := fillLoop_spec inp (count - i) i s hs (by omega)
  have hlen := taken_length s inp i (count - i) hs (by omega)
  have hf : (taken s inp i (takes s (count - i))).fill ≤ (taken s inp i (takes s (count - i))).buffer.length := by
    rw [hlen]
    show s.fill + takes s (count - i) ≤ _
    unfold takes; omega
  have h2 := fillLoop_spec inp (count - (i + takes s (count - i))) (i + takes s (count - i))
    (taken s inp i (takes s (count - i))) hf (by omega)
  have h3 := takes_taken s inp i (count - i) hs (by omega)
  have e : count - (i + takes s (count - i)) = count - i - takes s (count - i) := by omega
  rw [e, h3, taken_zero, Nat.add_zero] at h2
  conv => lhs; unfold mainLoop
  conv => rhs; unfold mainLoop
  rw [h1, e, h2]

theorem Inter.put {c M : Nat} {out out' : List α} {outs : Nat → List α} (h : Inter c M out outs)
    {o : Nat} (ho : o < M) {x : Nat → α} (hp : Put out out' (o * c) c x) :
    Inter c M out' (fun j => (outs j).set o (x j)) := by
  obtain ⟨h1, h2, h3⟩ := hp
  refine ⟨by rw [h1]; exact h.len, fun j hj => by simpa using h.lens j hj, ?_⟩
  intro j i hj hi
  have hl := h.lens j hj
  by_cases hio : i = o
  · subst hio
    rw [h2 j hj]
    rw [List.getElem?_set_self (by omega)]
  · rw [List.getElem?_set_ne (fun h => hio h.symm), ← h.at_ j i hj hi]
    apply h3
    rcases Nat.lt_or_ge i o with h' | h'
    · left; exact index_lt hj h'
    · right
      have : (o + 1) * c ≤ i * c := Nat.mul_le_mul_right c (by omega)
      rw [Nat.add_mul, Nat.one_mul] at this
      omega

theorem mainLoop_sim {cfg : Cfg α} {c : Nat} (hc : cfg.channels = c) (hpos : 0 < c) (final : Bool)
    {inp : List α} {inps : Nat → List α} {count M : Nat} (hin : Inter c count inp inps) :
    ∀ (space i o : Nat) (s : State α) (t : Nat → State α) (out : List α) (outs : Nat → List α),
    Sim c s t → (∀ j, j < c → Good (monoCfg cfg) (t j)) → Inter c M out outs → i ≤ count → o + space ≤ M →
    ∃ s' t' o' out' outs',
      mainLoop cfg final inp (count * c) (space * c) (i * c) (o * c) s out = some (s', o' * c, out') ∧
      (∀ j, j < c → mainLoop (monoCfg cfg) final (inps j) count space i o (t j) (outs j)
        = some (t' j, o', outs' j)) ∧
      Sim c s' t' ∧ (∀ j, j < c → Good (monoCfg cfg) (t' j)) ∧ Inter c M out' outs' ∧
      out'.length = out.length ∧ (∀ k, k < o * c ∨ o' * c ≤ k → out'[k]? = out[k]?) ∧ o ≤ o' ∧ o' ≤ o + space := by
  intro space
  induction space with
  | zero =>
    intro i o s t out outs hs hg ho _ _
    rw [Nat.zero_mul]
    exact ⟨s, t, o, out, outs, rfl, fun _ _ => rfl, hs, hg, ho, rfl, fun _ _ => rfl, by omega, by omega⟩
  | succ space ih =>
    intro i o s t out outs hs hg ho hi hM
    obtain ⟨c', rfl⟩ : ∃ c', c = c' + 1 := ⟨c - 1, by omega⟩
    have hic : i * (c' + 1) ≤ count * (c' + 1) := Nat.mul_le_mul_right _ hi
    have hsf : s.fill ≤ s.buffer.length := by
      rw [hs.fill 0 hpos, hs.len 0 hpos]
      exact Nat.mul_le_mul_right _ (hg 0 hpos).fill
    have hsub : count * (c' + 1) - i * (c' + 1) = (count - i) * (c' + 1) := by rw [Nat.sub_mul]
    have hk0 := fun j hj => takes_sim hs (j := j) hj (count - i)
    have hk : ∀ j, j < c' + 1 → takes (t j) (count - i) = takes (t 0) (count - i) := by
      intro j hj
      exact Nat.eq_of_mul_eq_mul_right hpos ((hk0 j hj).symm.trans (hk0 0 hpos))
    have hkle : takes (t 0) (count - i) ≤ count - i := by unfold takes; omega
    have hs1 := taken_sim hs hin (fun j hj => (hg j hj).fill) (i := i) (n := count - i) (by omega)
    have hg1 : ∀ j, j < c' + 1 → Good (monoCfg cfg) (taken (t j) (inps j) i (takes (t j) (count - i))) := by
      intro j hj
      exact taken_good (hg j hj) _ _ _ (by have := hin.lens j hj; omega)
    have hlen := hin.len
    have hmul : (space + 1) * (c' + 1) = (space * (c' + 1) + c') + 1 := by rw [Nat.add_mul]; omega
    have href := mainLoop_refill (cfg := cfg) (final := final) hic hlen hsf (space * (c' + 1) + c') (o * (c' + 1)) out
    rw [← hmul, hsub] at href
    generalize hS1 : taken s inp (i * (c' + 1)) (takes s ((count - i) * (c' + 1))) = s1 at hs1 href
    have hidx : i * (c' + 1) + takes s ((count - i) * (c' + 1)) = (i + takes (t 0) (count - i)) * (c' + 1) := by
      rw [hk0 0 hpos, Nat.add_mul]
    rw [hidx] at href
    have hmono : ∀ j, j < c' + 1 → mainLoop (monoCfg cfg) final (inps j) count (space + 1) i o (t j) (outs j) =
        mainLoop (monoCfg cfg) final (inps j) count (space + 1) (i + takes (t 0) (count - i)) o
          (taken (t j) (inps j) i (takes (t j) (count - i))) (outs j) := by
      intro j hj
      rw [mainLoop_refill hi (hin.lens j hj) (hg j hj).fill, hk j hj]
    have hfl1 : s1.fill ≤ s1.buffer.length := by
      rw [hs1.fill 0 hpos, hs1.len 0 hpos]
      exact Nat.mul_le_mul_right _ (hg1 0 hpos).fill
    have htk1 : ∀ j, j < c' + 1 → takes (taken (t j) (inps j) i (takes (t j) (count - i))) (count - (i + takes (t 0) (count - i))) = 0 := by
      intro j hj
      have := takes_taken (t j) (inps j) i (count - i) (hg j hj).fill (by have := hin.lens j hj; omega)
      rw [hk j hj] at this ⊢
      rw [show count - (i + takes (t 0) (count - i)) = count - i - takes (t 0) (count - i) by omega]
      exact this
    have htk : takes s1 (count * (c' + 1) - (i + takes (t 0) (count - i)) * (c' + 1)) = 0 := by
      rw [← Nat.sub_mul, takes_sim hs1 hpos, htk1 0 hpos, Nat.zero_mul]
    rw [href]
    have hrd : ∀ j, j < c' + 1 → ready final s1 = ready final (taken (t j) (inps j) i (takes (t j) (count - i))) :=
      fun j hj => ready_sim hpos hs1 hj final
    cases hr : ready final s1 with
    | false =>
      refine ⟨s1, fun j => taken (t j) (inps j) i (takes (t j) (count - i)), o, out, outs, ?_, ?_, hs1, hg1, ho, rfl,
        fun _ _ => rfl, by omega, by omega⟩
      · rw [hmul]
        unfold mainLoop
        have h2 := fillLoop_spec inp (count * (c' + 1) - (i + takes (t 0) (count - i)) * (c' + 1))
          ((i + takes (t 0) (count - i)) * (c' + 1)) s1 hfl1 (by
            have : (i + takes (t 0) (count - i)) * (c' + 1) ≤ count * (c' + 1) := Nat.mul_le_mul_right _ (by omega)
            omega)
        rw [h2, htk, taken_zero]
        simp only [Option.bind_eq_bind, Option.bind_some, hr, Bool.false_eq_true, if_false]
      · intro j hj
        rw [hmono j hj]
        unfold mainLoop
        have h2 := fillLoop_spec (inps j) (count - (i + takes (t 0) (count - i)))
          (i + takes (t 0) (count - i)) _ (hg1 j hj).fill (by have := hin.lens j hj; omega)
        rw [h2, htk1 j hj, taken_zero]
        have hrj := (hrd j hj).symm.trans hr
        simp only [Option.bind_eq_bind, Option.bind_some, hrj, Bool.false_eq_true, if_false]
    | true =>
      have hf1 : ∀ j, j < c' + 1 → (taken (t j) (inps j) i (takes (t j) (count - i))).centre ≤
          (taken (t j) (inps j) i (takes (t j) (count - i))).fill :=
        fun j hj => ready_fill (hg1 j hj) ((hrd j hj).symm.trans hr)
      have hoM : o * (c' + 1) + (c' + 1) ≤ out.length := by
        have e1 := ho.len
        have e2 : (o + 1) * (c' + 1) ≤ M * (c' + 1) := Nat.mul_le_mul_right _ (by omega)
        rw [Nat.add_mul, Nat.one_mul] at e2
        omega
      have hile : (i + takes (t 0) (count - i)) * (c' + 1) ≤ count * (c' + 1) := Nat.mul_le_mul_right _ (by omega)
      obtain ⟨out1, a1, a2⟩ := mainLoop_frame hc hs1 hg1 hf1 hr hfl1 hile hlen htk (space * (c' + 1)) c' 0
        (o * (c' + 1)) out (by omega) hoM
      have hat : atCh s1 0 = s1 := by
        have := hs1.ch
        unfold atCh
        cases s1
        simp only at this
        subst this
        rfl
      rw [hat] at a1
      simp only [Nat.zero_add] at a2
      have hs2 := stepped_sim hc hs1 hg1 hf1 hpos
      have hg2 : ∀ j, j < c' + 1 → Good (monoCfg cfg)
          (stepped (monoCfg cfg) (taken (t j) (inps j) i (takes (t j) (count - i)))) :=
        fun j hj => stepped_good (hg1 j hj) (hf1 j hj)
      obtain ⟨s', t', o', out', outs', b1, b2, b3, b4, b5, b6, b7, b8, b9⟩ := ih (i + takes (t 0) (count - i)) (o + 1) _ _ out1 _
        hs2 hg2 (ho.put (by omega) a2) (by omega) (by omega)
      refine ⟨s', t', o', out', outs', ?_, ?_, b3, b4, b5, by rw [b6, a2.1], ?_, by omega, by omega⟩
      · have e1 : (space + 1) * (c' + 1) = space * (c' + 1) + (c' + 1) := by rw [Nat.add_mul, Nat.one_mul]
        have e2 : o * (c' + 1) + (c' + 1) = (o + 1) * (c' + 1) := by rw [Nat.add_mul, Nat.one_mul]
        rw [e1, a1, e2]
        exact b1
      · intro j hj
        rw [hmono j hj]
        conv => lhs; unfold mainLoop
        have h2 := fillLoop_spec (inps j) (count - (i + takes (t 0) (count - i)))
          (i + takes (t 0) (count - i)) _ (hg1 j hj).fill (by have := hin.lens j hj; omega)
        rw [h2, htk1 j hj, taken_zero]
        have hrj := (hrd j hj).symm.trans hr
        have hol := ho.lens j hj
        simp only [Option.bind_eq_bind, Option.bind_some, hrj, if_true,
          reconstructOne_spec rfl (hg1 j hj) (hf1 j hj), setAt]
        rw [if_pos (by omega)]
        simp only [Option.bind_some]
        exact b2 j hj
      · intro k hk
        have e2 : (o + 1) * (c' + 1) = o * (c' + 1) + (c' + 1) := by rw [Nat.add_mul, Nat.one_mul]
        have e3 : (o + 1) * (c' + 1) ≤ o' * (c' + 1) := Nat.mul_le_mul_right _ b8
        rw [b7 k (by omega), a2.2.2 k (by omega)]

end Verif.BQ
