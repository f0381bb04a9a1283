import Verif.BQChannelLoops
/-!
# Several channels are as many mono resamplers: cross-fades, changes of ratio, calls
-/
namespace Verif.BQ
open Verif.MovingMedian (setAt)
variable {α : Type}

theorem fadeLoop_frame {cfg : Cfg α} {c : Nat} (hc : cfg.channels = c) {s : State α}
    {t : Nat → State α} (h : Sim c s t) (hg : ∀ j, j < c → Good (monoCfg cfg) (t j))
    (hf : ∀ j, j < c → (t j).centre ≤ (t j).fill) (hr : s.fill = s.buffer.length)
    {inp : List α} {count i : Nat} (hi : i ≤ count)
    (hin : count ≤ inp.length) (hfull : takes s (count - i) = 0) (space n fl : Nat) (hn : n ≠ 0)
    (y : Nat → α) :
    ∀ (m j o : Nat) (out : List α), j + (m + 1) = c → o + (m + 1) ≤ out.length →
    (∀ k, k < m + 1 → out[o + k]? = some (y (j + k))) →
    ∃ out', fadeLoop cfg inp count fl (space + (m + 1)) i o (atCh s j) n out
        = fadeLoop cfg inp count fl space i (o + (m + 1)) (steppedC cfg s) (n - 1) out' ∧
      Put out out' o (m + 1) (fun k => mixed cfg.ar n fl (sample (monoCfg cfg) (t (j + k))) (y (j + k))) := by
  intro m
  induction m with
  | zero =>
    intro j o out hj ho hy
    have hfl := fillLoop_spec inp (count - i) i (atCh s j) (by show s.fill ≤ s.buffer.length; omega) (by omega)
    have ht : takes (atCh s j) (count - i) = 0 := hfull
    rw [ht, taken_zero] at hfl
    have hy0 := hy 0 (by omega)
    rw [Nat.add_zero, Nat.add_zero] at hy0
    refine ⟨out.set o (mixed cfg.ar n fl (sample (monoCfg cfg) (t j)) (y j)), ?_, ?_⟩
    · rw [show space + (0 + 1) = space + 1 from rfl]
      conv => lhs; unfold fadeLoop
      rw [hfl, if_neg hn]
      have hr' : (atCh s j).fill = (atCh s j).buffer.length := hr
      simp only [Option.bind_eq_bind, Option.bind_some]
      rw [if_pos hr']
      simp only [reconstructOne_sim hc h hg hf (show j < c by omega), Option.bind_some, hy0, setAt]
      rw [if_pos (by omega)]
      simp only [Option.bind_some]
      rw [if_neg (show ¬ j + 1 < c by omega), if_pos (show (steppedC cfg s).currentChannel = 0 from rfl)]
      rfl
    · apply Put.cons (by omega)
      exact ⟨rfl, fun k hk => by omega, fun _ _ => rfl⟩
  | succ m ih =>
    intro j o out hj ho hy
    have hfl := fillLoop_spec inp (count - i) i (atCh s j) (by show s.fill ≤ s.buffer.length; omega) (by omega)
    have ht : takes (atCh s j) (count - i) = 0 := hfull
    rw [ht, taken_zero] at hfl
    have hy0 := hy 0 (by omega)
    rw [Nat.add_zero, Nat.add_zero] at hy0
    obtain ⟨out', a1, a2⟩ := ih (j + 1) (o + 1)
      (out.set o (mixed cfg.ar n fl (sample (monoCfg cfg) (t j)) (y j))) (by omega) (by simp; omega) (by
        intro k hk
        rw [List.getElem?_set_ne (by omega)]
        have := hy (k + 1) (by omega)
        rw [show o + 1 + k = o + (k + 1) by omega, this]
        congr 2; omega)
    refine ⟨out', ?_, ?_⟩
    · rw [show space + (m + 1 + 1) = (space + (m + 1)) + 1 by omega]
      conv => lhs; unfold fadeLoop
      rw [hfl, if_neg hn]
      have hr' : (atCh s j).fill = (atCh s j).buffer.length := hr
      simp only [Option.bind_eq_bind, Option.bind_some]
      rw [if_pos hr']
      simp only [reconstructOne_sim hc h hg hf (show j < c by omega), Option.bind_some, hy0, setAt]
      rw [if_pos (by omega)]
      simp only [Option.bind_some]
      rw [if_pos (show j + 1 < c by omega), if_neg (show ¬ (atCh s (j + 1)).currentChannel = 0 by simp [atCh]),
        Nat.add_zero i, a1]
      congr 1
      omega
    · apply Put.cons (by omega)
      have e : (fun k => mixed cfg.ar n fl (sample (monoCfg cfg) (t (j + (k + 1)))) (y (j + (k + 1)))) =
          (fun k => mixed cfg.ar n fl (sample (monoCfg cfg) (t (j + 1 + k))) (y (j + 1 + k))) := by
        funext k; rw [show j + (k + 1) = j + 1 + k by omega]
      rw [e]
      exact a2

theorem fadeLoop_refill {cfg : Cfg α} {inp : List α} {count i fl n : Nat} (hn : n ≠ 0) (hi : i ≤ count)
    (hin : count ≤ inp.length) {s : State α} (hs : s.fill ≤ s.buffer.length) (space o : Nat) (out : List α) :
    fadeLoop cfg inp count fl (space + 1) i o s n out =
      fadeLoop cfg inp count fl (space + 1) (i + takes s (count - i)) o
        (taken s inp i (takes s (count - i))) n out := by
  have hk : takes s (count - i) ≤ count - i := by unfold takes; omega
  have h1 := fillLoop_spec inp (count - i) i s hs (by omega)
  have hlen := taken_length s inp i (count - i) hs (by omega)
  have hf : (taken s inp i (takes s (count - i))).fill ≤ (taken s inp i (takes s (count - i))).buffer.length := by
    rw [hlen]
    show s.fill + takes s (count - i) ≤ _
    unfold takes; omega
  have h2 := fillLoop_spec inp (count - (i + takes s (count - i))) (i + takes s (count - i))
    (taken s inp i (takes s (count - i))) hf (by omega)
  have h3 := takes_taken s inp i (count - i) hs (by omega)
  have e : count - (i + takes s (count - i)) = count - i - takes s (count - i) := by omega
  rw [e, h3, taken_zero, Nat.add_zero] at h2
  conv => lhs; unfold fadeLoop
  conv => rhs; unfold fadeLoop
  rw [h1, e, h2, if_neg hn, if_neg hn]

theorem fadeLoop_sim {cfg : Cfg α} {c : Nat} (hc : cfg.channels = c) (hpos : 0 < c)
    {inp : List α} {inps : Nat → List α} {count M : Nat} (hin : Inter c count inp inps) (fl : Nat) :
    ∀ (space i o : Nat) (s : State α) (t : Nat → State α) (n : Nat) (out : List α) (outs : Nat → List α),
    Sim c s t → (0 < n → ∀ j, j < c → Good (monoCfg cfg) (t j)) → Inter c M out outs → i ≤ count → o + space ≤ M →
    ∃ s' t' n' out' outs',
      fadeLoop cfg inp (count * c) fl (space * c) (i * c) (o * c) s n out = some (s', n', out') ∧
      (∀ j, j < c → fadeLoop (monoCfg cfg) (inps j) count fl space i o (t j) n (outs j)
        = some (t' j, n', outs' j)) ∧
      Sim c s' t' ∧ Inter c M out' outs' ∧
      out'.length = out.length ∧ (∀ k, (o + space) * c ≤ k → out'[k]? = out[k]?) := by
  intro space
  induction space with
  | zero =>
    intro i o s t n out outs hs hg ho _ _
    rw [Nat.zero_mul]
    exact ⟨s, t, n, out, outs, rfl, fun _ _ => rfl, hs, ho, rfl, fun _ _ => rfl⟩
  | succ space ih =>
    intro i o s t n out outs hs hg ho hi hM
    obtain ⟨c', rfl⟩ : ∃ c', c = c' + 1 := ⟨c - 1, by omega⟩
    have hmul : (space + 1) * (c' + 1) = (space * (c' + 1) + c') + 1 := by rw [Nat.add_mul]; omega
    by_cases hn : n = 0
    · subst hn
      refine ⟨s, t, 0, out, outs, ?_, ?_, hs, ho, rfl, fun _ _ => rfl⟩
      · rw [hmul]; unfold fadeLoop; rfl
      · intro j hj; unfold fadeLoop; rfl
    replace hg := hg (by omega)
    have hic : i * (c' + 1) ≤ count * (c' + 1) := Nat.mul_le_mul_right _ hi
    have hsf : s.fill ≤ s.buffer.length := by
      rw [hs.fill 0 hpos, hs.len 0 hpos]
      exact Nat.mul_le_mul_right _ (hg 0 hpos).fill
    have hsub : count * (c' + 1) - i * (c' + 1) = (count - i) * (c' + 1) := by rw [Nat.sub_mul]
    have hk0 := fun j hj => takes_sim hs (j := j) hj (count - i)
    have hk : ∀ j, j < c' + 1 → takes (t j) (count - i) = takes (t 0) (count - i) := by
      intro j hj
      exact Nat.eq_of_mul_eq_mul_right hpos ((hk0 j hj).symm.trans (hk0 0 hpos))
    have hkle : takes (t 0) (count - i) ≤ count - i := by unfold takes; omega
    have hs1 := taken_sim hs hin (fun j hj => (hg j hj).fill) (i := i) (n := count - i) (by omega)
    have hg1 : ∀ j, j < c' + 1 → Good (monoCfg cfg) (taken (t j) (inps j) i (takes (t j) (count - i))) := by
      intro j hj
      exact taken_good (hg j hj) _ _ _ (by have := hin.lens j hj; omega)
    have hlen := hin.len
    have href := fadeLoop_refill (cfg := cfg) (fl := fl) hn hic hlen hsf (space * (c' + 1) + c') (o * (c' + 1)) out
    rw [← hmul, hsub] at href
    generalize hS1 : taken s inp (i * (c' + 1)) (takes s ((count - i) * (c' + 1))) = s1 at hs1 href
    have hidx : i * (c' + 1) + takes s ((count - i) * (c' + 1)) = (i + takes (t 0) (count - i)) * (c' + 1) := by
      rw [hk0 0 hpos, Nat.add_mul]
    rw [hidx] at href
    have hmono : ∀ j, j < c' + 1 → fadeLoop (monoCfg cfg) (inps j) count fl (space + 1) i o (t j) n (outs j) =
        fadeLoop (monoCfg cfg) (inps j) count fl (space + 1) (i + takes (t 0) (count - i)) o
          (taken (t j) (inps j) i (takes (t j) (count - i))) n (outs j) := by
      intro j hj
      rw [fadeLoop_refill hn hi (hin.lens j hj) (hg j hj).fill, hk j hj]
    have hfl1 : s1.fill ≤ s1.buffer.length := by
      rw [hs1.fill 0 hpos, hs1.len 0 hpos]
      exact Nat.mul_le_mul_right _ (hg1 0 hpos).fill
    have htk1 : ∀ j, j < c' + 1 → takes (taken (t j) (inps j) i (takes (t j) (count - i))) (count - (i + takes (t 0) (count - i))) = 0 := by
      intro j hj
      have := takes_taken (t j) (inps j) i (count - i) (hg j hj).fill (by have := hin.lens j hj; omega)
      rw [hk j hj] at this ⊢
      rw [show count - (i + takes (t 0) (count - i)) = count - i - takes (t 0) (count - i) by omega]
      exact this
    have htk : takes s1 (count * (c' + 1) - (i + takes (t 0) (count - i)) * (c' + 1)) = 0 := by
      rw [← Nat.sub_mul, takes_sim hs1 hpos, htk1 0 hpos, Nat.zero_mul]
    rw [href]
    have hrd : ∀ j, j < c' + 1 → (s1.fill = s1.buffer.length ↔
        (taken (t j) (inps j) i (takes (t j) (count - i))).fill = (taken (t j) (inps j) i (takes (t j) (count - i))).buffer.length) := by
      intro j hj
      rw [hs1.fill j hj, hs1.len j hj]
      exact ⟨fun h => Nat.eq_of_mul_eq_mul_right hpos h, fun h => by rw [h]⟩
    have hile : (i + takes (t 0) (count - i)) * (c' + 1) ≤ count * (c' + 1) := Nat.mul_le_mul_right _ (by omega)
    by_cases hr : s1.fill = s1.buffer.length
    · have hf1 : ∀ j, j < c' + 1 → (taken (t j) (inps j) i (takes (t j) (count - i))).centre ≤
          (taken (t j) (inps j) i (takes (t j) (count - i))).fill := by
        intro j hj
        have e1 := (hg1 j hj).centre
        have e2 := (hrd j hj).mp hr
        omega
      have hoM : o * (c' + 1) + (c' + 1) ≤ out.length := by
        have e1 := ho.len
        have e2 : (o + 1) * (c' + 1) ≤ M * (c' + 1) := Nat.mul_le_mul_right _ (by omega)
        rw [Nat.add_mul, Nat.one_mul] at e2
        omega
      have hol : ∀ j, j < c' + 1 → o < (outs j).length := fun j hj => by have := ho.lens j hj; omega
      have hy : ∀ k, k < c' + 1 → out[o * (c' + 1) + k]? =
          some ((outs k)[o]?.getD cfg.ar.zero) := by
        intro k hk
        rw [ho.at_ k o hk (by omega), List.getElem?_eq_getElem (hol k hk)]
        rfl
      obtain ⟨out1, a1, a2⟩ := fadeLoop_frame hc hs1 hg1 hf1 hr hile hlen htk (space * (c' + 1)) n fl hn
        (fun k => (outs k)[o]?.getD cfg.ar.zero) c' 0
        (o * (c' + 1)) out (by omega) hoM (by intro k hk; rw [Nat.zero_add]; exact hy k hk)
      have hat : atCh s1 0 = s1 := by
        have := hs1.ch
        unfold atCh
        cases s1
        simp only at this
        subst this
        rfl
      rw [hat] at a1
      simp only [Nat.zero_add] at a2
      have hs2 := stepped_sim hc hs1 hg1 hf1 hpos
      have hg2 : ∀ j, j < c' + 1 → Good (monoCfg cfg)
          (stepped (monoCfg cfg) (taken (t j) (inps j) i (takes (t j) (count - i)))) :=
        fun j hj => stepped_good (hg1 j hj) (hf1 j hj)
      obtain ⟨s', t', n', out', outs', b1, b2, b3, b5, b6, b7⟩ := ih (i + takes (t 0) (count - i)) (o + 1) _ _ (n - 1) out1 _
        hs2 (fun _ => hg2) (ho.put (by omega) a2) (by omega) (by omega)
      have e1 : (space + 1) * (c' + 1) = space * (c' + 1) + (c' + 1) := by rw [Nat.add_mul, Nat.one_mul]
      have e2 : o * (c' + 1) + (c' + 1) = (o + 1) * (c' + 1) := by rw [Nat.add_mul, Nat.one_mul]
      refine ⟨s', t', n', out', outs', ?_, ?_, b3, b5, by rw [b6, a2.1], ?_⟩
      · rw [e1, a1, e2]
        exact b1
      · intro j hj
        rw [hmono j hj]
        conv => lhs; unfold fadeLoop
        have h2 := fillLoop_spec (inps j) (count - (i + takes (t 0) (count - i)))
          (i + takes (t 0) (count - i)) _ (hg1 j hj).fill (by have := hin.lens j hj; omega)
        rw [h2, htk1 j hj, taken_zero, if_neg hn]
        simp only [Option.bind_eq_bind, Option.bind_some]
        rw [if_pos ((hrd j hj).mp hr)]
        simp only [reconstructOne_spec rfl (hg1 j hj) (hf1 j hj), Option.bind_some,
          List.getElem?_eq_getElem (hol j hj), setAt]
        rw [if_pos (hol j hj)]
        have hb := b2 j hj
        simp only [List.getElem?_eq_getElem (hol j hj), Option.getD_some] at hb
        simp only [Option.bind_some]
        rw [if_pos (hg2 j hj).ch]
        exact hb
      · intro k hk
        have e3 : (o + (space + 1)) * (c' + 1) = (o + 1 + space) * (c' + 1) := by congr 1; omega
        rw [b7 k (by omega), a2.2.2 k (by
          right
          rw [e2]
          exact Nat.le_trans (Nat.mul_le_mul_right _ (by omega)) hk)]
    · refine ⟨s1, fun j => taken (t j) (inps j) i (takes (t j) (count - i)), n, out, outs, ?_, ?_, hs1, ho, rfl,
        fun _ _ => rfl⟩
      · rw [hmul]
        unfold fadeLoop
        have h2 := fillLoop_spec inp (count * (c' + 1) - (i + takes (t 0) (count - i)) * (c' + 1))
          ((i + takes (t 0) (count - i)) * (c' + 1)) s1 hfl1 (by omega)
        rw [h2, htk, taken_zero, if_neg hn]
        simp only [Option.bind_eq_bind, Option.bind_some]
        rw [if_neg hr]
      · intro j hj
        rw [hmono j hj]
        unfold fadeLoop
        have h2 := fillLoop_spec (inps j) (count - (i + takes (t 0) (count - i)))
          (i + takes (t 0) (count - i)) _ (hg1 j hj).fill (by have := hin.lens j hj; omega)
        rw [h2, htk1 j hj, taken_zero, if_neg hn]
        simp only [Option.bind_eq_bind, Option.bind_some]
        rw [if_neg (fun h => hr ((hrd j hj).mpr h))]

end Verif.BQ
