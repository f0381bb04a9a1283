import Verif.BQProps4
import Verif.VectorOpsLemmas
/-!
# The resampler with one array per channel: properties C21 and C22

`Resampler::resample` as the stretchers call it (`D_BQResampler::resample`,
Resampler.cpp:877-904).
-/
namespace Verif.BQ
open Verif.MovingMedian (setAt)
variable {α : Type}

/-- A call of `resample`.  `iin` and `iout` are what `m_iin` and `m_iout` happen to hold. -/
structure PCall (α : Type) where
  iin : List α
  iout : List α
  out : List (List α)
  outcount : Nat
  inp : List (List α)
  incount : Nat
  ratio : Rat
  final : Bool := false

structure PCall.Valid (c : Nat) (a : PCall α) : Prop where
  iin : a.incount * c ≤ a.iin.length
  iout : a.outcount * c ≤ a.iout.length
  outs : a.out.length = c
  out : ∀ ch ∈ a.out, a.outcount ≤ ch.length
  inps : a.inp.length = c
  inp : ∀ ch ∈ a.inp, a.incount ≤ ch.length
  ratio : ValidRatio a.ratio

inductive POp (α : Type) where
  | call (a : PCall α)
  | reset

def POp.Valid (c : Nat) : POp α → Prop
  | .call a => a.Valid c
  | .reset => True

/-- The results of a history: for each call, the output arrays afterwards and the number of
frames returned. -/
def runPlanar (cfg : Cfg α) : Res α → List (POp α) → Option (List (List (List α) × Nat))
  | _, [] => some []
  | r, .reset :: ops => runPlanar cfg (reset r) ops
  | r, .call a :: ops => do
    let (r, out, n) ← resamplePlanar cfg r a.iin a.iout a.out a.outcount a.inp a.incount a.ratio a.final
    let rest ← runPlanar cfg r ops
    pure ((out, n) :: rest)

/-- The same call for channel `j` only. -/
def POp.chan (j : Nat) : POp α → Op α
  | .call a => .call ⟨a.out[j]?.getD [], a.outcount, a.inp[j]?.getD [], a.incount, a.ratio, a.final⟩
  | .reset => .reset

/-! ## Output does not depend on what the output array held -/

theorem setAt_same {out out2 : List α} {o : Nat} {x : α} {out1 : List α} (h : setAt out o x = some out1)
    (h2 : o < out2.length) {m : Nat} (hsame : ∀ k, k < m → k ≠ o → out[k]? = out2[k]?) :
    setAt out2 o x = some (out2.set o x) ∧ ∀ k, k < m → out1[k]? = (out2.set o x)[k]? := by
  unfold setAt at *
  rw [if_pos h2]
  refine ⟨rfl, ?_⟩
  split at h
  · rename_i hlt
    rw [← Option.some.inj h]
    intro k hk
    by_cases hko : o = k
    · subst hko
      simp [hlt, h2]
    · rw [List.getElem?_set_ne hko, List.getElem?_set_ne hko]
      exact hsame k hk (fun e => hko e.symm)
  · cases h

theorem mainLoop_out {cfg : Cfg α} {final : Bool} {inp : List α} {count : Nat} :
    ∀ (space i o : Nat) (s : State α) (out out2 : List α) {s' : State α} {o' : Nat} {out' : List α},
    mainLoop cfg final inp count space i o s out = some (s', o', out') → o + space ≤ out2.length →
    (∀ k, k < o → out[k]? = out2[k]?) →
    ∃ out2', mainLoop cfg final inp count space i o s out2 = some (s', o', out2') ∧
      out2'.length = out2.length ∧ o' ≤ o + space ∧ ∀ k, k < o' → out'[k]? = out2'[k]? := by
  intro space
  induction space with
  | zero =>
    intro i o s out out2 s' o' out' h hl hs
    simp only [mainLoop, Option.some.injEq, Prod.mk.injEq] at h
    obtain ⟨rfl, rfl, rfl⟩ := h
    exact ⟨out2, rfl, rfl, by omega, hs⟩
  | succ space ih =>
    intro i o s out out2 s' o' out' h hl hs
    unfold mainLoop at h ⊢
    simp only [Option.bind_eq_bind, Option.bind_eq_some_iff] at h
    obtain ⟨⟨i1, s1⟩, h1, h⟩ := h
    simp only [h1, Option.bind_eq_bind, Option.bind_some]
    simp only at h
    split at h
    · rename_i hr
      rw [if_pos hr]
      simp only [Option.bind_eq_some_iff] at h
      obtain ⟨⟨s2, x⟩, h2, out1, h3, h⟩ := h
      obtain ⟨e1, e2⟩ := setAt_same (m := o + 1) h3 (by omega : o < out2.length) (fun k hk hne => hs k (by omega))
      simp only [h2, Option.bind_some, e1]
      obtain ⟨out2', a1, a2, a3, a4⟩ := ih _ _ _ _ (out2.set o x) h (by simp; omega) e2
      exact ⟨out2', a1, by simpa using a2, by omega, a4⟩
    · rename_i hr
      rw [if_neg hr]
      simp only [Option.some.injEq, Prod.mk.injEq] at h
      obtain ⟨rfl, rfl, rfl⟩ := h
      exact ⟨out2, rfl, rfl, by omega, hs⟩

theorem fadeLoop_out {cfg : Cfg α} {inp : List α} {count fl m : Nat} :
    ∀ (space fi fo : Nat) (s : State α) (n : Nat) (out out2 : List α) {s' : State α} {n' : Nat} {out' : List α},
    fadeLoop cfg inp count fl space fi fo s n out = some (s', n', out') → fo + space ≤ m → m ≤ out2.length →
    (∀ k, k < m → out[k]? = out2[k]?) →
    ∃ out2', fadeLoop cfg inp count fl space fi fo s n out2 = some (s', n', out2') ∧
      out2'.length = out2.length ∧ ∀ k, k < m → out'[k]? = out2'[k]? := by
  intro space
  induction space with
  | zero =>
    intro fi fo s n out out2 s' n' out' h hl hm hs
    simp only [fadeLoop, Option.some.injEq, Prod.mk.injEq] at h
    obtain ⟨rfl, rfl, rfl⟩ := h
    exact ⟨out2, rfl, rfl, hs⟩
  | succ space ih =>
    intro fi fo s n out out2 s' n' out' h hl hm hs
    unfold fadeLoop at h ⊢
    split at h
    · rename_i hn
      rw [if_pos hn]
      simp only [Option.some.injEq, Prod.mk.injEq] at h
      obtain ⟨rfl, rfl, rfl⟩ := h
      exact ⟨out2, rfl, rfl, hs⟩
    · rename_i hn
      rw [if_neg hn]
      simp only [Option.bind_eq_bind, Option.bind_eq_some_iff] at h
      obtain ⟨⟨i1, s1⟩, h1, h⟩ := h
      simp only [h1, Option.bind_eq_bind, Option.bind_some]
      simp only at h
      split at h
      · rename_i hr
        rw [if_pos hr]
        simp only [Option.bind_eq_some_iff] at h
        obtain ⟨⟨s2, x⟩, h2, f, hf, out1, h3, h⟩ := h
        obtain ⟨e1, e2⟩ := setAt_same (m := m) h3 (by omega : fo < out2.length) (fun k hk hne => hs k hk)
        have hf2 : out2[fo]? = some f := by rw [← hs fo (by omega)]; exact hf
        simp only [h2, Option.bind_some, hf2, e1]
        obtain ⟨out2', a1, a2, a4⟩ := ih _ _ _ _ _ (out2.set fo _) h (by omega) (by simpa using hm) e2
        exact ⟨out2', a1, by simpa using a2, a4⟩
      · rename_i hr
        rw [if_neg hr]
        simp only [Option.some.injEq, Prod.mk.injEq] at h
        obtain ⟨rfl, rfl, rfl⟩ := h
        exact ⟨out2, rfl, rfl, hs⟩

theorem resample_out {cfg : Cfg α} (hc : cfg.channels = 1) {r r' : Res α} {out out2 inp out' : List α} {space count n : Nat}
    {ratio : Rat} {final : Bool} (h : resample cfg r out space inp count ratio final = some (r', out', n))
    (h2 : space ≤ out2.length) :
    ∃ out2', resample cfg r out2 space inp count ratio final = some (r', out2', n) ∧
      ∀ k, k < n → out'[k]? = out2'[k]? := by
  unfold resample at h ⊢
  simp only [Option.bind_eq_bind, Option.bind_eq_some_iff, hc, Nat.mul_one, Nat.div_one] at h ⊢
  obtain ⟨r1, h1, ⟨s, o, out1⟩, h3, ⟨f, fc, out3⟩, h4, h5⟩ := h
  obtain ⟨o2, a1, a2, a3, a4⟩ := mainLoop_out _ _ _ _ _ out2 h3 (by omega) (fun k hk => by omega)
  simp only at h4
  obtain ⟨o3, b1, b2, b3⟩ := fadeLoop_out (m := o) _ _ _ _ _ _ o2 h4 (by omega) (by omega) a4
  have h5' := Option.some.inj h5
  simp only [Prod.mk.injEq] at h5'
  obtain ⟨e1, e2, e3⟩ := h5'
  refine ⟨o3, ⟨r1, h1, ⟨s, o, o2⟩, a1, ⟨f, fc, o3⟩, b1, ?_⟩, ?_⟩
  · rw [← e1, ← e3]; rfl
  · rw [← e2, ← e3]; exact b3

theorem resamplePlanar_sim {cfg : Cfg α} {c : Nat} (hc : cfg.channels = c) (hpos : 0 < c) {r : Res α}
    {q : Nat → Res α} (h : SimRes c r q) (hg : ∀ j, j < c → GoodRes (monoCfg cfg) (q j)) {a : PCall α} (ha : a.Valid c) :
    ∃ r' q' n out', resamplePlanar cfg r a.iin a.iout a.out a.outcount a.inp a.incount a.ratio a.final = some (r', out', n) ∧
      out'.length = c ∧ n ≤ a.outcount ∧
      (∀ j, j < c → ∃ o, out'[j]? = some o ∧
        resample (monoCfg cfg) (q j) (a.out[j]?.getD []) a.outcount (a.inp[j]?.getD []) a.incount a.ratio a.final
          = some (q' j, o, n)) ∧
      SimRes c r' q' ∧ ∀ j, j < c → GoodRes (monoCfg cfg) (q' j) := by
  have hout : ∀ j, j < c → a.outcount ≤ (a.out[j]?.getD []).length := by
    intro j hj
    have : j < a.out.length := by rw [ha.outs]; exact hj
    rw [List.getElem?_eq_getElem this]
    exact ha.out _ (List.getElem_mem this)
  have hinp : ∀ j, j < c → a.incount ≤ (a.inp[j]?.getD []).length := by
    intro j hj
    have : j < a.inp.length := by rw [ha.inps]; exact hj
    rw [List.getElem?_eq_getElem this]
    exact ha.inp _ (List.getElem_mem this)
  by_cases h1 : c = 1
  · subst h1
    have i1 : Inter 1 a.outcount (a.out[0]?.getD []) (fun j => a.out[j]?.getD []) := by
      refine ⟨by simpa using hout 0 (by omega), hout, ?_⟩
      intro j i hj hi
      have : j = 0 := by omega
      subst this
      simp
    have i2 : Inter 1 a.incount (a.inp[0]?.getD []) (fun j => a.inp[j]?.getD []) := by
      refine ⟨by simpa using hinp 0 (by omega), hinp, ?_⟩
      intro j i hj hi
      have : j = 0 := by omega
      subst this
      simp
    obtain ⟨r', q', n, out', outs', b1, b2, b3, b4, b5, b6⟩ := resample_sim hc hpos h hg ha.ratio i1 i2 a.final
    unfold resamplePlanar
    rw [if_pos hc]
    have l1 : 0 < a.out.length := by rw [ha.outs]; omega
    have l2 : 0 < a.inp.length := by rw [ha.inps]; omega
    rw [List.getElem?_eq_getElem l1, List.getElem?_eq_getElem l2] at b1
    simp only [Option.getD_some] at b1
    simp only [List.getElem?_eq_getElem l1, List.getElem?_eq_getElem l2, Option.bind_eq_bind, Option.bind_some, b1]
    have hset : setAt a.out 0 out' = some (a.out.set 0 out') := by simp [setAt, l1]
    simp only [hset, Option.bind_some]
    have good := fun j (hj : j < 1) => resample_good (cfg := monoCfg cfg) rfl (hg j hj) ha.ratio
      (a.out[j]?.getD []) a.outcount (hout j hj) (a.inp[j]?.getD []) a.incount (hinp j hj) a.final
    obtain ⟨r1, o1, n1, d1, d2, _, _, d5, d6, d7⟩ := good 0 (by omega)
    rw [b2 0 (by omega)] at d1
    simp only [Option.some.injEq, Prod.mk.injEq] at d1
    obtain ⟨e1, e2, e3⟩ := d1
    refine ⟨r', q', n, a.out.set 0 out', rfl, by simp [ha.outs], by omega, ?_, b3, ?_⟩
    · intro j hj
      have : j = 0 := by omega
      subst this
      refine ⟨out', by simp [l1], ?_⟩
      rw [b2 0 (by omega)]
      have : outs' 0 = out' := by
        apply List.ext_getElem?
        intro i
        rcases Nat.lt_or_ge i a.outcount with hi | hi
        · have := b4.at_ 0 i (by omega) hi
          simpa using this.symm
        · rw [e2, d7 i (by omega), b6 i (by omega)]
      rw [this]
    · intro j hj
      have : j = 0 := by omega
      subst this
      rw [e1]; exact d2
  · unfold resamplePlanar
    rw [if_neg (by omega)]
    rw [hc]
    obtain ⟨iin, e1, e2, e3, e4⟩ := VectorOps.v_interleave_spec ha.inps ha.inp a.iin ha.iin
    simp only [e1, Option.bind_eq_bind, Option.bind_some]
    have i2 : Inter c a.incount iin (fun j => a.inp[j]?.getD []) := by
      refine ⟨by rw [e2]; exact ha.iin, hinp, ?_⟩
      intro j i hj hi
      rw [e3 _ (index_lt hj hi), VectorOps.ilv_frame _ i hj]
      have : j < a.inp.length := by rw [ha.inps]; exact hj
      rw [List.getElem?_eq_getElem this]
      rfl
    obtain ⟨r', q', n, out', outs', b1, b2, b3, b4, b5, b6⟩ := resample_sim hc hpos h hg ha.ratio (chan_inter ha.iout) i2 a.final
    simp only [b1, Option.bind_some]
    have good := fun j (hj : j < c) => resample_good (cfg := monoCfg cfg) rfl (hg j hj) ha.ratio
      (chan c j a.outcount a.iout) a.outcount (by rw [(chan_length hj ha.iout).1]) (a.inp[j]?.getD []) a.incount (hinp j hj) a.final
    have hn : n ≤ a.outcount := by
      obtain ⟨r1, o1, n1, d1, _, _, _, d5, _⟩ := good 0 hpos
      rw [b2 0 hpos] at d1
      simp only [Option.some.injEq, Prod.mk.injEq] at d1
      omega
    obtain ⟨dst, f1, f2, f3⟩ := VectorOps.v_deinterleave_spec (src := out') (c := c) (n := n)
      (by rw [b5]; exact Nat.le_trans (Nat.mul_le_mul_right c hn) ha.iout) a.out ha.outs
      (fun ch hch => Nat.le_trans hn (ha.out ch hch))
    simp only [f1, Option.bind_some]
    refine ⟨r', q', n, dst, rfl, f2, hn, ?_, b3, ?_⟩
    · intro j hj
      have hjo : j < a.out.length := by rw [ha.outs]; exact hj
      obtain ⟨ch', g1, g2, g3, g4⟩ := f3 j hjo
      refine ⟨ch', g1, ?_⟩
      obtain ⟨o2, k1, k2⟩ := resample_out (cfg := monoCfg cfg) rfl (b2 j hj) (hout j hj)
      obtain ⟨r1, o1, n1, d1, d2, _, _, d5, d6, d7⟩ := resample_good (cfg := monoCfg cfg) rfl (hg j hj) ha.ratio
        (a.out[j]?.getD []) a.outcount (hout j hj) (a.inp[j]?.getD []) a.incount (hinp j hj) a.final
      rw [k1] at d1 ⊢
      simp only [Option.some.injEq, Prod.mk.injEq] at d1
      obtain ⟨q1, q2, q3⟩ := d1
      have : o2 = ch' := by
        apply List.ext_getElem?
        intro i
        rcases Nat.lt_or_ge i n with hi | hi
        · rw [← k2 i hi, g4 i hi, b4.at_ j i hj (by omega)]
        · rw [q2, d7 i (by omega), g3 i hi, List.getElem?_eq_getElem hjo]
          rfl
      rw [this]
    · intro j hj
      obtain ⟨r1, o1, n1, d1, d2, _⟩ := good j hj
      rw [b2 j hj] at d1
      simp only [Option.some.injEq, Prod.mk.injEq] at d1
      rw [d1.1]; exact d2

/-- **C21, C22 (one array per channel).**  In every history of valid calls of `resample` and resets,
whatever the scratch buffers hold: every call goes well and returns at most as many frames as
there is space for; and for each channel the number returned and the output array (all of it,
including what lies after the frames returned) are those of a mono resampler given only
that channel. -/
theorem C22_planar {cfg : Cfg α} (hpos : 0 < cfg.channels) {ops : List (POp α)}
    (hv : ∀ op ∈ ops, op.Valid cfg.channels) :
    ∃ res, runPlanar cfg init ops = some res ∧
      ∀ j, j < cfg.channels → ∃ res', run (monoCfg cfg) init (ops.map (POp.chan j)) = some res' ∧
        List.Forall₂ (fun on on' => on.2 = on'.2 ∧ on.1[j]? = some on'.1) res res' := by
  have main : ∀ (ops : List (POp α)) (r : Res α) (q : Nat → Res α), SimRes cfg.channels r q →
      (∀ j, j < cfg.channels → GoodRes (monoCfg cfg) (q j)) → (∀ op ∈ ops, op.Valid cfg.channels) →
      ∃ res, runPlanar cfg r ops = some res ∧
      ∀ j, j < cfg.channels → ∃ res', run (monoCfg cfg) (q j) (ops.map (POp.chan j)) = some res' ∧
        List.Forall₂ (fun on on' => on.2 = on'.2 ∧ on.1[j]? = some on'.1) res res' := by
    intro ops
    induction ops with
    | nil => intro r q _ _ _; exact ⟨[], rfl, fun j _ => ⟨[], rfl, .nil⟩⟩
    | cons op ops ih =>
      intro r q hs hg hv
      cases op with
      | reset =>
        obtain ⟨res, a1, a2⟩ := ih (reset r) (fun j => reset (q j)) (reset_sim hs)
          (fun j hj => reset_good (hg j hj)) (fun o ho => hv o (by simp [ho]))
        exact ⟨res, a1, a2⟩
      | call a =>
        obtain ⟨r', q', n, out', b1, b2, b3, b4, b5, b6⟩ := resamplePlanar_sim rfl hpos hs hg (hv (.call a) (by simp) : a.Valid _)
        obtain ⟨res, a1, a2⟩ := ih r' q' b5 b6 (fun o ho => hv o (by simp [ho]))
        refine ⟨(out', n) :: res, ?_, ?_⟩
        · simp only [runPlanar, b1, Option.bind_eq_bind, Option.bind_some, a1]
          rfl
        · intro j hj
          obtain ⟨res', c1, c2⟩ := a2 j hj
          obtain ⟨o, d1, d2⟩ := b4 j hj
          refine ⟨(o, n) :: res', ?_, .cons ⟨rfl, d1⟩ c2⟩
          simp only [List.map_cons, POp.chan, run, d2, Option.bind_eq_bind, Option.bind_some]
          rw [c1]
          rfl
  exact main ops init (fun _ => init) (init_sim _) (fun _ _ => init_good _) hv

namespace Ex
def planar : List (POp Int) :=
  [.call ⟨List.replicate 20 5, List.replicate 44 5, [List.replicate 22 77, List.replicate 22 78], 22,
      [ramp 0 10, ramp 100 10], 10, 2, true⟩]
end Ex

example : ∀ op ∈ Ex.planar, op.Valid (Ex.cfg 2).channels := by
  intro op hop
  simp only [Ex.planar, List.mem_cons, List.not_mem_nil, or_false] at hop
  subst hop
  exact ⟨by decide, by decide, by decide, by decide, by decide, by decide, by unfold ValidRatio; norm_num⟩

example : (runPlanar (Ex.cfg 2) init Ex.planar).map (·.map fun on => (on.1.map (·.drop 12), on.2)) =
    some [([[6, 0, 7, 0, 8, 0, 9, 0, 77, 77], [106, 0, 107, 0, 108, 0, 109, 0, 78, 78]], 20)] := by
  decide +kernel

end Verif.BQ
