import Verif.BQProps2
/-!
# The resampler: properties C23 (reset) and C46 (cross-fades)
-/
namespace Verif.BQ
open Verif.MovingMedian (setAt)
variable {α : Type}

/-! ## C23: reset -/

/-- C23 in full: what happens after a reset is what would happen with a resampler just
constructed. -/
def C23_statement : Prop :=
  ∀ (α : Type) (cfg : Cfg α) (hist ops : List (Op α)) (res res' : List (List α × Nat)),
    0 < cfg.channels → (∀ op ∈ hist, op.Valid cfg.channels) → (∀ op ∈ ops, op.Valid cfg.channels) →
    run cfg init hist = some res → run cfg init ops = some res' →
    run cfg init (hist ++ .reset :: ops) = some (res ++ res')

namespace Ex
def hist23 : List (Op Int) :=
  [.call (call (ramp 1 10) 10 30 1 false), .call (call (ramp 11 3) 3 30 2 false)]
def ops23 : List (Op Int) := [.call (call (ramp 0 8) 8 5 2 false)]
def res23 : List (List Int × Nat) :=
  [([1, 2, 3] ++ List.replicate 37 77, 3), ([0, 5, 0, 6, 0] ++ List.replicate 35 77, 5)]
def res23' : List (List Int × Nat) := [([0, 0, 1, 0] ++ List.replicate 36 77, 4)]
end Ex

/-- C23 is false of the code: `reset` keeps the buffer of the state faded from, and the state
built next starts with its contents.  After ten frames at ratio 1, three at ratio 2 and a
reset, the next call gives samples of the old input. -/
theorem C23_violated : ¬ C23_statement := by
  intro h
  have hv1 : ValidRatio 1 := by unfold ValidRatio; norm_num
  have hv2 : ValidRatio 2 := by unfold ValidRatio; norm_num
  have := h Int (Ex.cfg 1) Ex.hist23 Ex.ops23 Ex.res23 Ex.res23' (by decide)
    (by
      intro op hop
      simp only [Ex.hist23, List.mem_cons, List.not_mem_nil, or_false] at hop
      rcases hop with rfl | rfl
      · exact ⟨by decide, by decide, hv1⟩
      · exact ⟨by decide, by decide, hv2⟩)
    (by
      intro op hop
      simp only [Ex.ops23, List.mem_cons, List.not_mem_nil, or_false] at hop
      subst hop
      exact ⟨by decide, by decide, hv2⟩)
    (by decide +kernel) (by decide +kernel)
  revert this
  decide +kernel

/-- What does come out in that case: samples 8 and 9 of the input before the reset. -/
example : (run (Ex.cfg 1) init (Ex.hist23 ++ .reset :: Ex.ops23)).map (·.map fun on => on.1.take on.2)
    = some [[1, 2, 3], [0, 5, 0, 6, 0], [0, 8, 0, 9, 0]] := by decide +kernel

/-- The ratio changes only at resets. -/
def Steady : Option Rat → List (Op α) → Prop
  | _, [] => True
  | _, .reset :: ops => Steady none ops
  | none, .call a :: ops => Steady (some a.ratio) ops
  | some x, .call a :: ops => a.ratio = x ∧ Steady (some x) ops

theorem stateForRatio_target (cfg : Cfg α) (target target' : State α) (ratio : Rat) (prev : State α)
    (h1 : target.currentChannel = target'.currentChannel)
    (h2 : cfg.mostlyFixed = false → target.sorted = target'.sorted) :
    stateForRatio cfg target ratio prev = stateForRatio cfg target' ratio prev := by
  have hp : ∀ fl w i n d, phaseDataFor cfg.mostlyFixed target.sorted fl w i n d =
      phaseDataFor cfg.mostlyFixed target'.sorted fl w i n d := by
    intro fl w i n d
    unfold phaseDataFor
    cases hm : cfg.mostlyFixed with
    | true => rfl
    | false => rw [h2 hm]
  unfold stateForRatio
  simp only [hp, h1]

/-- Parts of a state that making samples does not change. -/
def Keep (s s' : State α) : Prop := s'.sorted = s.sorted ∧ s'.params = s.params

theorem fillLoop_keep (inp : List α) : ∀ (left i : Nat) (s : State α) {i' : Nat} {s' : State α},
    fillLoop inp left i s = some (i', s') → Keep s s' := by
  intro left
  induction left with
  | zero =>
    intro i s i' s' h
    simp only [fillLoop, Option.some.injEq, Prod.mk.injEq] at h
    rw [← h.2]; exact ⟨rfl, rfl⟩
  | succ left ih =>
    intro i s i' s' h
    unfold fillLoop at h
    split at h
    · simp only [Option.bind_eq_bind, Option.bind_eq_some_iff] at h
      obtain ⟨x, _, b, _, h⟩ := h
      exact ⟨(ih _ _ h).1, (ih _ _ h).2⟩
    · simp only [Option.some.injEq, Prod.mk.injEq] at h
      rw [← h.2]; exact ⟨rfl, rfl⟩

theorem reconstructOne_keep {cfg : Cfg α} {s s' : State α} {x : α}
    (h : reconstructOne cfg s = some (s', x)) : Keep s s' := by
  unfold reconstructOne at h
  simp only [Option.bind_eq_bind, Option.bind_eq_some_iff] at h
  obtain ⟨pr, _, y, _, s1, h1, h⟩ := h
  have : s1 = s' := by
    have := Option.some.inj h
    exact (Prod.mk.inj this).1
  subst this
  unfold advance at h1
  simp only at h1
  split at h1
  · simp only [Option.bind_eq_bind, Option.bind_eq_some_iff] at h1
    obtain ⟨s2, h2, h3⟩ := h1
    unfold dropFront at h2
    have h3' := Option.some.inj h3
    rw [← h3']
    split at h2
    · have := Option.some.inj h2
      rw [← this]; exact ⟨rfl, rfl⟩
    · split at h2
      · have := Option.some.inj h2
        rw [← this]; exact ⟨rfl, rfl⟩
      · cases h2
  · have := Option.some.inj h1
    rw [← this]; exact ⟨rfl, rfl⟩

theorem Keep.trans {s t u : State α} (h : Keep s t) (h' : Keep t u) : Keep s u :=
  ⟨h'.1.trans h.1, h'.2.trans h.2⟩

theorem mainLoop_keep {cfg : Cfg α} {final : Bool} {inp : List α} {count : Nat} :
    ∀ (space i o : Nat) (s : State α) (out : List α) {s' : State α} {o' : Nat} {out' : List α},
    mainLoop cfg final inp count space i o s out = some (s', o', out') → Keep s s' := by
  intro space
  induction space with
  | zero =>
    intro i o s out s' o' out' h
    simp only [mainLoop, Option.some.injEq, Prod.mk.injEq] at h
    rw [← h.1]; exact ⟨rfl, rfl⟩
  | succ space ih =>
    intro i o s out s' o' out' h
    unfold mainLoop at h
    simp only [Option.bind_eq_bind, Option.bind_eq_some_iff] at h
    obtain ⟨⟨i1, s1⟩, h1, h⟩ := h
    have k1 := fillLoop_keep inp _ _ _ h1
    simp only at h
    split at h
    · simp only [Option.bind_eq_some_iff] at h
      obtain ⟨⟨s2, x⟩, h2, out1, _, h⟩ := h
      exact (k1.trans (reconstructOne_keep h2)).trans (ih _ _ _ _ h)
    · simp only [Option.some.injEq, Prod.mk.injEq] at h
      rw [← h.1]; exact k1

/-- A resampler that will behave as a new one. -/
structure Idle (cfg : Cfg α) (r : Res α) : Prop where
  initialised : r.initialised = false
  fadeCount : r.fadeCount = 0
  fade : r.fade = {}
  ch : r.s.currentChannel = 0
  sorted : cfg.mostlyFixed = false → r.s.sorted = []

theorem idle_prepare {cfg : Cfg α} {r : Res α} (h : Idle cfg r) (ratio : Rat) (fl : Nat) : prepare cfg r ratio fl = prepare cfg init ratio fl := by
  unfold prepare
  have hi : (init : Res α).initialised = false := rfl
  simp only [h.initialised, hi, Bool.false_eq_true, not_false_eq_true, if_true]
  have hs := stateForRatio_target cfg r.s (init : Res α).s ratio r.fade h.ch h.sorted
  have hf : (init : Res α).fade = r.fade := by rw [h.fade]; rfl
  rw [hs, hf]
  cases stateForRatio cfg (init : Res α).s ratio r.fade with
  | none => rfl
  | some s =>
    simp only [Option.bind_eq_bind, Option.bind_some]
    congr 1
    have e := h.fadeCount
    cases r
    simp only at hf e
    rw [hf.symm]
    simp only [Res.mk.injEq, true_and, e]
    exact ⟨rfl, trivial⟩

theorem idle_run {cfg : Cfg α} : ∀ (ops : List (Op α)) (r : Res α), Idle cfg r → run cfg r ops = run cfg init ops := by
  intro ops
  induction ops with
  | nil => intro r _; rfl
  | cons op ops ih =>
    intro r h
    cases op with
    | reset =>
      have h1 : Idle cfg (reset r) := ⟨rfl, rfl, h.fade, h.ch, h.sorted⟩
      have h2 : Idle cfg (reset (init : Res α)) := ⟨rfl, rfl, rfl, rfl, fun _ => rfl⟩
      simp only [run]
      rw [ih _ h1, ih _ h2]
    | call a =>
      have hp : ∀ fl, prepare cfg r a.ratio fl = prepare cfg init a.ratio fl := idle_prepare h a.ratio
      simp only [run]
      have : resample cfg r a.out a.outspace a.inp a.incount a.ratio a.final =
          resample cfg init a.out a.outspace a.inp a.incount a.ratio a.final := by
        unfold resample
        simp only [hp]
      rw [this]

/-- State of a resampler in a history in which the ratio changes only at resets. -/
structure Calm (cfg : Cfg α) (last : Option Rat) (r : Res α) : Prop where
  sim : ∃ q, SimRes cfg.channels r q ∧ ∀ j, j < cfg.channels → GoodRes (monoCfg cfg) (q j)
  fadeCount : r.fadeCount = 0
  fade : r.fade = {}
  sorted : cfg.mostlyFixed = false → r.s.sorted = []
  ratio : r.initialised = false ∨ last = some r.s.params.ratio

theorem prepare_calm {cfg : Cfg α} {last : Option Rat} {r r' : Res α} (h : Calm cfg last r) {ratio : Rat}
    (hr : ValidRatio ratio) (hl : ∀ x, last = some x → ratio = x) {fl : Nat} (hp : prepare cfg r ratio fl = some r') :
    r'.fadeCount = 0 ∧ r'.fade = {} ∧ (cfg.mostlyFixed = false → r'.s.sorted = []) ∧ r'.s.params.ratio = ratio := by
  unfold prepare at hp
  cases hi : r.initialised with
  | false =>
    simp only [hi, Bool.false_eq_true, not_false_eq_true, if_true, Option.bind_eq_bind, Option.bind_eq_some_iff] at hp
    obtain ⟨s, h1, h2⟩ := hp
    have := Option.some.inj h2
    subst this
    refine ⟨h.fadeCount, h.fade, ?_, ?_⟩
    · intro hm
      simp only
      unfold stateForRatio at h1
      simp only [Option.bind_eq_bind, Option.bind_eq_some_iff] at h1
      obtain ⟨p, _, h1⟩ := h1
      split at h1
      · cases h1
      · simp only [Option.bind_eq_some_iff] at h1
        obtain ⟨⟨t, so⟩, e1, h1⟩ := h1
        have hso : so = [] := by
          unfold phaseDataFor at e1
          simp only [hm, Option.bind_eq_bind, Option.bind_eq_some_iff, Bool.false_eq_true, if_false] at e1
          obtain ⟨t', _, e2⟩ := e1
          have := Option.some.inj e2
          rw [← (Prod.mk.inj this).2]
          exact h.sorted hm
        subst hso
        split at h1
        · cases h1
        · simp only at h1
          split at h1
          · simp only [Option.bind_eq_some_iff] at h1
            obtain ⟨bf, _, ph, _, h1⟩ := h1
            have := Option.some.inj h1
            rw [← this]
          · have := Option.some.inj h1
            rw [← this]
    · simp only
      unfold stateForRatio at h1
      simp only [Option.bind_eq_bind, Option.bind_eq_some_iff] at h1
      obtain ⟨p, e0, h1⟩ := h1
      have hpr : p.ratio = ratio := by
        obtain ⟨p', q1, q2, _⟩ := pickParams_spec cfg hr
        rw [e0] at q1
        rw [Option.some.inj q1]; exact q2
      split at h1
      · cases h1
      · simp only [Option.bind_eq_some_iff] at h1
        obtain ⟨⟨t, so⟩, e1, h1⟩ := h1
        split at h1
        · cases h1
        · simp only at h1
          split at h1
          · simp only [Option.bind_eq_some_iff] at h1
            obtain ⟨bf, _, ph, _, h1⟩ := h1
            have := Option.some.inj h1
            rw [← this]; exact hpr
          · have := Option.some.inj h1
            rw [← this]; exact hpr
  | true =>
    have hlast : last = some r.s.params.ratio := by
      rcases h.ratio with h' | h'
      · rw [hi] at h'; cases h'
      · exact h'
    have heq := hl _ hlast
    simp only [hi, not_true_eq_false, if_false] at hp
    rw [if_neg (by rw [heq]; simp)] at hp
    have := Option.some.inj hp
    subst this
    exact ⟨h.fadeCount, h.fade, h.sorted, heq.symm⟩

theorem calm_call {cfg : Cfg α} (hpos : 0 < cfg.channels) {last : Option Rat} {r : Res α} (h : Calm cfg last r)
    {a : Call α} (ha : a.Valid cfg.channels) (hl : ∀ x, last = some x → a.ratio = x) :
    ∃ r' out n, resample cfg r a.out a.outspace a.inp a.incount a.ratio a.final = some (r', out, n) ∧
      Calm cfg (some a.ratio) r' := by
  obtain ⟨q, hs, hg⟩ := h.sim
  obtain ⟨r', q', n, out', outs', b1, b2, b3, _⟩ := resample_sim rfl hpos hs hg ha.ratio
        (chan_inter ha.out) (chan_inter ha.inp) a.final
  refine ⟨r', out', n, b1, ?_⟩
  have hsim : ∃ q, SimRes cfg.channels r' q ∧ ∀ j, j < cfg.channels → GoodRes (monoCfg cfg) (q j) := by
    refine ⟨q', b3, ?_⟩
    intro j hj
    obtain ⟨r1, o1, n1, d1, d2, _⟩ := resample_good (cfg := monoCfg cfg) rfl (hg j hj) ha.ratio
      (chan cfg.channels j a.outspace a.out) a.outspace (by rw [(chan_length hj ha.out).1])
      (chan cfg.channels j a.incount a.inp) a.incount (by rw [(chan_length hj ha.inp).1]) a.final
    rw [b2 j hj] at d1
    cases d1
    exact d2
  unfold resample at b1
  simp only [Option.bind_eq_bind, Option.bind_eq_some_iff] at b1
  obtain ⟨r1, c1, ⟨s1, o1, out1⟩, c2, ⟨f1, n1, out2⟩, c3, c4⟩ := b1
  obtain ⟨p1, p2, p3, p4⟩ := prepare_calm h ha.ratio hl c1
  have k := mainLoop_keep _ _ _ _ _ c2
  simp only at c3
  have hf : fadeLoop cfg a.inp (a.incount * cfg.channels) (fadeLengthFor cfg a.outspace a.incount a.ratio) o1 0 0 r1.fade 0 out1
      = some (r1.fade, 0, out1) := by
    cases o1 <;> simp [fadeLoop]
  rw [p1, hf] at c3
  simp only [Option.some.injEq, Prod.mk.injEq] at c3
  have c4' := (Prod.mk.inj (Option.some.inj c4)).1
  refine ⟨hsim, ?_, ?_, ?_, ?_⟩
  · rw [← c4']; exact c3.2.1.symm
  · rw [← c4']; simp only; rw [← c3.1]; exact p2
  · intro hm
    rw [← c4']; simp only; rw [k.1]; exact p3 hm
  · right
    rw [← c4']; simp only; rw [k.2, p4]

theorem calm_run {cfg : Cfg α} (hpos : 0 < cfg.channels) {ops : List (Op α)} {res' : List (List α × Nat)}
    (h' : run cfg init ops = some res') : ∀ (hist : List (Op α)) (last : Option Rat) (r : Res α),
    (∀ op ∈ hist, op.Valid cfg.channels) → Steady last hist → Calm cfg last r →
    ∃ res, run cfg r hist = some res ∧ run cfg r (hist ++ .reset :: ops) = some (res ++ res') := by
  intro hist
  induction hist with
  | nil =>
    intro last r _ _ h
    refine ⟨[], rfl, ?_⟩
    obtain ⟨q, hs, _⟩ := h.sim
    have : Idle cfg (reset r) := ⟨rfl, rfl, h.fade, hs.s.ch, h.sorted⟩
    simp only [List.nil_append, run]
    rw [idle_run _ _ this, h']
  | cons op hist ih =>
    intro last r hv hst h
    cases op with
    | reset =>
      obtain ⟨q, hs, hg⟩ := h.sim
      have hc : Calm cfg none (reset r) := ⟨⟨_, reset_sim hs, fun j hj => reset_good (hg j hj)⟩, rfl, h.fade, h.sorted,
        Or.inl rfl⟩
      have hst' : Steady none hist := by cases last <;> exact hst
      exact ih none (reset r) (fun o ho => hv o (by simp [ho])) hst' hc
    | call a =>
      have hl : (∀ x, last = some x → a.ratio = x) ∧ Steady (some a.ratio) hist := by
        cases last with
        | none => exact ⟨fun x hx => (by cases hx), hst⟩
        | some y =>
          obtain ⟨e1, e2⟩ := hst
          exact ⟨fun x hx => (by cases hx; exact e1), (by rw [e1]; exact e2)⟩
      obtain ⟨r', out, n, b1, b2⟩ := calm_call hpos h (hv (.call a) (by simp)) hl.1
      obtain ⟨res, c1, c2⟩ := ih _ r' (fun o ho => hv o (by simp [ho])) hl.2 b2
      refine ⟨(out, n) :: res, ?_, ?_⟩
      · simp only [run, b1, Option.bind_eq_bind, Option.bind_some, c1]; rfl
      · simp only [List.cons_append, run, b1, Option.bind_eq_bind, Option.bind_some]
        rw [c2]; rfl

/-- **C23 (partial).**  For every history of valid calls and resets in which the ratio changed only
at resets, whatever is done after a reset gives what it would give with a resampler just
constructed.  Missing: histories in which the ratio changed between resets, for which it is
false (`C23_violated`). -/
theorem C23_partial {cfg : Cfg α} (hpos : 0 < cfg.channels) {hist ops : List (Op α)}
    (hv : ∀ op ∈ hist, op.Valid cfg.channels) (hv' : ∀ op ∈ ops, op.Valid cfg.channels)
    (hs : Steady none hist) :
    ∃ res res', run cfg init hist = some res ∧ run cfg init ops = some res' ∧
      run cfg init (hist ++ .reset :: ops) = some (res ++ res') := by
  obtain ⟨res', b1, _⟩ := C21_bounds hpos hv'
  obtain ⟨res, c1, c2⟩ := calm_run hpos b1 hist none init hv hs
    ⟨⟨_, init_sim _, fun _ _ => init_good _⟩, rfl, rfl, fun _ => rfl, Or.inl rfl⟩
  exact ⟨res, res', c1, b1, c2⟩

example : Steady none ([.call (Ex.call (Ex.ramp 1 10) 10 30 1 false), .call (Ex.call (Ex.ramp 11 3) 3 30 1 false), .reset,
    .call (Ex.call (Ex.ramp 11 3) 3 30 2 false)] : List (Op Int)) := by
  simp [Steady, Ex.call]

end Verif.BQ
