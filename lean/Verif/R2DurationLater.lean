import Verif.R2Duration
/-!
# The faster engine: the expected duration in real time, with calls of every kind afterwards (C45)
-/
namespace Verif.R2
open Verif.Round Verif.StretchCalc

variable {α σ ρ κ : Type} [Zero α] [Add α] [Sub α] {p : Params} {env : Env α σ ρ κ}

/-- A state with another expected duration. -/
def State.expecting (s : State α σ ρ κ) (d : Nat) : State α σ ρ κ := { s with expected := d }

omit [Zero α] [Add α] [Sub α] in
theorem resize_expecting {s t : State α σ ρ κ} {a b : R3.Dbl} {d : Nat} (he : s.expected = 0) (h : resize p s a b = some t) (hd : 4 * t.sizes.increment ≤ d) :
    resize p (s.expecting d) a b = some (t.expecting d) := by
  unfold resize at h ⊢
  obtain ⟨z, hz, h⟩ := Option.bind_eq_some_iff.mp h
  cases h
  rw [he] at hz
  rw [show (s.expecting d).expected = d from rfl, calculateSizes_long hz hd]
  rfl

omit [Add α] [Sub α] in
theorem reconfigure_expecting (hp : p.realTime = true) {s t : State α σ ρ κ} {a b : R3.Dbl} {d : Nat} (he : s.expected = 0) (h : reconfigure p env s a b = some t)
    (hd : 4 * t.sizes.increment ≤ d) : reconfigure p env (s.expecting d) a b = some (t.expecting d) := by
  unfold reconfigure at h ⊢
  rw [if_pos hp] at h ⊢
  obtain ⟨u, hu, h⟩ := Option.bind_eq_some_iff.mp h
  cases h
  rw [resize_expecting he hu hd]
  rfl

omit [Add α] [Sub α] in
/-- Sizes calculated again from what they were calculated from are what they were. -/
theorem reconfigure_same (hp : p.realTime = true) {s : State α σ ρ κ} (hc : Chosen p s) :
    reconfigure p env s (.fin s.sizes.timeRatio) (.fin s.sizes.pitchScale) = some s := by
  have hres : resize p s (.fin s.sizes.timeRatio) (.fin s.sizes.pitchScale) = some s := by
    unfold resize
    rw [hc.sizes]
    simp only [Option.bind_eq_bind, Option.bind_some, hp, if_true]
    have hm : max s.maxProcessSize s.sizes.window = s.maxProcessSize := Nat.max_eq_left hc.longest
    rw [hm, ← hc.outbuf]
    rfl
  unfold reconfigure
  rw [if_pos hp, hres]
  simp only [Option.bind_eq_bind, Option.bind_some, ne_eq, not_true_eq_false, if_false]
  rfl

/-- Calls for the example below. -/
def Ex.changes : List (Call Int) :=
  [.setTimeRatio (.fin (3 / 2)), .process (Ex.block 300) false, .retrieve 20, .setPitchScale (.fin (4 / 5)), .setMaxProcessSize 3000, .reset, .process (Ex.block 200) false]

/-- The states of a stretcher without the duration, and with it: the same, or the same but for it. -/
def AlikeBut (d : Nat) (s t : State α σ ρ κ) : Prop := t = s ∨ s.expected = 0 ∧ t = s.expecting d

omit [Add α] [Sub α] in
theorem setExpected_expecting (hp : p.realTime = true) {s : State α σ ρ κ} (hc : Chosen p s) (he : s.expected = 0) {d : Nat} (hd : 4 * s.sizes.increment ≤ d) :
    setExpectedInputDuration p env s d = some (s.expecting d) := by
  unfold setExpectedInputDuration
  split
  · rename_i h
    rw [h]
    rfl
  · exact reconfigure_expecting hp he (reconfigure_same hp hc) hd

theorem call_alikeBut (hp : p.realTime = true) {s t s' : State α σ ρ κ} {d : Nat} (hc : Chosen p s) (hst : AlikeBut d s t) (hd : 4 * s.sizes.increment ≤ d) {c : Call α} {out : List (List α)}
    (h : call p env s c = some (s', out)) (hd' : 4 * s'.sizes.increment ≤ d) : ∃ t', call p env t c = some (t', out) ∧ AlikeBut d s' t' := by
  rcases hst with rfl | ⟨he, rfl⟩
  · exact ⟨s', h, Or.inl rfl⟩
  have hsettled : Settled c → ∃ t', call p env (s.expecting d) c = some (t', out) ∧ AlikeBut d s' t' := by
    intro q
    have e := settled_outer hp q h
    have := outer_call (env := env) hp d s.outbufSize s.maxProcessSize s q
    rw [h] at this
    refine ⟨s'.expecting d, this.trans ?_, Or.inr ⟨e.expected.trans he, rfl⟩⟩
    show some (s'.outer d s.outbufSize s.maxProcessSize, out) = _
    rw [← e.outbuf, ← e.longest]
    rfl
  cases c with
  | setTimeRatio r =>
    obtain ⟨u, hu, e⟩ := Option.map_eq_some_iff.mp h
    cases e
    refine ⟨s'.expecting d, ?_, ?_⟩
    · show (setTimeRatio p env (s.expecting d) r).map _ = _
      suffices setTimeRatio p env (s.expecting d) r = some (s'.expecting d) by rw [this]; rfl
      unfold setTimeRatio at hu ⊢
      rw [show locked p (s.expecting d) = locked p s from rfl, show (s.expecting d).sizes = s.sizes from rfl]
      split at hu
      · rename_i q
        cases hu
        rw [if_pos q]
      · rename_i q
        rw [if_neg q]
        split at hu
        · rename_i q
          cases hu
          rw [if_pos q]
        · rename_i q
          rw [if_neg q]
          exact reconfigure_expecting hp he hu hd'
    · unfold setTimeRatio at hu
      split at hu
      · cases hu; exact Or.inr ⟨he, rfl⟩
      · split at hu
        · cases hu; exact Or.inr ⟨he, rfl⟩
        · exact Or.inr ⟨(reconfigure_chosen hp hu).2.trans he, rfl⟩
  | setPitchScale r =>
    obtain ⟨u, hu, e⟩ := Option.map_eq_some_iff.mp h
    cases e
    suffices setPitchScale p env (s.expecting d) r = some (s'.expecting d) ∧ s'.expected = 0 from
      ⟨s'.expecting d, by show (setPitchScale p env (s.expecting d) r).map _ = _; rw [this.1]; rfl, Or.inr ⟨this.2, rfl⟩⟩
    unfold setPitchScale at hu ⊢
    rw [show locked p (s.expecting d) = locked p s from rfl, show (s.expecting d).sizes = s.sizes from rfl]
    split at hu
    · rename_i q
      cases hu
      rw [if_pos q]
      exact ⟨rfl, he⟩
    · rename_i q
      rw [if_neg q]
      split at hu
      · rename_i q
        cases hu
        rw [if_pos q]
        exact ⟨rfl, he⟩
      · rename_i q
        rw [if_neg q]
        obtain ⟨v, hv, e⟩ := Option.map_eq_some_iff.mp hu
        have hz : s'.sizes = v.sizes := by
          rw [← e]
          unfold resetResamplers
          split <;> rfl
        have hx : s'.expected = v.expected := by
          rw [← e]
          unfold resetResamplers
          split <;> rfl
        rw [hz] at hd'
        rw [reconfigure_expecting hp he hv hd', Option.map_some, ← e]
        refine ⟨congrArg some ?_, by rw [e, hx]; exact (reconfigure_chosen hp hv).2.trans he⟩
        unfold resetResamplers
        rw [show (v.expecting d).sizes = v.sizes from rfl]
        split <;> rfl
  | setExpectedInputDuration n =>
    obtain ⟨u, hu, e⟩ := Option.map_eq_some_iff.mp h
    cases e
    suffices ∃ t', setExpectedInputDuration p env (s.expecting d) n = some t' ∧ AlikeBut d s' t' by
      obtain ⟨t', a, b⟩ := this
      exact ⟨t', by show (setExpectedInputDuration p env (s.expecting d) n).map _ = _; rw [a]; rfl, b⟩
    by_cases hn : n = d
    · subst hn
      rw [setExpected_expecting hp hc he hd] at hu
      cases hu
      refine ⟨s.expecting n, ?_, Or.inl rfl⟩
      unfold setExpectedInputDuration
      rw [if_pos (show n = (s.expecting n).expected from rfl)]
    · by_cases h0 : n = 0
      · subst h0
        unfold setExpectedInputDuration at hu ⊢
        rw [if_pos he.symm] at hu
        cases hu
        rw [if_neg (show ¬ (0 = (s.expecting d).expected) from hn)]
        refine ⟨s, ?_, Or.inl rfl⟩
        have : ({ s.expecting d with expected := 0 } : State α σ ρ κ) = s := by
          rw [← he]
          rfl
        rw [this]
        exact reconfigure_same hp hc
      · unfold setExpectedInputDuration at hu ⊢
        rw [if_neg (by rw [he]; exact h0)] at hu
        rw [if_neg (show ¬ (n = (s.expecting d).expected) from hn)]
        exact ⟨s', hu, Or.inl rfl⟩
  | setMaxProcessSize n =>
    obtain ⟨u, hu, e⟩ := Option.map_eq_some_iff.mp h
    cases e
    suffices setMaxProcessSize p env (s.expecting d) n = some (s'.expecting d) ∧ s'.expected = 0 from
      ⟨s'.expecting d, by show (setMaxProcessSize p env (s.expecting d) n).map _ = _; rw [this.1]; rfl, Or.inr ⟨this.2, rfl⟩⟩
    unfold setMaxProcessSize at hu ⊢
    rw [show (s.expecting d).maxProcessSize = s.maxProcessSize from rfl, show (s.expecting d).sizes = s.sizes from rfl]
    split at hu
    · rename_i q
      cases hu
      rw [if_pos q]
      exact ⟨rfl, he⟩
    · rename_i q
      rw [if_neg q]
      exact ⟨reconfigure_expecting (s := { s with maxProcessSize := n }) hp he hu hd', (reconfigure_chosen hp hu).2.trans he⟩
  | reset => exact ⟨s', h, Or.inl rfl⟩
  | setKeyFrameMap m => exact hsettled (by unfold Settled; trivial)
  | study input final => exact hsettled (by unfold Settled; trivial)
  | process input final => exact hsettled (by unfold Settled; trivial)
  | available => exact hsettled (by unfold Settled; trivial)
  | retrieve n => exact hsettled (by unfold Settled; trivial)

theorem run_alikeBut (hp : p.realTime = true) {d : Nat} : ∀ (cs : List (Call α)) (s t : State α σ ρ κ) (r : State α σ ρ κ × List (List (List α))), Chosen p s → AlikeBut d s t →
    (∀ k u o, run p env s (cs.take k) = some (u, o) → 4 * u.sizes.increment ≤ d) → run p env s cs = some r →
    ∃ t', run p env t cs = some (t', r.2) := by
  intro cs
  induction cs with
  | nil =>
    intro s t r _ _ _ h
    cases h
    exact ⟨t, rfl⟩
  | cons c cs ih =>
    intro s t r hc hst hd h
    unfold run at h
    obtain ⟨⟨x, o⟩, hx, h⟩ := Option.bind_eq_some_iff.mp h
    obtain ⟨y, hy, h⟩ := Option.bind_eq_some_iff.mp h
    cases h
    have h1 := hd 1 x [o] (by
      show (call p env s c).bind _ = _
      rw [hx]
      rfl)
    obtain ⟨t', a, b⟩ := call_alikeBut hp hc hst (hd 0 s [] rfl) hx h1
    obtain ⟨t'', g⟩ := ih x t' y (call_chosen hp hc hx) b (fun k u os hk => hd (k + 1) u (o :: os) (by
      show (call p env s c).bind _ = _
      rw [hx]
      simp only [Option.bind_some, hk]
      rfl)) hy
    refine ⟨t'', ?_⟩
    unfold run
    rw [a]
    simp only [Option.bind_eq_bind, Option.bind_some, g]
    rfl

/-- **C45 (partial), with whatever calls afterwards.**  In real time, of a stretcher to which whatever was done before, to which no duration has been told since the last reset:
if whatever calls follow (of every kind: changes of the ratios, `setMaxProcessSize`, `reset`, `setExpectedInputDuration` itself), and at no time in the course of them four
increments are more than `d` samples, then after `setExpectedInputDuration(d)` they end too, and what is retrieved is the same.
Missing: durations of less than four increments, of which C45 is false (`C45_violated`). -/
theorem C45_later_partial (hp : p.realTime = true) {a b : R3.Dbl} {s₀ s : State α σ ρ κ} {pre cs : List (Call α)} {outs : List (List (List α))} {d : Nat}
    (h0 : create p env a b = some s₀) (hrun : run p env s₀ pre = some (s, outs)) (he : s.expected = 0)
    (hd : ∀ k u o, run p env s (cs.take k) = some (u, o) → 4 * u.sizes.increment ≤ d) {r : State α σ ρ κ × List (List (List α))} (h : run p env s cs = some r) :
    (run p env s (.setExpectedInputDuration d :: cs)).map (fun r => r.2) = some ([] :: r.2) := by
  have hc := run_chosen hp pre s₀ s outs (create_chosen hp h0).1 hrun
  obtain ⟨t', g⟩ := run_alikeBut hp cs s (s.expecting d) r hc (Or.inr ⟨he, rfl⟩) hd h
  show ((call p env s (.setExpectedInputDuration d)).bind _).map _ = _
  rw [show call p env s (.setExpectedInputDuration d) = some (s.expecting d, []) from by
    show (setExpectedInputDuration p env s d).map _ = _
    rw [setExpected_expecting hp hc he (hd 0 s [] rfl)]
    rfl]
  simp only [Option.bind_some, g]
  rfl

/-- The hypotheses can be met: a duration of 2000, and afterwards changes of both ratios, a larger maximum, and a reset. -/
example : ∃ s₀ s : State Int Unit Unit Unit, ∃ outs r, create Ex.live demo (.fin 2) (.fin 1) = some s₀ ∧
    run Ex.live demo s₀ [.process (Ex.block 200) false] = some (s, outs) ∧ s.expected = 0 ∧
    (∀ k u o, run Ex.live demo s (Ex.changes.take k) = some (u, o) → 4 * u.sizes.increment ≤ 2000) ∧ run Ex.live demo s Ex.changes = some r := by
  have hrun : (create Ex.live demo (.fin 2) (.fin 1)).bind (fun s₀ =>
      (run Ex.live demo s₀ [.process (Ex.block 200) false]).map fun x => decide (x.1.expected = 0) && (run Ex.live demo x.1 Ex.changes).isSome &&
        (List.range 8).all fun k => (run Ex.live demo x.1 (Ex.changes.take k)).all fun y => decide (4 * y.1.sizes.increment ≤ 2000)) =
      some true := by decide +kernel
  obtain ⟨s₀, h1, h2⟩ := Option.bind_eq_some_iff.mp hrun
  obtain ⟨⟨s, o⟩, h3, h4⟩ := Option.map_eq_some_iff.mp h2
  simp only [Bool.and_eq_true, decide_eq_true_eq, List.all_eq_true, List.mem_range] at h4
  obtain ⟨r, hr⟩ := Option.isSome_iff_exists.mp h4.1.2
  refine ⟨s₀, s, o, r, h1, h3, h4.1.1, ?_, hr⟩
  intro k u o' hk
  have key : ∀ j < 8, run Ex.live demo s (Ex.changes.take j) = some (u, o') → 4 * u.sizes.increment ≤ 2000 := by
    intro j hj e
    have := h4.2 j hj
    rw [e] at this
    simpa using this
  by_cases q : k < 8
  · exact key k q hk
  · refine key 7 (by omega) ?_
    rw [List.take_of_length_le (show Ex.changes.length ≤ k from le_trans (show Ex.changes.length ≤ 7 by decide) (by omega))] at hk
    exact hk

end Verif.R2
