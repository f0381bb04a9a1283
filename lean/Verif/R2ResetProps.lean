import Verif.R2OfflineProps
/-!
# The faster engine: what `reset` forgets (C39)
-/
namespace Verif.R2
open Verif.Round Verif.StretchCalc

variable {α σ ρ κ : Type}

/-! ## What the output depends on -/

/-- The same for counting. -/
structure Level (x y : Syn α σ) : Prop where
  fill : x.fill = y.fill
  count : x.count = y.count

theorem level_frame (env : Env α σ ρ κ) (z : Sizes) (incs : List Int) (frame : List α) {x y : Syn α σ} (h : Level x y) :
    Level (frameStep env z incs frame x).1 (frameStep env z incs frame y).1 ∧ (frameStep env z incs frame x).2.length = (frameStep env z incs frame y).2.length := by
  unfold frameStep
  simp only [List.length_map, List.length_range]
  rw [h.count, h.fill]
  exact ⟨⟨rfl, rfl⟩, rfl⟩

theorem level_drain (env : Env α σ ρ κ) (z : Sizes) (incs : List Int) {x y : Syn α σ} (h : Level x y) :
    Level (drainStep env z incs x).1 (drainStep env z incs y).1 ∧ (drainStep env z incs x).2.length = (drainStep env z incs y).2.length := by
  unfold drainStep drainBy
  simp only [List.length_map, List.length_range]
  rw [h.count, h.fill]
  exact ⟨⟨rfl, rfl⟩, rfl⟩

theorem level_synAt (env : Env α σ ρ κ) (z : Sizes) (incs : List Int) {x y : Syn α σ} (h : Level x y) (X : List α) : ∀ j,
    Level (synAt env z incs x X j).1 (synAt env z incs y X j).1 := by
  intro j
  induction j with
  | zero => exact h
  | succ j ih => exact (level_frame env z incs _ ih).1

/-- As much has been heard, and counted. -/
def Even (w v : List α × Nat) : Prop := w.1.length = v.1.length ∧ w.2 = v.2

theorem even_trim (skip T o : Nat) {out out' : List α} (h : out.length = out'.length) :
    (trim skip T o out).1.length = (trim skip T o out').1.length ∧ (trim skip T o out).2 = (trim skip T o out').2 := by
  unfold trim
  rw [h]
  split
  · split
    · exact ⟨by rw [List.length_take, List.length_take, h], rfl⟩
    · exact ⟨h, rfl⟩
  · split
    · exact ⟨rfl, rfl⟩
    · exact ⟨by rw [List.length_drop, List.length_drop, h], rfl⟩

theorem even_hear (skip T : Nat) {w v : List α × Nat} (hw : Even w v) {out out' : List α} (h : out.length = out'.length) :
    Even (hearStep skip T w out) (hearStep skip T v out') := by
  unfold hearStep Even
  obtain ⟨e1, e2⟩ := even_trim skip T v.2 h
  simp only [List.length_append]
  rw [hw.1, hw.2, e1, e2]
  exact ⟨rfl, rfl⟩

theorem even_hearAt (env : Env α σ ρ κ) (z : Sizes) (incs : List Int) {x y : Syn α σ} (h : Level x y) (skip T : Nat) (X : List α) : ∀ j,
    Even (hearAt env z incs x skip T X j) (hearAt env z incs y skip T X j) := by
  intro j
  induction j with
  | zero => exact ⟨rfl, rfl⟩
  | succ j ih => exact even_hear skip T ih (level_frame env z incs _ (level_synAt env z incs h X j)).2

theorem even_hearDrain (env : Env α σ ρ κ) (z : Sizes) (incs : List Int) (skip T : Nat) : ∀ (f : Nat) {x y : Syn α σ} (_ : Level x y) {w v : List α × Nat} (_ : Even w v),
    Even (hearDrain env z incs skip T f x w) (hearDrain env z incs skip T f y v) := by
  intro f
  induction f with
  | zero => intro x y _ w v hw; exact hw
  | succ f ih =>
    intro x y h w v hw
    unfold hearDrain
    rw [h.fill]
    split
    · exact hw
    · obtain ⟨e1, e2⟩ := level_drain env z incs h
      exact ih e1 (even_hear skip T hw e2)

/-- How much is heard depends neither on the spectral state nor on what is in the frame buffer. -/
theorem output_even [Zero α] (p : Params) (env : Env α σ ρ κ) (z : Sizes) (incs : List Int) {x y : Syn α σ} (h : Level x y) (input : List α) :
    (output p env z incs x input).length = (output p env z incs y input).length := by
  have hs := level_synAt env z incs h (padded z input) (frames z input.length)
  unfold output
  rw [hs.fill]
  exact (even_hearDrain env z incs _ _ _ hs (even_hearAt env z incs h _ _ _ _)).1

/-- Nor does what is heard depend on what is in the frame buffer, if there is enough for a frame. -/
theorem output_same [Zero α] (p : Params) (env : Env α σ ρ κ) (z : Sizes) (incs : List Int) {x y : Syn α σ} (h : Level x y) (hs : x.spec = y.spec) {input : List α}
    (hn : z.window ≤ (padded z input).length) : output p env z incs x input = output p env z incs y input := by
  have h1 : frameStep env z incs ((padded z input).take z.window) x = frameStep env z incs ((padded z input).take z.window) y := by
    have e : ((List.range z.window).map fun i => ((padded z input).take z.window).getD i (x.flt i)) =
        (List.range z.window).map fun i => ((padded z input).take z.window).getD i (y.flt i) := by
      apply List.map_congr_left
      intro i hi
      rw [List.mem_range] at hi
      have hl : i < ((padded z input).take z.window).length := by rw [List.length_take]; omega
      rw [List.getD_eq_getElem?_getD, List.getD_eq_getElem?_getD, List.getElem?_eq_getElem hl]
      rfl
    unfold frameStep
    rw [e, hs, h.fill, h.count]
  have hsyn : ∀ j, synAt env z incs x (padded z input) (j + 1) = synAt env z incs y (padded z input) (j + 1) := by
    intro j
    induction j with
    | zero =>
      unfold synAt synAt
      simp only [Nat.zero_mul, List.drop_zero]
      rw [h1]
    | succ j ih =>
      unfold synAt
      rw [ih]
  have hhear : ∀ j, hearAt env z incs x (startSkip p z) (target z input.length) (padded z input) (j + 1) =
      hearAt env z incs y (startSkip p z) (target z input.length) (padded z input) (j + 1) := by
    intro j
    induction j with
    | zero =>
      unfold hearAt hearAt synAt
      simp only [Nat.zero_mul, List.drop_zero]
      rw [h1]
    | succ j ih =>
      unfold hearAt
      rw [ih, hsyn]
  unfold output frames
  rw [hsyn, hhear]

section
variable [Zero α] [Add α] [Sub α] {p : Params} {env : Env α σ ρ κ}

/-- The counts of a channel at the beginning. -/
theorem initial_level {s t s' t' : State α σ ρ κ} (h : Prepared p env s t) (h' : Prepared p env s' t') (hp : p.realTime = false) {c : Nat} (hc : c < p.channels) :
    Level (initial env t c) (initial env t' c) := by
  have key : ∀ {s t : State α σ ρ κ}, Prepared p env s t → (initial env t c).fill = 0 ∧ (initial env t c).count = 0 := by
    intro s t h
    obtain ⟨_, _, a3, a4⟩ := prologue_clean (h.ready hp).1 h.start
    unfold initial
    rw [List.getElem?_eq_getElem (by omega)]
    have := (a4 _ (List.getElem_mem (by omega : c < t.chans.length))).1
    exact ⟨this.fill, this.chunkCount⟩
  obtain ⟨a1, a2⟩ := key h
  obtain ⟨b1, b2⟩ := key h'
  exact ⟨a1.trans b1.symm, a2.trans b2.symm⟩

/-- The past of a stretcher offline does not matter but for its sizes, its stretch profile and its spectral state: two of them that agree in sizes and profile give as much
of each channel for the same input; and the same samples, if the spectral state of the channel is the same and there is enough input for a frame. -/
theorem past_forgotten {s t s' t' : State α σ ρ κ} (hs : Prepared p env s t) (hs' : Prepared p env s' t') (hz : t'.sizes = t.sizes)
    (hi : t'.outputIncrements = t.outputIncrements) {input : List (Frame α)} {final : Bool} {cs : List (Call α)} (hcs : ∀ c ∈ cs, Playing c)
    (hend : ends (.process input final :: cs) = true) (h : Ordinary p t (given (.process input final :: cs)).length) :
    ∃ r o r' o', run p env s (.process input final :: cs) = some (r, o) ∧ run p env s' (.process input final :: cs) = some (r', o') ∧
      r.chans.length = p.channels ∧ r'.chans.length = p.channels ∧
      ∀ (c : Nat) cd cd', r.chans[c]? = some cd → r'.chans[c]? = some cd' →
        (delivered o c ++ cd.outbuf.data).length = (delivered o' c ++ cd'.outbuf.data).length ∧
        (Apart p → (initial env t c).spec = (initial env t' c).spec → t.sizes.window - t.sizes.window / 2 ≤ (given (.process input final :: cs)).length →
          delivered o c ++ cd.outbuf.data = delivered o' c ++ cd'.outbuf.data) := by
  obtain ⟨r, o, a1, a2, a3⟩ := ordinary_lengths hs hcs hend h
  have h' : Ordinary p t' (given (.process input final :: cs)).length :=
    ⟨h.offline, h.consistency, h.rate, by rw [hz]; exact h.pitch, by rw [hz]; exact h.ratio, by rw [hz, hi]; exact h.short, by rw [hz, hi]; exact h.early⟩
  obtain ⟨r', o', b1, b2, b3⟩ := ordinary_lengths hs' hcs hend h'
  refine ⟨r, o, r', o', a1, b1, a2, b2, ?_⟩
  intro c cd cd' hc hc'
  have hcl : c < p.channels := by rw [← a2]; exact (List.getElem?_eq_some_iff.mp hc).1
  have hlev := initial_level hs hs' h.offline hcl
  refine ⟨?_, fun hap hspec hn => ?_⟩
  · rw [List.length_append, List.length_append, (a3 c cd hc).2, (b3 c cd' hc').2, hz, hi]
    exact output_even p env _ _ hlev _
  · obtain ⟨r₁, o₁, c1, _, c3⟩ := ordinary_run hap hs hcs hend h
    obtain ⟨r₂, o₂, d1, _, d3⟩ := ordinary_run hap hs' hcs hend h'
    rw [a1] at c1
    rw [b1] at d1
    cases c1
    cases d1
    rw [(c3 c cd hc).2, (d3 c cd' hc').2, hz, hi]
    refine output_same p env _ _ hlev hspec ?_
    rw [padded_length, List.length_map]
    omega

/-! ## Histories without study -/

/-- Whether a call is `study`. -/
def Studies : Call α → Prop
  | .study _ _ => True
  | _ => False

/-- No stretch profile, and none about to be calculated. -/
structure Unstudied (s : State α σ ρ κ) : Prop where
  incs : s.outputIncrements = []
  mode : s.mode ≠ .studying

omit [Add α] [Sub α] in
theorem configure_keeps {first : Bool} {s t : State α σ ρ κ} {a b : R3.Dbl} (h : configure p env first s a b = some t) :
    t.outputIncrements = s.outputIncrements ∧ t.mode = s.mode ∧ calculateSizes p s.expected a b = some t.sizes := by
  unfold configure at h
  obtain ⟨u, hu, h⟩ := Option.bind_eq_some_iff.mp h
  obtain ⟨fresh, hfresh, h⟩ := Option.bind_eq_some_iff.mp h
  unfold resize at hu
  obtain ⟨z, hz, hu⟩ := Option.bind_eq_some_iff.mp hu
  cases h
  cases hu
  exact ⟨rfl, rfl, hz⟩

omit [Add α] [Sub α] in
theorem reconfigure_keeps (hp : p.realTime = false) {s t : State α σ ρ κ} (hm : s.mode ≠ .studying) {a b : R3.Dbl} (h : reconfigure p env s a b = some t) :
    t.outputIncrements = s.outputIncrements ∧ t.mode = s.mode ∧ calculateSizes p s.expected a b = some t.sizes := by
  unfold reconfigure at h
  simp only [hp, Bool.false_eq_true, if_false, hm] at h
  exact configure_keeps h

theorem call_unstudied (hp : p.realTime = false) {s t : State α σ ρ κ} (hk : Kept p s) (h0 : Unstudied s) {c : Call α} (hc : ¬ Studies c) {o : List (List α)}
    (h : call p env s c = some (t, o)) : Unstudied t := by
  have go : ∀ {u v : State α σ ρ κ} {a b : R3.Dbl}, Unstudied u → reconfigure p env u a b = some v → Unstudied v := by
    intro u v a b hu hv
    obtain ⟨e1, e2, _⟩ := reconfigure_keeps hp hu.mode hv
    exact ⟨by rw [e1]; exact hu.incs, by rw [e2]; exact hu.mode⟩
  cases c with
  | setTimeRatio r =>
    obtain ⟨u, hu, e⟩ := Option.map_eq_some_iff.mp h
    cases e
    unfold setTimeRatio at hu
    split at hu
    · cases hu; exact h0
    · split at hu
      · cases hu; exact h0
      · exact go h0 hu
  | setPitchScale r =>
    obtain ⟨u, hu, e⟩ := Option.map_eq_some_iff.mp h
    cases e
    unfold setPitchScale at hu
    split at hu
    · cases hu; exact h0
    · split at hu
      · cases hu; exact h0
      · obtain ⟨v, hv, e⟩ := Option.map_eq_some_iff.mp hu
        have := go h0 hv
        rw [← e]
        unfold resetResamplers
        split
        · exact ⟨this.incs, this.mode⟩
        · exact this
  | setExpectedInputDuration n =>
    obtain ⟨u, hu, e⟩ := Option.map_eq_some_iff.mp h
    cases e
    unfold setExpectedInputDuration at hu
    split at hu
    · cases hu; exact h0
    · exact go (u := { s with expected := n }) ⟨h0.incs, h0.mode⟩ hu
  | setMaxProcessSize n =>
    obtain ⟨u, hu, e⟩ := Option.map_eq_some_iff.mp h
    cases e
    unfold setMaxProcessSize at hu
    split at hu
    · cases hu; exact h0
    · exact go (u := { s with maxProcessSize := n }) ⟨h0.incs, h0.mode⟩ hu
  | setKeyFrameMap m =>
    cases h
    unfold setKeyFrameMap
    split
    · exact h0
    · split
      · exact h0
      · exact ⟨h0.incs, h0.mode⟩
  | study input final => exact absurd trivial hc
  | process input final =>
    obtain ⟨u, hu, e⟩ := Option.map_eq_some_iff.mp h
    cases e
    unfold process at hu
    split at hu
    · cases hu; exact h0
    · obtain ⟨v, hv, hu⟩ := Option.bind_eq_some_iff.mp hu
      obtain ⟨w, hw, hu⟩ := Option.bind_eq_some_iff.mp hu
      cases hu
      have hv' : Unstudied v ∧ v.chans = s.chans ∧ v.sizes = s.sizes := by
        unfold prologue at hv
        split at hv
        · rename_i hm
          exact absurd hm h0.mode
        · cases hv
          exact ⟨⟨h0.incs, by simp⟩, rfl, rfl⟩
        · cases hv
          exact ⟨h0, rfl, rfl⟩
      obtain ⟨_, _, c3, c4, _⟩ := processLoop_roomy hp _ _ _ _ (by simp) (by rw [hv'.2.1, hv'.2.2]; exact hk.roomy) hw
      refine ⟨by simp only; rw [c4]; exact hv'.1.incs, ?_⟩
      simp only
      split
      · decide
      · rw [c3]; exact hv'.1.mode
  | available =>
    obtain ⟨⟨u, n⟩, hu, e⟩ := Option.map_eq_some_iff.mp h
    cases e
    obtain ⟨v, hv, e⟩ := Option.map_eq_some_iff.mp hu
    cases e
    unfold finish at hv
    split at hv
    · cases hv; exact h0
    · split at hv
      · rw [hp, if_neg (by decide)] at hv
        obtain ⟨l, hl, e⟩ := Option.map_eq_some_iff.mp hv
        rw [← e]
        exact ⟨h0.incs, h0.mode⟩
      · cases hv; exact h0
  | retrieve n =>
    cases h
    exact ⟨h0.incs, h0.mode⟩
  | reset =>
    obtain ⟨u, hu, e⟩ := Option.map_eq_some_iff.mp h
    cases e
    unfold reset at hu
    exact go (u := { s with
      calculator := StretchCalc.reset s.calculator, chans := s.chans.map (Chan.reset env), mode := .justCreated,
      curves := env.curveReset s.curves, expected := 0, maxProcessSize := 0, inputDuration := 0, silentHistory := 0 }) ⟨h0.incs, by simp⟩ hu

theorem run_unstudied (hp : p.realTime = false) : ∀ (cs : List (Call α)) (s t : State α σ ρ κ) (outs : List (List (List α))), Kept p s → Unstudied s →
    (∀ c ∈ cs, ¬ Studies c) → run p env s cs = some (t, outs) → Unstudied t := by
  intro cs
  induction cs with
  | nil => intro s t outs _ h0 _ h; cases h; exact h0
  | cons c cs ih =>
    intro s t outs hk h0 hc h
    unfold run at h
    obtain ⟨⟨s1, o⟩, h1, h⟩ := Option.bind_eq_some_iff.mp h
    obtain ⟨⟨s2, os⟩, h2, h⟩ := Option.bind_eq_some_iff.mp h
    cases h
    exact ih s1 _ _ (call_kept hp hk h1) (call_unstudied hp hk h0 (hc c (List.mem_cons_self ..)) h1) (fun c' hc' => hc c' (List.mem_cons_of_mem _ hc')) h2

omit [Add α] [Sub α] in
theorem create_unstudied {a b : R3.Dbl} {s : State α σ ρ κ} (h : create p env a b = some s) :
    s.outputIncrements = [] ∧ s.mode = .justCreated ∧ calculateSizes p 0 a b = some s.sizes := configure_keeps h

theorem run_append (cs ds : List (Call α)) : ∀ (s t u : State α σ ρ κ) (o o' : List (List (List α))), run p env s cs = some (t, o) → run p env t ds = some (u, o') →
    run p env s (cs ++ ds) = some (u, o ++ o') := by
  induction cs with
  | nil => intro s t u o o' h h'; cases h; exact h'
  | cons c cs ih =>
    intro s t u o o' h h'
    unfold run at h
    obtain ⟨⟨s1, o1⟩, h1, h⟩ := Option.bind_eq_some_iff.mp h
    obtain ⟨⟨s2, os⟩, h2, h⟩ := Option.bind_eq_some_iff.mp h
    cases h
    show run p env s (c :: (cs ++ ds)) = _
    unfold run
    rw [h1]
    show (run p env s1 (cs ++ ds)).bind _ = _
    rw [ih s1 _ u os o' h2 h']
    rfl

/-! ## C39 -/

/-- **C39** in full: whatever its history, a stretcher that has been reset gives as much, call by call, as one newly made with its ratios. -/
def C39_statement : Prop :=
  ∀ {α σ ρ κ : Type} [Zero α] [Add α] [Sub α] (p : Params) (env : Env α σ ρ κ) (a b : R3.Dbl) (s₀ s s₁ s₂ : State α σ ρ κ) (pre cs : List (Call α)) (outs : List (List (List α))),
    create p env a b = some s₀ → run p env s₀ pre = some (s, outs) → reset p env s = some s₁ →
    create p env (.fin s.sizes.timeRatio) (.fin s.sizes.pitchScale) = some s₂ →
    (run p env s₁ cs).map (fun r => r.2.map fun o => o.map List.length) = (run p env s₂ cs).map (fun r => r.2.map fun o => o.map List.length)

/-- **C39 (partial).**  If `study` has never been called, then offline and in an ordinary configuration (`Ordinary`) a stretcher that has been reset, whatever its history,
gives in all as much of every channel as one newly made with its ratios; and the same samples, if the spectral state of the channel is the
same and there is enough input for a frame (otherwise what was in the frame buffer before the reset is heard again).  What is missing: histories with study, for which
it is false; real time; other configurations; and how much is given by each call. -/
theorem C39_partial {a b : R3.Dbl} {s₀ s s₁ s₂ : State α σ ρ κ} {pre : List (Call α)} {outs : List (List (List α))} (h0 : create p env a b = some s₀)
    (hpre : ∀ c ∈ pre, ¬ Studies c) (hrun : run p env s₀ pre = some (s, outs)) (h1 : reset p env s = some s₁)
    (h2 : create p env (.fin s.sizes.timeRatio) (.fin s.sizes.pitchScale) = some s₂) {input : List (Frame α)} {final : Bool} {cs : List (Call α)}
    (hcs : ∀ c ∈ cs, Playing c) (hend : ends (.process input final :: cs) = true) (h : Ordinary p s₂ (given (.process input final :: cs)).length) :
    ∃ r o r' o', run p env s₁ (.process input final :: cs) = some (r, o) ∧ run p env s₂ (.process input final :: cs) = some (r', o') ∧
      r.chans.length = p.channels ∧ r'.chans.length = p.channels ∧
      ∀ (c : Nat) cd cd', r.chans[c]? = some cd → r'.chans[c]? = some cd' →
        (delivered o c ++ cd.outbuf.data).length = (delivered o' c ++ cd'.outbuf.data).length ∧
        (Apart p → (initial env s₁ c).spec = (initial env s₂ c).spec → s₁.sizes.window - s₁.sizes.window / 2 ≤ (given (.process input final :: cs)).length →
          delivered o c ++ cd.outbuf.data = delivered o' c ++ cd'.outbuf.data) := by
  have hp := h.offline
  obtain ⟨c1, c2, c3⟩ := create_unstudied h2
  obtain ⟨d1, d2, _⟩ := create_unstudied h0
  have hu : Unstudied s := run_unstudied hp pre s₀ s outs (create_kept hp h0) ⟨d1, by rw [d2]; decide⟩ hpre hrun
  have h1' := h1
  unfold reset at h1'
  obtain ⟨e1, e2, e3⟩ := reconfigure_keeps hp (by simp) h1'
  simp only at e1 e2 e3
  have hz : s₁.sizes = s₂.sizes := by rw [e3] at c3; exact Option.some.inj c3
  have hi : s₁.outputIncrements = s₂.outputIncrements := by rw [e1, hu.incs, c1]
  have hrun1 : run p env s₀ (pre ++ [.reset]) = some (s₁, outs ++ [[]]) := by
    refine run_append _ _ _ _ _ _ _ hrun ?_
    show (call p env s .reset).bind _ = _
    unfold call
    rw [h1]
    rfl
  have hs1 : Prepared p env s₁ { s₁ with mode := .processing } := ⟨⟨a, b, s₀, _, _, h0, hrun1⟩, Or.inl e2, by unfold prologue; rw [e2]⟩
  have hs2 : Prepared p env s₂ { s₂ with mode := .processing } := ⟨⟨_, _, s₂, [], [], h2, rfl⟩, Or.inl c2, by unfold prologue; rw [c2]⟩
  have hord : Ordinary p { s₁ with mode := .processing } (given (.process input final :: cs)).length := by
    refine ⟨h.offline, h.consistency, h.rate, ?_, ?_, ?_, ?_⟩
    · simp only [hz]; exact h.pitch
    · simp only [hz]; exact h.ratio
    · simp only [hz, hi]; exact h.short
    · simp only [hz, hi]; exact h.early
  exact past_forgotten hs1 hs2 hz.symm hi.symm hcs hend hord

/-- C39 is false of the code: after 300 samples have been studied and processed at a ratio of 3/2, and a reset, 300 samples give 450 without study, but 408 from a new
stretcher (the stretch profile is not cleared). -/
theorem C39_violated : ¬ C39_statement := by
  intro h
  have hrun : (create Ex.short demo (.fin (3 / 2)) (.fin 1)).bind (fun s₀ => (run Ex.short demo s₀ [.study (Ex.block 300) true, .process (Ex.block 300) true]).bind fun x =>
      (reset Ex.short demo x.1).bind fun s₁ => (create Ex.short demo (.fin x.1.sizes.timeRatio) (.fin x.1.sizes.pitchScale)).map fun s₂ =>
      ((run Ex.short demo s₁ [.process (Ex.block 300) true, .available, .retrieve 1000]).map (fun r => r.2.map fun o => o.map List.length),
        (run Ex.short demo s₂ [.process (Ex.block 300) true, .available, .retrieve 1000]).map (fun r => r.2.map fun o => o.map List.length))) =
      some (some [[], [], [450]], some [[], [], [408]]) := by decide +kernel
  obtain ⟨s₀, h1, h2⟩ := Option.bind_eq_some_iff.mp hrun
  obtain ⟨⟨s, o⟩, h3, h4⟩ := Option.bind_eq_some_iff.mp h2
  obtain ⟨s₁, h5, h6⟩ := Option.bind_eq_some_iff.mp h4
  obtain ⟨s₂, h7, h8⟩ := Option.map_eq_some_iff.mp h6
  have := h Ex.short demo _ _ s₀ s s₁ s₂ _ [.process (Ex.block 300) true, .available, .retrieve 1000] o h1 h3 h5 h7
  simp only [Prod.mk.injEq] at h8
  rw [h8.1, h8.2] at this
  revert this
  decide

/-- A case to which C39 applies: something processed at another ratio, the ratio changed, and a reset. -/
example : ∃ s₀ s s₁ s₂ : State Int Unit Unit Unit, ∃ outs, create Ex.short demo (.fin 2) (.fin 1) = some s₀ ∧
    run Ex.short demo s₀ [.process (Ex.block 200) false, .retrieve 20, .process (Ex.block 10) true, .setTimeRatio (.fin (3 / 2))] = some (s, outs) ∧
    reset Ex.short demo s = some s₁ ∧ create Ex.short demo (.fin s.sizes.timeRatio) (.fin s.sizes.pitchScale) = some s₂ ∧ Ordinary Ex.short s₂ 300 := by
  have hrun : (create Ex.short demo (.fin 2) (.fin 1)).bind (fun s₀ =>
      (run Ex.short demo s₀ [.process (Ex.block 200) false, .retrieve 20, .process (Ex.block 10) true, .setTimeRatio (.fin (3 / 2))]).bind fun x =>
      (reset Ex.short demo x.1).bind fun _ => (create Ex.short demo (.fin x.1.sizes.timeRatio) (.fin x.1.sizes.pitchScale)).map fun s₂ => ordinaryCheck Ex.short s₂ 300) = some true := by
    decide +kernel
  obtain ⟨s₀, h1, h2⟩ := Option.bind_eq_some_iff.mp hrun
  obtain ⟨⟨s, o⟩, h3, h4⟩ := Option.bind_eq_some_iff.mp h2
  obtain ⟨s₁, h5, h6⟩ := Option.bind_eq_some_iff.mp h4
  obtain ⟨s₂, h7, h8⟩ := Option.map_eq_some_iff.mp h6
  exact ⟨s₀, s, s₁, s₂, o, h1, h3, h5, h7, ordinary_of_check h8⟩

end
end Verif.R2
