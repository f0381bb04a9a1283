import Verif.R2Same
/-!
# The faster engine: channels given the same audio come out the same (C114)
-/
namespace Verif.R2
open Verif.StretchCalc

variable {α σ ρ κ : Type}

/-- The channels of a state are the same, and no profile has been made. -/
structure Twins (s : State α σ ρ κ) : Prop where
  same : ∃ x, Twinned x s.chans
  incs : s.outputIncrements = []
  mode : s.mode ≠ .studying

section
variable [Zero α] [Add α] [Sub α] {p : Params} {env : Env α σ ρ κ}

omit [Zero α] [Add α] [Sub α] in
theorem calculate_twins {s : State α σ ρ κ} (h : Twins s) : Twins (calculateIncrements env s).1 := by
  obtain ⟨⟨x, hx⟩, h2, h3⟩ := h
  unfold calculateIncrements
  split
  · exact ⟨⟨x, hx⟩, h2, h3⟩
  · rename_i cd cds heq
    split
    · refine ⟨⟨x, ?_⟩, h2, h3⟩
      intro d hd
      rw [heq] at hx
      rcases List.mem_cons.mp hd with rfl | hd
      · exact hx cd (List.mem_cons_self ..)
      · exact hx d (List.mem_cons_of_mem _ hd)
    · exact ⟨⟨x, hx⟩, h2, h3⟩

omit [Zero α] [Add α] [Sub α] in
theorem choose_twins {s : State α σ ρ κ} (h : Twins s) : Twins (chooseIncrements env s).1 := by
  unfold chooseIncrements
  split
  · exact calculate_twins h
  · rename_i cd cds heq
    have e : getIncrements s.sizes s.outputIncrements cd = (cd, ⟨s.sizes.increment, s.sizes.increment, false⟩, false) := by
      unfold getIncrements; rw [h.incs]; rfl
    rw [e]
    simp only [Bool.false_eq_true, if_false]
    refine calculate_twins ⟨?_, h.incs, h.mode⟩
    obtain ⟨x, hx⟩ := h.same
    exact ⟨x, heq ▸ hx⟩

omit [Zero α] [Add α] [Sub α] in
theorem one_twins {s s' : State α σ ρ κ} {last : Bool} (h : Twins s) (e : processOneChunk p env s = some (s', last)) : Twins s' := by
  unfold processOneChunk at e
  obtain ⟨x, hx⟩ := h.same
  obtain ⟨y, hy⟩ := takeFrames_same env s.sizes s.chans hx
  generalize takeFrames env s.sizes s.chans = q at e hy
  obtain ⟨chans, ready⟩ := q
  simp only at e hy
  have ht : Twins { s with chans := chans } := ⟨⟨y, hy⟩, h.incs, h.mode⟩
  split at e
  · have hc := choose_twins (env := env) ht
    generalize chooseIncrements env { s with chans := chans } = q at e hc
    obtain ⟨t, i⟩ := q
    simp only at e hc
    obtain ⟨⟨cs, l⟩, e1, e2⟩ := Option.bind_eq_some_iff.mp e
    cases e2
    obtain ⟨w, hw⟩ := hc.same
    have hm := eachChunk_same (p := p) (env := env) i t.chans hw e1
    refine ⟨same_of w (P := fun v => ∃ y, processChunk p env t.sizes i w = some y ∧ v = { y.1 with chunkCount := y.1.chunkCount + 1 }) ?_ ?_, hc.incs, hc.mode⟩
    · intro d hd
      obtain ⟨y, h1, h2⟩ := hm d hd
      exact ⟨_, ⟨y, h1, rfl⟩, h2⟩
    · rintro v v' ⟨y, h1, rfl⟩ ⟨y', h2, rfl⟩
      rw [h1] at h2
      cases h2
      rfl
  · cases e
    exact ht

omit [Zero α] in
theorem round_twins (hap : Apart p) {input : List (Frame α)} (hi : ∀ f ∈ input, EvenFrame f) {final : Bool} {s s' : State α σ ρ κ} {used used' : List Nat} {u : Nat} (h : Twins s)
    (hu : ∀ n ∈ used, n = u) (e : processRound p env input final s used = some (s', used')) : Twins s' ∧ ∃ u', ∀ n ∈ used', n = u' := by
  unfold processRound at e
  obtain ⟨xs, e1, e⟩ := Option.bind_eq_some_iff.mp e
  have e2 : (if p.realTime = true then (processOneChunk p env { s with chans := xs.map fun x => x.1 }).map fun x => x.1 else some { s with chans := xs.map fun x => x.1 }) = some s' ∧
      used' = xs.map fun x => x.2 := by
    simp only at e
    split at e
    · rename_i hrt
      obtain ⟨t, e2, e⟩ := Option.bind_eq_some_iff.mp e
      cases e
      exact ⟨by rw [if_pos hrt]; exact e2, rfl⟩
    · rename_i hrt
      cases e
      exact ⟨by rw [if_neg hrt], rfl⟩
  obtain ⟨e2, rfl⟩ := e2
  obtain ⟨x, hx⟩ := h.same
  obtain ⟨_, hm⟩ := channelsRound_same hap s.outputIncrements hi final (x := x) (u := u) (s.chans.zip used)
    (fun y hy => ⟨hx _ (List.of_mem_zip hy).1, hu _ (List.of_mem_zip hy).2⟩) e1
  have ht : Twins { s with chans := xs.map fun x => x.1 } := by
    refine ⟨same_of x (P := fun v => ∃ n, channelRound p env s.sizes s.outputIncrements 0 input final x u = some (v, n)) ?_ ?_, h.incs, h.mode⟩
    · intro d hd
      obtain ⟨y, hy, rfl⟩ := List.mem_map.mp hd
      obtain ⟨y', h1, h2, _⟩ := hm y hy
      exact ⟨y'.1, ⟨y'.2, h1⟩, h2⟩
    · rintro v v' ⟨n, h1⟩ ⟨n', h2⟩
      rw [h1] at h2
      cases h2
      rfl
  refine ⟨?_, ?_⟩
  · split at e2
    · obtain ⟨⟨t', l⟩, e3, e4⟩ := Option.map_eq_some_iff.mp e2
      cases e4
      exact one_twins ht e3
    · cases e2
      exact ht
  · cases hr : channelRound p env s.sizes s.outputIncrements 0 input final x u with
    | none =>
      refine ⟨0, ?_⟩
      intro n hn
      obtain ⟨y, hy, rfl⟩ := List.mem_map.mp hn
      obtain ⟨y', h1, _⟩ := hm y hy
      rw [hr] at h1
      cases h1
    | some r =>
      refine ⟨r.2, ?_⟩
      intro n hn
      obtain ⟨y, hy, rfl⟩ := List.mem_map.mp hn
      obtain ⟨y', h1, _, h3⟩ := hm y hy
      rw [hr] at h1
      cases h1
      exact h3

omit [Zero α] in
theorem loop_twins (hap : Apart p) {input : List (Frame α)} (hi : ∀ f ∈ input, EvenFrame f) {final : Bool} (fuel : Nat) : ∀ {s s' : State α σ ρ κ} {used : List Nat} {u : Nat}, Twins s →
    (∀ n ∈ used, n = u) → processLoop p env input final fuel s used = some s' → Twins s' := by
  induction fuel with
  | zero => intro s s' used u _ _ e; cases e
  | succ n ih =>
    intro s s' used u h hu e
    unfold processLoop at e
    obtain ⟨⟨t, used'⟩, e1, e2⟩ := Option.bind_eq_some_iff.mp e
    obtain ⟨ht, u', hu'⟩ := round_twins hap hi h hu e1
    simp only at e2
    split at e2
    · cases e2; exact ht
    · exact ih ht hu' e2

theorem process_twins (hap : Apart p) {input : List (Frame α)} (hi : ∀ f ∈ input, EvenFrame f) {final : Bool} {s s' : State α σ ρ κ} (h : Twins s) (e : process p env s input final = some s') : Twins s' := by
  unfold process at e
  split at e
  · cases e; exact h
  · obtain ⟨t, e1, e⟩ := Option.bind_eq_some_iff.mp e
    obtain ⟨t', e2, e⟩ := Option.bind_eq_some_iff.mp e
    cases e
    have ht : Twins t := by
      unfold prologue at e1
      split at e1
      · rename_i hm; exact absurd hm h.mode
      · cases e1; exact ⟨h.same, h.incs, by simp⟩
      · cases e1; exact h
    have ht' := loop_twins hap hi _ ht (u := 0) (fun n hn => (List.mem_replicate.mp hn).2) e2
    refine ⟨ht'.same, ht'.incs, ?_⟩
    show (if final = true then Mode.finished else t'.mode) ≠ _
    split
    · simp
    · exact ht'.mode

omit [Zero α] [Add α] [Sub α] in
theorem finishLoop_twins (fuel : Nat) : ∀ {s s' : State α σ ρ κ}, Twins s → finishLoop p env fuel s = some s' → Twins s' := by
  induction fuel with
  | zero => intro s s' _ e; cases e
  | succ n ih =>
    intro s s' h e
    unfold finishLoop at e
    split at e
    · cases e; exact h
    · split at e
      · obtain ⟨⟨t, last⟩, e1, e2⟩ := Option.bind_eq_some_iff.mp e
        have ht := one_twins h e1
        simp only at e2
        split at e2
        · cases e2; exact ht
        · exact ih ht e2
      · cases e; exact h

omit [Zero α] [Add α] [Sub α] in
theorem finishEach_same (z : Sizes) (incs : List Int) {x : Chan α σ ρ} : ∀ (l : List (Chan α σ ρ)) {r : List (Chan α σ ρ)}, Twinned x l → finishEach p env z incs l = some r →
    ∀ d ∈ r, ∃ y, (if x.inbuf.readSpace > 0 then processChunks p env z incs x else some x) = some y ∧ d.core = y.core := by
  intro l
  induction l with
  | nil => intro r _ e; cases e; intro d hd; cases hd
  | cons cd l ih =>
    intro r h e
    unfold finishEach at e
    have e' : ∃ cd' cds, (if cd.inbuf.readSpace > 0 then processChunks p env z incs cd else some cd) = some cd' ∧ finishEach p env z incs l = some cds ∧ r = cd' :: cds := by
      simp only at e
      split at e
      · rename_i hrs
        obtain ⟨cd', e1, e⟩ := Option.bind_eq_some_iff.mp e
        obtain ⟨cds, e2, e⟩ := Option.bind_eq_some_iff.mp e
        cases e
        exact ⟨cd', cds, by rw [if_pos hrs]; exact e1, e2, rfl⟩
      · rename_i hrs
        obtain ⟨cd', e1, e⟩ := Option.bind_eq_some_iff.mp e
        cases e1
        obtain ⟨cds, e2, e⟩ := Option.bind_eq_some_iff.mp e
        cases e
        exact ⟨cd, cds, by rw [if_neg hrs], e2, rfl⟩
    obtain ⟨cd', cds, e1, e2, rfl⟩ := e'
    intro d hd
    rcases List.mem_cons.mp hd with rfl | hd
    · have hx := h cd (List.mem_cons_self ..)
      subst hx
      by_cases hr : cd.inbuf.readSpace > 0
      · rw [if_pos hr] at e1
        refine ⟨d.core, ?_, rfl⟩
        refine (if_pos hr).trans ?_
        rw [processChunks_core, e1]
        rfl
      · rw [if_neg hr] at e1
        cases e1
        exact ⟨cd.core, if_neg hr, rfl⟩
    · exact ih (fun d hd => h d (List.mem_cons_of_mem _ hd)) e2 d hd

omit [Zero α] [Add α] [Sub α] in
theorem finish_twins {s s' : State α σ ρ κ} (h : Twins s) (e : finish p env s = some s') : Twins s' := by
  unfold finish at e
  split at e
  · cases e; exact h
  · split at e
    · split at e
      · exact finishLoop_twins _ h e
      · obtain ⟨chans, e1, e2⟩ := Option.map_eq_some_iff.mp e
        cases e2
        obtain ⟨x, hx⟩ := h.same
        refine ⟨same_of x (P := fun y => (if x.inbuf.readSpace > 0 then processChunks p env s.sizes s.outputIncrements x else some x) = some y) (finishEach_same _ _ _ hx e1) ?_, h.incs, h.mode⟩
        intro y y' h1 h2
        rw [h1] at h2
        cases h2
        rfl
    · cases e; exact h

omit [Zero α] [Add α] [Sub α] in
/-- Reading from channels that hold the same gives the same of each, and leaves the same in each. -/
theorem read_same {x : Chan α σ ρ} : ∀ (l : List (Chan α σ ρ)) {got n : Nat}, Twinned x l → x.outbuf.data.take got = x.outbuf.data.take n → x.outbuf.data.drop got = x.outbuf.data.drop n →
    (∀ o ∈ (readChannels l got).2.1, o = x.outbuf.data.take n) ∧ Twinned { x with outbuf := x.outbuf.skip n } (readChannels l got).1 := by
  intro l
  induction l with
  | nil => intro got n _ _ _; exact ⟨fun o ho => absurd ho (by simp [readChannels]), fun d hd => absurd hd (by simp [readChannels])⟩
  | cons cd l ih =>
    intro got n h h1 h2
    have hx := h cd (List.mem_cons_self ..)
    have hout : cd.outbuf = x.outbuf := by rw [← hx]
    have e : cd.outbuf.peek got = x.outbuf.data.take n := by rw [hout]; exact h1
    unfold readChannels
    simp only
    rw [e]
    have hlen : (x.outbuf.data.take n).length = min got x.outbuf.data.length := by rw [← h1, List.length_take]
    obtain ⟨a1, a2⟩ := ih (got := if (x.outbuf.data.take n).length < got then (x.outbuf.data.take n).length else got) (n := n)
      (fun d hd => h d (List.mem_cons_of_mem _ hd))
      (by
        split
        · rename_i hlt
          rw [hlen] at hlt ⊢
          rw [← h1, List.take_of_length_le (i := got) (by omega), List.take_of_length_le (by omega)]
        · exact h1)
      (by
        split
        · rename_i hlt
          rw [hlen] at hlt ⊢
          rw [← h2, List.drop_of_length_le (i := got) (by omega), List.drop_of_length_le (by omega)]
        · exact h2)
    refine ⟨?_, ?_⟩
    · intro o ho
      rcases List.mem_cons.mp ho with rfl | ho
      · rfl
      · exact a1 o ho
    · intro d hd
      rcases List.mem_cons.mp hd with rfl | hd
      · have : cd.outbuf.skip got = x.outbuf.skip n := by rw [hout]; unfold Fifo.skip; rw [h2]
        rw [this, ← hx]
      · exact a2 d hd

omit [Zero α] in
theorem retrieve_twins (hap : Apart p) {s : State α σ ρ κ} (h : Twins s) (n : Nat) : Twins (retrieve p s n).1 ∧ ∀ a ∈ (retrieve p s n).2.1, ∀ b ∈ (retrieve p s n).2.1, a = b := by
  obtain ⟨x, hx⟩ := h.same
  obtain ⟨h1, h2⟩ := read_same s.chans (got := n) (n := n) hx rfl rfl
  have hs := hap.sep
  unfold retrieve
  simp only [hs, Bool.false_eq_true, if_false]
  exact ⟨⟨⟨_, h2⟩, h.incs, h.mode⟩, fun a ha b hb => (h1 a ha).trans (h1 b hb).symm⟩

omit [Zero α] [Add α] [Sub α] in
theorem resize_twins {s t : State α σ ρ κ} {a b : R3.Dbl} (e : resize p s a b = some t) : t.chans = s.chans ∧ t.outputIncrements = s.outputIncrements ∧ t.mode = s.mode := by
  unfold resize at e
  obtain ⟨z, _, e⟩ := Option.bind_eq_some_iff.mp e
  cases e
  exact ⟨rfl, rfl, rfl⟩

omit [Add α] [Sub α] in
theorem configure_twins {s t : State α σ ρ κ} {first : Bool} {a b : R3.Dbl} (h : Twins s) (e : configure p env first s a b = some t) : Twins t := by
  unfold configure at e
  obtain ⟨u, e1, e⟩ := Option.bind_eq_some_iff.mp e
  obtain ⟨fresh, _, e⟩ := Option.bind_eq_some_iff.mp e
  cases e
  obtain ⟨_, r2, r3⟩ := resize_twins e1
  refine ⟨?_, by rw [← h.incs]; exact r2, by show u.mode ≠ _; rw [r3]; exact h.mode⟩
  have h0 : ∃ x, Twinned x (if (first || decide (u.sizes.window ≠ s.sizes.window) || decide (u.outbufSize ≠ s.outbufSize)) = true then List.replicate p.channels fresh else s.chans) := by
    split
    · exact ⟨fresh.core, fun d hd => by rw [(List.mem_replicate.mp hd).2]⟩
    · exact h.same
  obtain ⟨x, hx⟩ := h0
  have h1 := hx.map (f := Chan.withResampler p env u.sizes) (fun cd => by unfold Chan.withResampler; simp only [Chan.core]; split_ifs <;> rfl)
  show ∃ x, Twinned x (if p.realTime = true then _ else _)
  split
  · exact ⟨_, h1⟩
  · exact ⟨_, h1.map (f := Chan.prefill env u.sizes) (fun cd => rfl)⟩

omit [Add α] [Sub α] in
theorem reconfigure_twins {s t : State α σ ρ κ} {a b : R3.Dbl} (h : Twins s) (e : reconfigure p env s a b = some t) : Twins t := by
  unfold reconfigure at e
  split at e
  · obtain ⟨u, e1, e⟩ := Option.bind_eq_some_iff.mp e
    cases e
    obtain ⟨r1, r2, r3⟩ := resize_twins e1
    refine ⟨?_, by rw [← h.incs]; exact r2, by show u.mode ≠ _; rw [r3]; exact h.mode⟩
    have h0 : ∃ x, Twinned x (if u.sizes.window ≠ s.sizes.window then u.chans.map (Chan.setSizes env u.sizes.window u.sizes.fftSize) else u.chans) := by
      obtain ⟨x, hx⟩ := h.same
      rw [r1]
      split
      · exact ⟨_, hx.map (f := Chan.setSizes env u.sizes.window u.sizes.fftSize) (fun cd => rfl)⟩
      · exact ⟨x, hx⟩
    obtain ⟨x, hx⟩ := h0
    show ∃ x, Twinned x (if u.outbufSize ≠ s.outbufSize then _ else _)
    split
    · exact ⟨_, hx.map (f := Chan.setOutbufSize u.outbufSize) (fun cd => rfl)⟩
    · exact ⟨x, hx⟩
  · rw [if_neg h.mode] at e
    exact configure_twins h e

omit [Add α] [Sub α] in
theorem create_twins {s : State α σ ρ κ} {a b : R3.Dbl} (e : create p env a b = some s) : Twins s := by
  have e' := e
  unfold create configure at e'
  obtain ⟨u, _, e'⟩ := Option.bind_eq_some_iff.mp e'
  obtain ⟨fresh, _, _⟩ := Option.bind_eq_some_iff.mp e'
  refine configure_twins ⟨⟨fresh, fun d hd => ?_⟩, rfl, by simp⟩ e
  cases hd

/-- What a call is given, to `process` and to `study`. -/
def Call.input : Call α → List (Frame α)
  | .process input _ => input
  | .study input _ => input
  | _ => []

/-- The call is not one of `study`. -/
def Call.plain : Call α → Bool
  | .study _ _ => false
  | _ => true

theorem call_twins (hap : Apart p) {s s' : State α σ ρ κ} {c : Call α} {o : List (List α)} (hi : ∀ f ∈ c.input, EvenFrame f) (hc : c.plain = true) (h : Twins s) (e : call p env s c = some (s', o)) :
    Twins s' ∧ ∀ a ∈ o, ∀ b ∈ o, a = b := by
  have nil : ∀ a ∈ ([] : List (List α)), ∀ b ∈ ([] : List (List α)), a = b := fun a ha => absurd ha (by simp)
  cases c with
  | setTimeRatio r =>
    obtain ⟨t, e1, e2⟩ := Option.map_eq_some_iff.mp e
    cases e2
    refine ⟨?_, nil⟩
    unfold setTimeRatio at e1
    split at e1
    · cases e1; exact h
    · split at e1
      · cases e1; exact h
      · exact reconfigure_twins h e1
  | setPitchScale r =>
    obtain ⟨t, e1, e2⟩ := Option.map_eq_some_iff.mp e
    cases e2
    refine ⟨?_, nil⟩
    unfold setPitchScale at e1
    split at e1
    · cases e1; exact h
    · split at e1
      · cases e1; exact h
      · obtain ⟨u, e3, e4⟩ := Option.map_eq_some_iff.mp e1
        cases e4
        have hu := reconfigure_twins h e3
        unfold resetResamplers
        split
        · obtain ⟨x, hx⟩ := hu.same
          exact ⟨⟨_, hx.map (f := fun cd => { cd with resampler := cd.resampler.map env.rsReset }) (fun cd => rfl)⟩, hu.incs, hu.mode⟩
        · exact hu
  | setExpectedInputDuration n =>
    obtain ⟨t, e1, e2⟩ := Option.map_eq_some_iff.mp e
    cases e2
    refine ⟨?_, nil⟩
    unfold setExpectedInputDuration at e1
    split at e1
    · cases e1; exact h
    · exact reconfigure_twins (s := { s with expected := n }) ⟨h.same, h.incs, h.mode⟩ e1
  | setMaxProcessSize n =>
    obtain ⟨t, e1, e2⟩ := Option.map_eq_some_iff.mp e
    cases e2
    refine ⟨?_, nil⟩
    unfold setMaxProcessSize at e1
    split at e1
    · cases e1; exact h
    · exact reconfigure_twins (s := { s with maxProcessSize := n }) ⟨h.same, h.incs, h.mode⟩ e1
  | setKeyFrameMap m =>
    cases e
    refine ⟨?_, nil⟩
    unfold setKeyFrameMap
    split
    · exact h
    · split
      · exact h
      · exact ⟨h.same, h.incs, h.mode⟩
  | study input final => cases hc
  | process input final =>
    obtain ⟨t, e1, e2⟩ := Option.map_eq_some_iff.mp e
    cases e2
    exact ⟨process_twins hap hi h e1, nil⟩
  | available =>
    obtain ⟨⟨t, n⟩, e1, e2⟩ := Option.map_eq_some_iff.mp e
    cases e2
    obtain ⟨u, e3, e4⟩ := Option.map_eq_some_iff.mp e1
    cases e4
    exact ⟨finish_twins h e3, nil⟩
  | retrieve n =>
    cases e
    exact retrieve_twins hap h n
  | reset =>
    obtain ⟨t, e1, e2⟩ := Option.map_eq_some_iff.mp e
    cases e2
    refine ⟨?_, nil⟩
    unfold reset at e1
    obtain ⟨x, hx⟩ := h.same
    exact reconfigure_twins (s := { s with
      calculator := StretchCalc.reset s.calculator, chans := s.chans.map (Chan.reset env), mode := .justCreated,
      curves := env.curveReset s.curves, expected := 0, maxProcessSize := 0, inputDuration := 0, silentHistory := 0 })
      ⟨⟨_, hx.map (f := Chan.reset env) (fun cd => rfl)⟩, h.incs, by simp⟩ e1

theorem run_twins (hap : Apart p) : ∀ (cs : List (Call α)) {s s' : State α σ ρ κ} {outs : List (List (List α))}, (∀ c ∈ cs, ∀ f ∈ c.input, EvenFrame f) → (∀ c ∈ cs, c.plain = true) → Twins s →
    run p env s cs = some (s', outs) → ∀ o ∈ outs, ∀ a ∈ o, ∀ b ∈ o, a = b := by
  intro cs
  induction cs with
  | nil => intro s s' outs _ _ _ e; cases e; intro o ho; cases ho
  | cons c cs ih =>
    intro s s' outs hi hp h e
    unfold run at e
    obtain ⟨⟨t, o⟩, e1, e⟩ := Option.bind_eq_some_iff.mp e
    obtain ⟨⟨u, os⟩, e2, e⟩ := Option.bind_eq_some_iff.mp e
    cases e
    obtain ⟨h1, h2⟩ := call_twins hap (hi c (List.mem_cons_self ..)) (hp c (List.mem_cons_self ..)) h e1
    intro o' ho'
    rcases List.mem_cons.mp ho' with rfl | ho'
    · exact h2
    · exact ih (fun c hc => hi c (List.mem_cons_of_mem _ hc)) (fun c hc => hp c (List.mem_cons_of_mem _ hc)) h1 e2 o' ho'

/-- **C114**, for histories without a study: channels processed apart that are given the same audio come out the same, sample by sample, in each call of `retrieve`, in any history of calls, offline and in real time, at any
ratios, with any resampler.  (With a study it is false, see `C114_violated`.) -/
theorem C114_partial (hap : Apart p) {timeRatio pitchScale : R3.Dbl} {s₀ s : State α σ ρ κ} {cs : List (Call α)} {outs : List (List (List α))} (h0 : create p env timeRatio pitchScale = some s₀)
    (hi : ∀ c ∈ cs, ∀ f ∈ c.input, ∀ i, f i = f 0) (hplain : ∀ c ∈ cs, c.plain = true) (hrun : run p env s₀ cs = some (s, outs)) : ∀ o ∈ outs, ∀ a ∈ o, ∀ b ∈ o, a = b :=
  run_twins hap cs hi hplain (create_twins h0) hrun

end

/-- C114 in full: also if the input has been studied.  That a reset forgets what a study did to the spectral state is granted. -/
def C114_statement : Prop :=
  ∀ (p : Params) (env : Env Int Int Unit Unit) (timeRatio pitchScale : R3.Dbl) (s₀ s : State Int Int Unit Unit) (cs : List (Call Int)) (outs : List (List (List Int))), Apart p →
    (∀ k x l, env.specReset (env.studyCurve k x l).2.1 = env.specReset x) → create p env timeRatio pitchScale = some s₀ → (∀ c ∈ cs, ∀ f ∈ c.input, ∀ i, f i = f 0) →
      run p env s₀ cs = some (s, outs) → ∀ o ∈ outs, ∀ a ∈ o, ∀ b ∈ o, a = b

/-- For examples: the spectral state is the sum of the frames so far, and that is what is heard; a study finds magnitudes of seven. -/
def Ex.summing : Env Int Int Unit Unit where
  specInit := 0
  specReset := fun _ => 0
  specSizes := fun s _ _ => s
  analyse := fun s frame => (s + frame.sum, fun _ => 0)
  synthesise := fun s f _ _ _ => (s, f)
  emit := fun s _ => s
  shift := fun s _ _ => s
  rsInit := ()
  rsReset := id
  resample := fun r room xs ratio _ => (r, (List.replicate ((xs.length : Rat) * ratio).floor.toNat 1).take room)
  effective := fun _ x => x
  curveInit := fun _ => ()
  curveReset := id
  curveSizes := fun k _ => k
  curve := fun k _ => (k, 0, false)
  studyCurve := fun k s _ => (k, s, fun _ => 7, 0, false)
  halve := fun x => x
  mixdown := fun _ f => f 0

/-- Two channels, apart. -/
def Ex.two : Params := { rate := 8000, windowShort := true, channels := 2 }

/-- A block with the same in all channels. -/
def Ex.level (n : Nat) : List (Frame Int) := List.replicate n fun _ => 1

theorem Ex.level_level (n : Nat) : ∀ f ∈ Ex.level n, ∀ i, f i = f 0 := by
  intro f hf i
  rw [(List.mem_replicate.mp hf).2]

/-- C114 is false of the code: 60 samples are studied, and then the input is ended with an empty block.  The only frame is the half window of zeros put in front; behind it, at the place of the highest frequency, channel 0
has a magnitude that the study left there (`forwardMagnitude` writes the places up to half the size of the transform, R2Stretcher.cpp:1061, and StretcherChannelData.cpp:254-282 does not clear them). -/
theorem C114_violated : ¬ C114_statement := by
  intro h
  have hrun : (create Ex.two Ex.summing (.fin 1) (.fin 1)).bind (fun s₀ => (run Ex.two Ex.summing s₀ [.study (Ex.level 60) true, .process [] true, .available, .retrieve 30]).map fun y =>
      y.2.any fun o => o.any fun a => o.any fun b => decide (a ≠ b)) = some true := by decide +kernel
  obtain ⟨s₀, h1, h2⟩ := Option.bind_eq_some_iff.mp hrun
  obtain ⟨⟨s, outs⟩, h3, h4⟩ := Option.map_eq_some_iff.mp h2
  have h5 := h Ex.two Ex.summing _ _ s₀ s _ outs (Or.inl rfl) (fun _ _ _ => rfl) h1
    (by
      intro c hc
      simp only [List.mem_cons, List.not_mem_nil, or_false] at hc
      rcases hc with rfl | rfl | rfl | rfl
      · exact Ex.level_level 60
      · intro f hf; cases hf
      · intro f hf; cases hf
      · intro f hf; cases hf) h3
  simp only [List.any_eq_true, decide_eq_true_eq] at h4
  obtain ⟨o, ho, a, ha, b, hb, hne⟩ := h4
  exact hne (h5 o ho a ha b hb)

/-- A case to which `C114_partial` applies, in which something is heard: 300 samples in two blocks. -/
example : ∃ s₀ s outs, create Ex.two Ex.summing (.fin 1) (.fin 1) = some s₀ ∧
    run Ex.two Ex.summing s₀ [.process (Ex.level 100) false, .process (Ex.level 200) true, .available, .retrieve 30] = some (s, outs) ∧
      (∃ o ∈ outs, o.map List.length = [30, 30] ∧ ∃ a ∈ o, ∃ x ∈ a, x ≠ 0) ∧ ∀ o ∈ outs, ∀ a ∈ o, ∀ b ∈ o, a = b := by
  have hrun : (create Ex.two Ex.summing (.fin 1) (.fin 1)).bind (fun s₀ => (run Ex.two Ex.summing s₀ [.process (Ex.level 100) false, .process (Ex.level 200) true, .available, .retrieve 30]).map fun y =>
      y.2.any fun o => decide (o.map List.length = [30, 30]) && o.any fun a => a.any fun x => decide (x ≠ 0)) = some true := by decide +kernel
  obtain ⟨s₀, h1, h2⟩ := Option.bind_eq_some_iff.mp hrun
  obtain ⟨⟨s, outs⟩, h3, h4⟩ := Option.map_eq_some_iff.mp h2
  simp only [List.any_eq_true, Bool.and_eq_true, decide_eq_true_eq] at h4
  refine ⟨s₀, s, outs, h1, h3, h4, C114_partial (Or.inl rfl) h1 ?_ ?_ h3⟩
  · intro c hc
    simp only [List.mem_cons, List.not_mem_nil, or_false] at hc
    rcases hc with rfl | rfl | rfl | rfl
    · exact Ex.level_level 100
    · exact Ex.level_level 200
    · intro f hf; cases hf
    · intro f hf; cases hf
  · decide +kernel

end Verif.R2
