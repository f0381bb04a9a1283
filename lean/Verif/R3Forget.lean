import Verif.R3SilenceProps
import Verif.LiveAudioSame
/-!
# What the finer engine forgets on a reset: C106 with the built-in resampler and a pitch shift
-/
namespace Verif.R3

variable {α σ ρ κ τ : Type} [Zero α] [Add α] [Sub α]

/-- A property of the resampler that depends on the pitch scale, and is kept by resampling at that one, if it is one of these. -/
structure Paced (env : Env α σ ρ) (Ok : Rat → Prop) (C : Rat → ρ → Prop) : Prop where
  init : ∀ v, C v env.rsInit
  reset : ∀ {v r}, C v r → ∀ v', C v' (env.rsReset r)
  resample : ∀ {v r} (n : Nat) (b : List (Frame α)) (f : Bool), Ok v → C v r → C v (env.resample r n b (1 / v) f).1

/-- It holds of the resampler for this pitch scale. -/
def At (C : Rat → ρ → Prop) (v : Rat) (s : State α σ ρ) : Prop := s.pitchScale = v ∧ ∀ r, s.resampler = some r → C v r

variable {p : Params} {env : Env α σ ρ} {Ok : Rat → Prop} {C : Rat → ρ → Prop} {v : Rat}

theorem Paced.consume (h : Paced env Ok C) (hv : Ok v) {final : Bool} {s s' : State α σ ρ} (hs : At C v s) (hr : consume p env final s = some s') : At C v s' := by
  refine (consume_induct (fun t => At C v t) (fun t t' ht _ f => ⟨by rw [f.kept.pitchScale]; exact ht.1, ?_⟩) ⟨hs.1, hs.2⟩ hr).1
  rw [f.resampler]
  show ∀ r, (resampleAfter p env t final _ _ _ _ _).1 = some r → C v r
  unfold resampleAfter
  split
  · rename_i r hr _
    intro r' e
    rw [← Option.some.inj e, ht.1]
    exact h.resample _ _ _ hv (ht.2 r hr)
  · exact ht.2

omit [Zero α] [Add α] [Sub α] in
theorem At.ensureInbuf {s : State α σ ρ} (hs : At C v s) (n : Nat) : At C v (ensureInbuf s n) := by
  unfold R3.ensureInbuf
  split
  · exact hs
  · exact hs

theorem Paced.takeIn (h : Paced env Ok C) (hv : Ok v) {before final : Bool} {s : State α σ ρ} (hs : At C v s) {rest : List (Frame α)} {r : State α σ ρ × Nat} (hr : takeIn p env before final s rest = some r) : At C v r.1 := by
  unfold R3.takeIn at hr
  split at hr
  · rename_i q hq
    obtain ⟨b, hb, hr⟩ := Option.bind_eq_some_iff.mp hr
    cases hr
    refine ⟨hs.1, fun r' e => ?_⟩
    rw [← Option.some.inj e, hs.1]
    exact h.resample _ _ _ hv (hs.2 q hq)
  · obtain ⟨b, hb, hr⟩ := Option.bind_eq_some_iff.mp hr
    cases hr
    exact hs

theorem Paced.processLoop (h : Paced env Ok C) (hv : Ok v) {before final : Bool} : ∀ (fuel : Nat) (s : State α σ ρ) (rest : List (Frame α)) (s' : State α σ ρ), At C v s →
    processLoop p env before final fuel s rest = some s' → At C v s' := by
  intro fuel
  induction fuel with
  | zero =>
    intro s rest s' hs hr
    unfold R3.processLoop at hr
    split at hr
    · cases hr; exact hs
    · cases hr
  | succ fuel ih =>
    intro s rest s' hs hr
    unfold R3.processLoop at hr
    split at hr
    · cases hr; exact hs
    · obtain ⟨⟨s1, rest1⟩, h1, h2⟩ := Option.bind_eq_some_iff.mp hr
      refine ih s1 rest1 s' ?_ h2
      unfold R3.processRound at h1
      obtain ⟨t1, g1, h1⟩ := Option.bind_eq_some_iff.mp h1
      obtain ⟨⟨t2, k⟩, g2, h1⟩ := Option.bind_eq_some_iff.mp h1
      obtain ⟨t3, g3, h1⟩ := Option.bind_eq_some_iff.mp h1
      cases h1
      have u1 : At C v t1 := by
        unfold roomy at g1
        split at g1
        · exact h.consume hv hs g1
        · cases g1; exact hs
      exact h.consume hv (h.takeIn hv (u1.ensureInbuf _) g2) g3

omit [Zero α] [Add α] [Sub α] in
theorem updateRatioFromMap_resampler (s : State α σ ρ) : (updateRatioFromMap p env s).resampler = s.resampler := by
  unfold R3.updateRatioFromMap
  split
  · rfl
  · split
    · rfl
    · split
      · rfl
      · split <;> rfl

/-- What is before the input is dealt with: the resampler stays as it was or is made. -/
theorem prologue_resampler (s : State α σ ρ) (r : ρ) (hr : (prologue p env s).resampler = some r) : s.resampler = some r ∨ r = env.rsInit := by
  unfold prologue at hr
  split at hr
  · exact Or.inl hr
  · unfold padStart at hr
    split at hr
    · have e : ∀ (t : State α σ ρ) n, (R3.ensureInbuf t n).resampler = t.resampler := by intro t n; unfold R3.ensureInbuf; split <;> rfl
      simp only [e] at hr
      split at hr
      · exact Or.inr (Option.some.inj hr).symm
      · rw [updateRatioFromMap_resampler] at hr; exact Or.inl hr
    · rw [updateRatioFromMap_resampler] at hr; exact Or.inl hr

theorem Paced.processInput (h : Paced env Ok C) (hv : Ok v) {s s' : State α σ ρ} {input : List (Frame α)} {final : Bool} (hs : At C v s) (hr : processInput p env s input final = some s') : At C v s' := by
  unfold R3.processInput at hr
  split at hr
  · split at hr
    · exact h.consume hv hs hr
    · cases hr; exact hs
  · exact h.processLoop hv _ _ _ _ hs hr

/-- For the pitch scale after the call, as the pitch scale before it is or if the resampler is fresh. -/
theorem Paced.process (h : Paced env Ok C) {s s' : State α σ ρ} {input : List (Frame α)} {final : Bool} (hr : process p env s input final = some s') (hv : Ok s'.pitchScale)
    (hs : ∀ r, s.resampler = some r → C s'.pitchScale r) : ∀ r, s'.resampler = some r → C s'.pitchScale r := by
  unfold R3.process at hr
  split at hr
  · cases hr; exact hs
  · rw [Option.map_eq_some_iff] at hr
    obtain ⟨s1, h1, rfl⟩ := hr
    have none : Paced env (fun _ => True) fun _ _ => True := ⟨fun _ => trivial, fun _ _ => trivial, fun _ _ _ _ _ => trivial⟩
    have kept : s1.pitchScale = (prologue p env s).pitchScale := (none.processInput (v := (prologue p env s).pitchScale) trivial ⟨rfl, fun _ _ => trivial⟩ h1).1
    refine (h.processInput (v := s1.pitchScale) hv ⟨kept.symm, fun r hr => ?_⟩ h1).2
    rcases prologue_resampler s r hr with e | rfl
    · exact hs r e
    · exact h.init _

/-- What can make the pitch scale matter to the resampler: processing. -/
def Call.processes : Call α → Bool
  | .process _ _ => true
  | _ => false

def Call.resets : Call α → Bool
  | .reset => true
  | _ => false

/-- The pitch scale, as `getPitchScale` tells it, is the same after each call as before it, but for resets and for all calls up to the first `process` after creation or a reset, and it is one of these whenever there is
processing.  `fresh`: there has been none yet. -/
def Steadily (p : Params) (env : Env α σ ρ) (Ok : Rat → Prop) : Bool → State α σ ρ → List (Call α) → Prop
  | _, _, [] => True
  | fresh, s, c :: cs => ∀ r, call p env s c = some r →
    (fresh = true ∨ c.resets = true ∨ r.1.pitchScale = s.pitchScale) ∧ (c.processes = true → Ok r.1.pitchScale) ∧ Steadily p env Ok (c.resets || (fresh && !c.processes)) r.1 cs

/-- What is kept between calls. -/
def Ready (C : Rat → ρ → Prop) (fresh : Bool) (s : State α σ ρ) : Prop := ∀ r, s.resampler = some r → C s.pitchScale r ∧ (fresh = true → ∀ v, C v r)

theorem Paced.call (h : Paced env Ok C) {fresh : Bool} {s : State α σ ρ} (hs : Ready C fresh s) {c : Call α} {r : State α σ ρ × List (List α)} (hr : call p env s c = some r)
    (h1 : fresh = true ∨ c.resets = true ∨ r.1.pitchScale = s.pitchScale) (h2 : c.processes = true → Ok r.1.pitchScale) : Ready C (c.resets || (fresh && !c.processes)) r.1 := by
  have same : r.1.resampler = s.resampler → c.resets = false → Ready C fresh r.1 := by
    intro e hn q hq
    rw [e] at hq
    obtain ⟨a, b⟩ := hs q hq
    refine ⟨?_, b⟩
    rcases h1 with h1 | h1 | h1
    · exact b h1 _
    · rw [hn] at h1; cases h1
    · rw [h1]; exact a
  have quiet : r.1.resampler = s.resampler → c.resets = false → c.processes = false → Ready C (c.resets || (fresh && !c.processes)) r.1 := by
    intro e a b
    rw [a, b]
    simp only [Bool.not_false, Bool.and_true, Bool.false_or]
    exact same e a
  cases c with
  | setTimeRatio x =>
    cases hr
    refine quiet ?_ rfl rfl
    simp only
    unfold R3.setTimeRatio
    split
    · rfl
    · split <;> rfl
  | setPitchScale x =>
    cases hr
    refine quiet ?_ rfl rfl
    simp only
    unfold R3.setPitchScale
    split
    · rfl
    · split <;> rfl
  | setFormantScale x =>
    cases hr
    refine quiet ?_ rfl rfl
    simp only
    unfold R3.setFormantScale
    split <;> rfl
  | setKeyFrameMap x =>
    cases hr
    refine quiet ?_ rfl rfl
    simp only
    unfold R3.setKeyFrameMap
    split
    · rfl
    · split <;> rfl
  | setExpectedInputDuration x => cases hr; exact quiet rfl rfl rfl
  | setMaxProcessSize x =>
    cases hr
    refine quiet ?_ rfl rfl
    have e1 : ∀ (t : State α σ ρ) n, (R3.ensureInbuf t n).resampler = t.resampler := by intro t n; unfold R3.ensureInbuf; split <;> rfl
    have e2 : ∀ (t : State α σ ρ) n, (R3.ensureOutbuf t n).resampler = t.resampler := by intro t n; unfold R3.ensureOutbuf; split <;> rfl
    exact (e2 _ _).trans (e1 _ _)
  | study x =>
    cases hr
    refine quiet ?_ rfl rfl
    simp only
    unfold R3.study
    split
    · rfl
    · split <;> rfl
  | process x f =>
    simp only [R3.call] at hr
    rw [Option.map_eq_some_iff] at hr
    obtain ⟨s1, e1, rfl⟩ := hr
    intro q hq
    refine ⟨h.process e1 (h2 rfl) ?_ q hq, by simp [Call.resets, Call.processes]⟩
    intro r' hr'
    obtain ⟨a, b⟩ := hs r' hr'
    rcases h1 with h1 | h1 | h1
    · exact b h1 _
    · cases h1
    · simp only at h1
      rw [h1]; exact a
  | retrieve n => cases hr; exact quiet rfl rfl rfl
  | reset =>
    cases hr
    intro q hq
    have hq : s.resampler.map env.rsReset = some q := hq
    obtain ⟨q', e, rfl⟩ := Option.map_eq_some_iff.mp hq
    obtain ⟨a, _⟩ := hs q' e
    exact ⟨h.reset a _, fun _ => h.reset a⟩

theorem Paced.run (h : Paced env Ok C) : ∀ (cs : List (Call α)) (fresh : Bool) (s : State α σ ρ) (r : State α σ ρ × List (List (List α))), Ready C fresh s → Steadily p env Ok fresh s cs →
    run p env s cs = some r → ∃ fresh', Ready C fresh' r.1 := by
  intro cs
  induction cs with
  | nil => intro fresh s r hs _ hr; cases hr; exact ⟨fresh, hs⟩
  | cons c cs ih =>
    intro fresh s r hs hst hr
    obtain ⟨a, ha, hr⟩ := Option.bind_eq_some_iff.mp hr
    obtain ⟨b, hb, hr⟩ := Option.bind_eq_some_iff.mp hr
    cases hr
    obtain ⟨h1, h2, h3⟩ := hst a ha
    exact ih _ a.1 b (h.call hs ha h1 h2) h3 hb

omit [Zero α] [Add α] [Sub α] in
theorem Paced.create [Zero α] [Add α] [Sub α] (h : Paced env Ok C) (t q : Dbl) : Ready C true (create p env t q) := by
  intro r hr
  have : r = env.rsInit := by
    unfold R3.create R3.calculateHop at hr
    simp only at hr
    split at hr
    · exact (Option.some.inj hr).symm
    · cases hr
  subst this
  exact ⟨h.init _, fun _ => h.init⟩

/-! ## C106 -/

/-- A resampler whose ratio has not changed since it was made or reset. -/
theorem builtin_paced (p : Params) (hc : 0 < p.channels) (w : Nat → Rat → Nat → ℝ) (base : Env ℝ τ (Option (BQ.Res ℝ))) :
    Paced (builtinEnv (resamplerCfg p w) base) PitchOk fun v r => ∀ x, r = some x → BQ.Calm (resamplerCfg p w) (some (1 / v)) x where
  init := by
    intro v x hx
    cases hx
    exact ⟨⟨_, BQ.init_sim _, fun _ _ => BQ.init_good _⟩, rfl, rfl, fun _ => rfl, Or.inl rfl⟩
  reset := by
    intro v r h v' x hx
    obtain ⟨y, hy, rfl⟩ := Option.map_eq_some_iff.mp hx
    have h := h y hy
    obtain ⟨m, h1, h2⟩ := h.sim
    exact ⟨⟨_, BQ.reset_sim h1, fun j hj => BQ.reset_good (h2 j hj)⟩, rfl, h.fade, h.sorted, Or.inl rfl⟩
  resample := by
    intro v r n b f hv h x' hx
    have hx : (builtinResample (resamplerCfg p w) r n b (1 / v) f).1 = some x' := hx
    have hsplit : Split (resamplerCfg p w) (fun _ => True) r := by
      intro x hx
      obtain ⟨m, h1, h2⟩ := (h x hx).sim
      exact ⟨m, h1, h2, trivial⟩
    rcases builtin_split (cfg := resamplerCfg p w) hc hsplit n b hv f with ⟨_, e, _⟩ | ⟨x, y, m, m', o, k, e1, _, _, e4, e5, _⟩
    · rw [hx] at e; cases e
    · rw [hx] at e1
      cases e1
      cases r with
      | none => unfold builtinResample at hx; cases hx
      | some z =>
        unfold builtinResample at hx
        rw [Option.bind_some] at hx
        split at hx
        · cases hx
        · rename_i r' out' k' hp
          cases hx
          exact LiveAudio.calm_planar (h z rfl) (one_div_le_one_div_of_le hv.1 hv.2) hp ⟨m', e4, e5⟩

/-- The resampler is silent, or has forgotten what it holds. -/
theorem builtin_hollow (p : Params) (w : Nat → Rat → Nat → ℝ) (base : Env ℝ τ (Option (BQ.Res ℝ))) :
    RsHushed p (builtinEnv (resamplerCfg p w) base) (LiveAudio.Hollow (resamplerCfg p w)) where
  init := by
    intro q hq
    cases hq
    exact Or.inl ⟨fun a ha => (by cases ha), fun a ha => (by cases ha)⟩
  reset := by
    intro r h q hq
    obtain ⟨q', h', rfl⟩ := Option.map_eq_some_iff.mp hq
    rcases h q' h' with e | e
    · exact Or.inl e
    · exact Or.inr ⟨rfl, rfl, e.fade, e.ch, e.sorted⟩
  keeps := fun n _ q f h hb => ⟨(LiveAudio.hollow_call rfl h n hb q f).1, fun x hx c _ => (LiveAudio.hollow_call rfl h n hb q f).2 x hx c⟩

/-- **C106 (partial)**: with the built-in resampler, after a reset silence in gives silence out, at any ratios and in any history, if before that reset the pitch scale has only been changed up to the first `process` after creation or
an earlier reset.  Missing: changes of the pitch scale while running.  There the claim is false of the resampler by itself (`C23_violated`): if its ratio was changed, `reset` keeps what is in the buffer of the ratio before. -/
theorem C106_steady_partial {p : Params} (hc : 0 < p.channels) (o : Open κ) (w : Nat → Rat → Nat → ℝ) (base : Env ℝ τ (Option (BQ.Res ℝ))) (t q : Dbl) (pre cs : List (Call ℝ)) (hs : ∀ c ∈ cs, c.silent p.channels)
    {a r : State ℝ (Option (Spectral κ)) (Option (BQ.Res ℝ)) × List (List (List ℝ))}
    (hst : Steadily p (spectralEnv p o (builtinEnv (resamplerCfg p w) base)) PitchOk true (create p (spectralEnv p o (builtinEnv (resamplerCfg p w) base)) t q) pre)
    (ha : run p (spectralEnv p o (builtinEnv (resamplerCfg p w) base)) (create p (spectralEnv p o (builtinEnv (resamplerCfg p w) base)) t q) pre = some a)
    (hr : run p (spectralEnv p o (builtinEnv (resamplerCfg p w) base)) a.1 (.reset :: cs) = some r) : ∀ out ∈ r.2, ∀ l ∈ out, ∀ a ∈ l, a = 0 := by
  have hb := builtin_paced p hc w base
  have hb' : Paced (spectralEnv p o (builtinEnv (resamplerCfg p w) base)) PitchOk fun v r => ∀ x, r = some x → BQ.Calm (resamplerCfg p w) (some (1 / v)) x := ⟨hb.init, hb.reset, hb.resample⟩
  obtain ⟨_, hready⟩ := hb'.run pre true _ a (hb'.create t q) hst ha
  refine C106_forgotten hc o (builtin_hollow p w base) t q pre cs hs ha ?_ hr
  intro x hx y hy
  obtain ⟨z, hz, rfl⟩ := Option.map_eq_some_iff.mp hy
  have h := (hready x hx).1 z hz
  obtain ⟨m, h1, _⟩ := h.sim
  exact Or.inr ⟨rfl, rfl, h.fade, h1.s.ch, h.sorted⟩

/-! ### Calls that keep the pitch scale -/

theorem fixRatios_keep (x : Rat) {v : Rat} (hv : 0 < v) : (fixRatios (.fin x) (.fin v)).2 = v := by
  by_cases hx : 0 < x
  · rw [fixRatios_fin hx hv]
  · have e : fixRatios (.fin x) (.fin v) = fixRatios (.fin 1) (.fin v) := by
      have h1 : (Dbl.fin x).nonPos = true := by simp [Dbl.nonPos]; linarith
      have h2 : (Dbl.fin 1).nonPos = false := by decide +kernel
      unfold fixRatios
      simp only [h1, h2, if_true, Bool.false_eq_true, if_false]
    rw [e, fixRatios_fin one_pos hv]

/-- The call does not set the pitch scale, and nothing in it makes the engine put the ratios back to 1: time ratios are finite, and key-frame maps do not begin at 0 (C31). -/
def Call.leaves : Call α → Prop
  | .setPitchScale _ => False
  | .setTimeRatio x => ∃ y, x = .fin y
  | .setKeyFrameMap m => ∀ e ∈ m.head?, e.1 ≠ 0
  | _ => True

theorem run_snoc : ∀ {cs : List (Call α)} {s : State α σ ρ} {a : State α σ ρ × List (List (List α))} {c : Call α} {r : State α σ ρ × List (List α)}, run p env s cs = some a → call p env a.1 c = some r →
    run p env s (cs ++ [c]) = some (r.1, a.2 ++ [r.2]) := by
  intro cs
  induction cs with
  | nil =>
    intro s a c r ha hr
    cases ha
    show (R3.call p env s c).bind _ = _
    rw [hr]
    rfl
  | cons d cs ih =>
    intro s a c r ha hr
    obtain ⟨b, e, hb, he, rfl⟩ := run_cons ha
    show (R3.call p env s d).bind _ = _
    rw [hb, Option.bind_some]
    show (R3.run p env b.1 (cs ++ [c])).bind _ = _
    rw [ih he hr]
    rfl

theorem steadily_of_leaves (hc : 0 < p.channels) (t : Rat) {v : Rat} (hv : PitchOk v) : ∀ (cs pre : List (Call α)) (fresh : Bool) (a : State α σ ρ × List (List (List α))), (∀ c ∈ pre ++ cs, c.leaves) →
    run p env (create p env (.fin t) (.fin v)) pre = some a → a.1.pitchScale = v → Steadily p env PitchOk fresh a.1 cs := by
  intro cs
  induction cs with
  | nil => intro pre fresh a _ _ _; trivial
  | cons c cs ih =>
    intro pre fresh a hl ha hp r hr
    have hlc : c.leaves := hl c (by simp)
    have hsame : r.1.pitchScale = a.1.pitchScale := by
      cases c with
      | setTimeRatio x =>
        obtain ⟨y, rfl⟩ := hlc
        cases hr
        show (setTimeRatio p env a.1 _).pitchScale = _
        unfold R3.setTimeRatio
        split
        · rfl
        · split
          · rfl
          · rw [hp]; exact fixRatios_keep y hv.1
      | setPitchScale x => exact hlc.elim
      | setFormantScale x =>
        cases hr
        show (setFormantScale p a.1 _).pitchScale = _
        unfold R3.setFormantScale
        split <;> rfl
      | setKeyFrameMap x =>
        cases hr
        show (setKeyFrameMap p a.1 _).pitchScale = _
        unfold R3.setKeyFrameMap
        split
        · rfl
        · split <;> rfl
      | setExpectedInputDuration x => cases hr; rfl
      | setMaxProcessSize x =>
        cases hr
        exact ((ensureOutbuf_kept _ _).pitchScale).trans (ensureInbuf_kept _ _).pitchScale
      | study x =>
        cases hr
        show (study p a.1 _).pitchScale = _
        unfold R3.study
        split
        · rfl
        · split <;> rfl
      | process x f =>
        simp only [R3.call] at hr
        rw [Option.map_eq_some_iff] at hr
        obtain ⟨s1, e1, rfl⟩ := hr
        exact C31_partial hc env _ _ pre ha (fun m hm => (hl (.setKeyFrameMap m) (List.mem_append_left _ hm) : Call.leaves (.setKeyFrameMap m))) e1
      | retrieve n => cases hr; rfl
      | reset =>
        cases hr
        show (fixRatios (.fin a.1.timeRatio) (.fin a.1.pitchScale)).2 = _
        rw [hp]
        exact fixRatios_keep _ hv.1
    refine ⟨Or.inr (Or.inr hsame), fun _ => by rw [hsame, hp]; exact hv, ?_⟩
    refine ih (pre ++ [c]) _ (r.1, a.2 ++ [r.2]) (by rw [List.append_assoc]; exact hl) ?_ (hsame.trans hp)
    exact run_snoc ha hr

/-- **C106 (partial)**, for a pitch scale given at creation and left as it is: with the built-in resampler, after a reset silence in gives silence out, whatever audio came before. -/
theorem C106_constant_partial {p : Params} (hc : 0 < p.channels) (o : Open κ) (w : Nat → Rat → Nat → ℝ) (base : Env ℝ τ (Option (BQ.Res ℝ))) (t : Rat) {v : Rat} (hv : PitchOk v) (pre cs : List (Call ℝ)) (hl : ∀ c ∈ pre, c.leaves)
    (hs : ∀ c ∈ cs, c.silent p.channels) {a r : State ℝ (Option (Spectral κ)) (Option (BQ.Res ℝ)) × List (List (List ℝ))}
    (ha : run p (spectralEnv p o (builtinEnv (resamplerCfg p w) base)) (create p (spectralEnv p o (builtinEnv (resamplerCfg p w) base)) (.fin t) (.fin v)) pre = some a)
    (hr : run p (spectralEnv p o (builtinEnv (resamplerCfg p w) base)) a.1 (.reset :: cs) = some r) : ∀ out ∈ r.2, ∀ l ∈ out, ∀ a ∈ l, a = 0 :=
  C106_steady_partial hc o w base (.fin t) (.fin v) pre cs hs (steadily_of_leaves hc t hv pre [] true (create p _ (.fin t) (.fin v), []) (fun c h => hl c h) rfl (fixRatios_keep t hv.1)) ha hr

/-- Audio at pitch 2 in real time, a change of the time ratio, more audio, a reset, then silence at another pitch: the calls return, and the second part is silent. -/
example (w : Nat → Rat → Nat → ℝ) (base : Env ℝ Unit (Option (BQ.Res ℝ))) (hk : KeepsRatio base) :
    let p : Params := { Ex.mono with realTime := true }
    let env := spectralEnv p Ex.blind (builtinEnv (resamplerCfg p w) base)
    ∃ a r, run p env (create p env (.fin 1) (.fin 2)) [.process (List.replicate 8192 fun _ => 3) false, .setTimeRatio (.fin (1 / 2)), .process (List.replicate 8192 fun _ => 5) false] = some a ∧
      run p env a.1 [.reset, .setPitchScale (.fin (3 / 2)), .process (List.replicate 8192 fun _ => 0) false, .retrieve 8192] = some r ∧ ∀ out ∈ r.2, ∀ l ∈ out, ∀ x ∈ l, x = 0 := by
  intro p env
  have hk' : KeepsRatio env := spectral_keepsRatio _ _ hk
  have w1 : (Dbl.fin 1).within 1 := by intro q hq; cases hq; exact le_refl _
  have w2 : (Dbl.fin 2).within 2 := by intro q hq; cases hq; exact le_refl _
  obtain ⟨u, hu⟩ := C28_returns (p := p) (by decide) env hk' (le_refl _) (show (1 : Rat) ≤ 2 by norm_num) (by decide +kernel) w1 w2
    ([.process (List.replicate 8192 fun _ => 3) false, .setTimeRatio (.fin (1 / 2)), .process (List.replicate 8192 fun _ => 5) false] ++
      [.reset, .setPitchScale (.fin (3 / 2)), .process (List.replicate 8192 fun _ => 0) false, .retrieve 8192]) (by
      intro c hc
      simp only [List.cons_append, List.nil_append, List.mem_cons, List.not_mem_nil, or_false] at hc
      rcases hc with rfl | rfl | rfl | rfl | rfl | rfl | rfl
      · trivial
      · intro q hq; cases hq; norm_num
      · trivial
      · trivial
      · intro q hq; cases hq; norm_num
      · trivial
      · trivial)
  obtain ⟨a, r, ha, hr, -⟩ := (run_append _ _ _ _).mp hu
  refine ⟨a, r, ha, hr, C106_constant_partial (by decide) Ex.blind w base 1 (v := 2) ⟨by norm_num, by norm_num⟩ _ _ ?_ ?_ ha hr⟩
  · intro c hc
    simp only [List.mem_cons, List.not_mem_nil, or_false] at hc
    rcases hc with rfl | rfl | rfl
    · trivial
    · exact ⟨_, rfl⟩
    · trivial
  · intro c hc
    simp only [List.mem_cons, List.not_mem_nil, or_false] at hc
    rcases hc with rfl | rfl | rfl
    · trivial
    · intro f hf c _; rw [List.eq_of_mem_replicate hf]
    · trivial

end Verif.R3
