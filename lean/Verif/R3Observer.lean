import Verif.R3Stream
/-!
# The observer of `R3Stream.lean` changes nothing
-/
namespace Verif.R3
open Verif.Round Verif.StretchCalc

variable {α σ ρ : Type}

/-- The state without what the observer has written down. -/
def forget (s : State α (σ × List (Entry α)) ρ) : State α σ ρ where
  timeRatio := s.timeRatio
  pitchScale := s.pitchScale
  formantScale := s.formantScale
  inbuf := s.inbuf
  outbuf := s.outbuf
  mixdownSize := s.mixdownSize
  accumulatorFill := s.accumulatorFill
  calculator := s.calculator
  resampler := s.resampler
  useReadahead := s.useReadahead
  inhop := s.inhop
  prevInhop := s.prevInhop
  prevOuthop := s.prevOuthop
  startSkip := s.startSkip
  studyInputDuration := s.studyInputDuration
  suppliedInputDuration := s.suppliedInputDuration
  totalTargetDuration := s.totalTargetDuration
  consumedInputDuration := s.consumedInputDuration
  lastKeyFrameSurpassed := s.lastKeyFrameSurpassed
  totalOutputDuration := s.totalOutputDuration
  keyFrameMap := s.keyFrameMap
  mode := s.mode
  dsp := s.dsp.1

theorem forget_calculateHop (p : Params) (env : Env α σ ρ) (s : State α (σ × List (Entry α)) ρ) (t ps : Dbl) :
    forget (calculateHop p (recording env) s t ps) = calculateHop p env (forget s) t ps := rfl

theorem forget_setTimeRatio (p : Params) (env : Env α σ ρ) (s : State α (σ × List (Entry α)) ρ) (x : Dbl) :
    forget (setTimeRatio p (recording env) s x) = setTimeRatio p env (forget s) x := by
  unfold setTimeRatio
  rw [show locked p (forget s) = locked p s from rfl, show (forget s).timeRatio = s.timeRatio from rfl]
  split
  · rfl
  · split <;> rfl

theorem forget_setPitchScale (p : Params) (env : Env α σ ρ) (s : State α (σ × List (Entry α)) ρ) (x : Dbl) :
    forget (setPitchScale p (recording env) s x) = setPitchScale p env (forget s) x := by
  unfold setPitchScale
  rw [show locked p (forget s) = locked p s from rfl, show (forget s).pitchScale = s.pitchScale from rfl]
  split
  · rfl
  · split <;> rfl

theorem forget_setFormantScale (p : Params) (s : State α (σ × List (Entry α)) ρ) (x : Dbl) :
    forget (setFormantScale p s x) = setFormantScale p (forget s) x := by
  unfold setFormantScale
  rw [show locked p (forget s) = locked p s from rfl]
  split <;> rfl

theorem forget_setKeyFrameMap (p : Params) (s : State α (σ × List (Entry α)) ρ) (x : List (Nat × Nat)) :
    forget (setKeyFrameMap p s x) = setKeyFrameMap p (forget s) x := by
  unfold setKeyFrameMap
  rw [show (forget s).mode = s.mode from rfl]
  split
  · rfl
  · split <;> rfl

theorem forget_ensureInbuf (s : State α (σ × List (Entry α)) ρ) (n : Nat) : forget (ensureInbuf s n) = ensureInbuf (forget s) n := by
  unfold ensureInbuf
  rw [show in0 (forget s) = in0 s from rfl]
  split <;> rfl

theorem forget_ensureOutbuf (s : State α (σ × List (Entry α)) ρ) (n : Nat) : forget (ensureOutbuf s n) = ensureOutbuf (forget s) n := by
  unfold ensureOutbuf
  rw [show out0 (forget s) = out0 s from rfl]
  split <;> rfl

theorem forget_setMaxProcessSize (s : State α (σ × List (Entry α)) ρ) (n : Nat) : forget (setMaxProcessSize s n) = setMaxProcessSize (forget s) n := by
  unfold setMaxProcessSize
  simp only
  rw [forget_ensureOutbuf, forget_ensureInbuf]

theorem forget_study (p : Params) (s : State α (σ × List (Entry α)) ρ) (n : Nat) : forget (study p s n) = study p (forget s) n := by
  unfold study
  rw [show (forget s).mode = s.mode from rfl]
  split
  · rfl
  · split <;> rfl

theorem forget_updateRatioFromMap (p : Params) (env : Env α σ ρ) (s : State α (σ × List (Entry α)) ρ) :
    forget (updateRatioFromMap p (recording env) s) = updateRatioFromMap p env (forget s) := by
  unfold updateRatioFromMap
  rw [show (forget s).keyFrameMap = s.keyFrameMap from rfl, show (forget s).consumedInputDuration = s.consumedInputDuration from rfl,
    show (forget s).lastKeyFrameSurpassed = s.lastKeyFrameSurpassed from rfl]
  split
  · rfl
  · split
    · rfl
    · split
      · rfl
      · split <;> rfl

theorem forget_skipStart (s : State α (σ × List (Entry α)) ρ) : forget (skipStart s) = skipStart (forget s) := by
  unfold skipStart
  rw [show (forget s).startSkip = s.startSkip from rfl]
  split <;> rfl

theorem forget_emit (p : Params) (s : State α (σ × List (Entry α)) ρ) (a b c : Nat) (out : List (Frame α)) :
    forget (emit p s a b c out) = emit p (forget s) a b c out := by
  have key : ∀ S : State α (σ × List (Entry α)) ρ, forget { skipStart S with prevInhop := a, prevOuthop := b } =
      { skipStart (forget S) with prevInhop := a, prevOuthop := b } := by
    intro S
    rw [← forget_skipStart]
    rfl
  exact key _

variable [Zero α]

theorem forget_consumeRound (p : Params) (env : Env α σ ρ) (final : Bool) (a b : Nat) (s : State α (σ × List (Entry α)) ρ) :
    (consumeRound p (recording env) final a b s).map forget = consumeRound p env final a b (forget s) := by
  unfold consumeRound
  simp only
  rw [← forget_ensureOutbuf, show in0 (forget s) = in0 s from rfl]
  generalize ensureOutbuf s b = u
  rw [show (forget u).useReadahead = u.useReadahead from rfl, show (forget u).mixdownSize = u.mixdownSize from rfl]
  split
  · rfl
  · simp only [Option.map_some]
    rw [forget_emit]
    rfl

theorem forget_consumeLoop (p : Params) (env : Env α σ ρ) (final : Bool) (a b : Nat) : ∀ (fuel : Nat) (s : State α (σ × List (Entry α)) ρ),
    (consumeLoop p (recording env) final a b fuel s).map forget = consumeLoop p env final a b fuel (forget s) := by
  intro fuel
  induction fuel with
  | zero => intro s; rfl
  | succ fuel ih =>
    intro s
    unfold consumeLoop
    rw [show stops p final (forget s) = stops p final s from rfl]
    split
    · rfl
    · rw [← forget_consumeRound]
      cases consumeRound p (recording env) final a b s with
      | none => rfl
      | some t => exact ih t

theorem forget_consume (p : Params) (env : Env α σ ρ) (final : Bool) (s : State α (σ × List (Entry α)) ρ) :
    (consume p (recording env) final s).map forget = consume p env final (forget s) := by
  rw [consume_eq, consume_eq, forget_consumeLoop]
  rfl

theorem forget_padStart (p : Params) (env : Env α σ ρ) (s : State α (σ × List (Entry α)) ρ) :
    forget (padStart p (recording env) s) = padStart p env (forget s) := by
  unfold padStart
  rw [show (forget s).mode = s.mode from rfl]
  split
  · have key : ∀ S : State α (σ × List (Entry α)) ρ, forget { ensureInbuf S (p.windowSourceSize / 2) with
          inbuf := (ensureInbuf S (p.windowSourceSize / 2)).inbuf.map fun q => q.zero (p.windowSourceSize / 2),
          startSkip := (roundAway ((p.windowSourceSize / 2 : Nat) / (ensureInbuf S (p.windowSourceSize / 2)).pitchScale)).toNat } =
        { ensureInbuf (forget S) (p.windowSourceSize / 2) with
          inbuf := (ensureInbuf (forget S) (p.windowSourceSize / 2)).inbuf.map fun q => q.zero (p.windowSourceSize / 2),
          startSkip := (roundAway ((p.windowSourceSize / 2 : Nat) / (ensureInbuf (forget S) (p.windowSourceSize / 2)).pitchScale)).toNat } := by
      intro S
      rw [← forget_ensureInbuf]
      rfl
    exact key _
  · rfl

theorem forget_prologue (p : Params) (env : Env α σ ρ) (s : State α (σ × List (Entry α)) ρ) :
    forget (prologue p (recording env) s) = prologue p env (forget s) := by
  unfold prologue
  split
  · rfl
  · rw [forget_padStart, forget_updateRatioFromMap]
    rfl

variable [Add α] [Sub α]

theorem forget_takeIn (p : Params) (env : Env α σ ρ) (before final : Bool) (s : State α (σ × List (Entry α)) ρ) (rest : List (Frame α)) :
    (takeIn p (recording env) before final s rest).map (fun r => (forget r.1, r.2)) = takeIn p env before final (forget s) rest := by
  have hp : ∀ block, prepareInput p (recording env) s block = prepareInput p env (forget s) block := fun _ => rfl
  unfold takeIn
  rw [show (forget s).resampler = s.resampler from rfl]
  split
  · simp only [hp]
    generalize he : prepareInput p env (forget s) (rest.take (resampleInputFor p s rest.length)) = o
    rw [show resampleInputFor p (forget s) rest.length = resampleInputFor p s rest.length from rfl, he]
    cases o <;> rfl
  · simp only [hp]
    generalize he : prepareInput p env (forget s) (rest.take (min (in0 s).writeSpace rest.length)) = o
    rw [show in0 (forget s) = in0 s from rfl, he]
    cases o <;> rfl

omit [Add α] [Sub α] in
theorem forget_roomy (p : Params) (env : Env α σ ρ) (s : State α (σ × List (Entry α)) ρ) :
    (roomy p (recording env) s).map forget = roomy p env (forget s) := by
  unfold roomy
  rw [show in0 (forget s) = in0 s from rfl]
  split
  · exact forget_consume ..
  · rfl

theorem forget_processRound (p : Params) (env : Env α σ ρ) (before final : Bool) (s : State α (σ × List (Entry α)) ρ) (rest : List (Frame α)) :
    (processRound p (recording env) before final s rest).map (fun r => (forget r.1, r.2)) = processRound p env before final (forget s) rest := by
  unfold processRound
  rw [← forget_roomy]
  cases roomy p (recording env) s with
  | none => rfl
  | some a =>
    simp only [Option.map_some, Option.bind_eq_bind, Option.bind_some, Option.pure_def]
    rw [← forget_ensureInbuf, ← forget_takeIn]
    cases takeIn p (recording env) before final (ensureInbuf a rest.length) rest with
    | none => rfl
    | some b =>
      simp only [Option.map_some, Option.bind_some]
      rw [← forget_consume]
      cases consume p (recording env) (final && decide (b.2 ≥ rest.length)) b.1 <;> rfl

theorem forget_processLoop (p : Params) (env : Env α σ ρ) (before final : Bool) : ∀ (fuel : Nat) (s : State α (σ × List (Entry α)) ρ) (rest : List (Frame α)),
    (processLoop p (recording env) before final fuel s rest).map forget = processLoop p env before final fuel (forget s) rest := by
  intro fuel
  induction fuel with
  | zero =>
    intro s rest
    unfold processLoop
    split <;> rfl
  | succ fuel ih =>
    intro s rest
    unfold processLoop
    split
    · rfl
    · rw [← forget_processRound]
      cases processRound p (recording env) before final s rest with
      | none => rfl
      | some r => exact ih r.1 r.2

theorem forget_processInput (p : Params) (env : Env α σ ρ) (s : State α (σ × List (Entry α)) ρ) (input : List (Frame α)) (final : Bool) :
    (processInput p (recording env) s input final).map forget = processInput p env (forget s) input final := by
  unfold processInput
  split
  · split
    · exact forget_consume ..
    · rfl
  · exact forget_processLoop ..

theorem forget_process (p : Params) (env : Env α σ ρ) (s : State α (σ × List (Entry α)) ρ) (input : List (Frame α)) (final : Bool) :
    (process p (recording env) s input final).map forget = process p env (forget s) input final := by
  unfold process
  rw [show (forget s).mode = s.mode from rfl]
  split
  · rfl
  · rw [← forget_prologue, ← forget_processInput]
    cases processInput p (recording env) (prologue p (recording env) s) (input.take overallMaxProcessSize) final <;> rfl

theorem forget_call (p : Params) (env : Env α σ ρ) (s : State α (σ × List (Entry α)) ρ) (c : Call α) :
    (call p (recording env) s c).map (fun r => (forget r.1, r.2)) = call p env (forget s) c := by
  cases c with
  | setTimeRatio x => exact congrArg (fun s => some (s, [])) (forget_setTimeRatio p env s x)
  | setPitchScale x => exact congrArg (fun s => some (s, [])) (forget_setPitchScale p env s x)
  | setFormantScale x => exact congrArg (fun s => some (s, [])) (forget_setFormantScale p s x)
  | setKeyFrameMap x => exact congrArg (fun s => some (s, [])) (forget_setKeyFrameMap p s x)
  | setExpectedInputDuration x => rfl
  | setMaxProcessSize x => exact congrArg (fun s => some (s, [])) (forget_setMaxProcessSize s x)
  | study x => exact congrArg (fun s => some (s, [])) (forget_study p s x)
  | process x f =>
    simp only [call]
    rw [← forget_process]
    cases process p (recording env) s x f <;> rfl
  | retrieve k => rfl
  | reset => rfl

/-- With or without the observer a history has the same outcome and delivers the same. -/
theorem forget_run (p : Params) (env : Env α σ ρ) : ∀ (cs : List (Call α)) (s : State α (σ × List (Entry α)) ρ),
    (run p (recording env) s cs).map (fun r => (forget r.1, r.2)) = run p env (forget s) cs := by
  intro cs
  induction cs with
  | nil => intro s; rfl
  | cons c cs ih =>
    intro s
    unfold run
    rw [← forget_call]
    cases call p (recording env) s c with
    | none => rfl
    | some a =>
      simp only [Option.map_some, Option.bind_eq_bind, Option.bind_some, Option.pure_def]
      rw [← ih]
      cases run p (recording env) a.1 cs <;> rfl

/-- A history of the engine as it is, and the same history observed. -/
theorem observed {p : Params} {env : Env α σ ρ} {t ps : Dbl} {cs : List (Call α)} {r : State α σ ρ × List (List (List α))}
    (h : run p env (create p env t ps) cs = some r) :
    ∃ r', run p (recording env) (create p (recording env) t ps) cs = some r' ∧ forget r'.1 = r.1 ∧ r'.2 = r.2 := by
  have e := forget_run p env cs (create p (recording env) t ps)
  rw [show forget (create p (recording env) t ps) = create p env t ps from rfl, h, Option.map_eq_some_iff] at e
  obtain ⟨r', h1, h2⟩ := e
  rw [Prod.mk.injEq] at h2
  exact ⟨r', h1, h2.1, h2.2⟩

end Verif.R3
