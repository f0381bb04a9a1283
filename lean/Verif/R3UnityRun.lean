import Verif.R3Stream
import Verif.R3Limits
/-! # The finer engine at unity: hops, and what the observer writes down -/
namespace Verif.R3
open Verif.StretchCalc Verif.Round

variable {α σ ρ : Type} [Zero α] [Add α] [Sub α]

/-- The state of the spectral processing after what is written down. -/
def replay (env : Env α σ ρ) (log : List (Entry α)) : σ := log.foldl (fun d e => (env.dsp d e.hop e.windows).1) env.dspInit

/-- What is written down is what has happened since creation. -/
structure Replays (env : Env α σ ρ) (d : σ × List (Entry α)) : Prop where
  state : d.1 = replay env d.2
  outs : ∀ (k : Nat) (e : Entry α), d.2[k]? = some e → e.out = (List.range e.hop.outhop).map fun i c => (env.dsp (replay env (d.2.take k)) e.hop e.windows).2 c i

omit [Zero α] [Add α] [Sub α] in
theorem Replays.next {env : Env α σ ρ} {d : σ × List (Entry α)} (h : Replays env d) (hop : Hop) (w : List (List α)) : Replays env ((recording env).dsp d hop w).1 := by
  refine ⟨?_, ?_⟩
  · show (env.dsp d.1 hop w).1 = replay env (d.2 ++ [_])
    unfold replay
    rw [List.foldl_append, h.state]
    rfl
  · intro k e he
    change (d.2 ++ [_])[k]? = some e at he
    by_cases hk : k < d.2.length
    · rw [List.getElem?_append_left hk] at he
      have hd : ((recording env).dsp d hop w).1.2.take k = d.2.take k := List.take_append_of_le_length (by omega)
      rw [hd]
      exact h.outs k e he
    · have hk' : k = d.2.length := by
        have := (List.getElem?_eq_some_iff.mp he).1
        simp only [List.length_append, List.length_singleton] at this
        omega
      subst hk'
      rw [List.getElem?_append_right (le_refl _)] at he
      simp only [Nat.sub_self, List.getElem?_cons_zero, Option.some.injEq] at he
      have hd : ((recording env).dsp d hop w).1.2.take d.2.length = d.2 := by
        rw [show ((recording env).dsp d hop w).1.2 = d.2 ++ [_] from rfl, List.take_append_of_le_length (le_refl _), List.take_length]
      rw [hd, ← h.state, ← he]

/-- The hop at unity. -/
def unityHop (p : Params) : Nat := inhopFor p (fun _ => 0) 1

theorem unityHop_eq (p : Params) (curve : Rat → Rat) : inhopFor p curve 1 = unityHop p := by
  unfold unityHop inhopFor proposedOuthop
  norm_num

theorem unityHop_pos (p : Params) : 1 ≤ unityHop p := (inhopFor_bounds p (fun _ => 0) 1).1

/-- The arguments of a round at unity, with `F` for what the formant scale may be. -/
structure UnityHop (F : Dbl → Prop) (p : Params) (h : Hop) : Prop where
  inhop : h.inhop = unityHop p
  prevInhop : h.prevInhop = unityHop p
  prevOuthop : h.prevOuthop = unityHop p
  outhop : h.outhop = unityHop p
  ahead : h.useReadahead = decide (unityHop p < p.maxInhopWithReadahead)
  ratio : h.timeRatio = 1
  pitch : h.pitchScale = 1
  formant : F h.formantScale

/-- The stretch calculator at unity. -/
structure Level (s : Calc) : Prop where
  soft : s.useHardPeaks = false
  ratio : s.prevRatio = 1
  checkpoint : s.checkpoint = (0, 0)
  frames : s.outFrame = s.inFrame

theorem level_next {s : Calc} (h : Level s) {n : Nat} (hn : 1 ≤ n) (a b : Nat) :
    Level (calculateSingle s ⟨1, 1 / 1, 1, n, a, b, true⟩).1 ∧ (calculateSingle s ⟨1, 1 / 1, 1, n, a, b, true⟩).2 = (n : Int) := by
  have e1 : incrementFor s n = n := by unfold incrementFor; rw [if_neg (by omega)]
  have e2 : checkpointFor s (1 / (1 / 1)) = (0, 0) := by
    unfold checkpointFor
    rw [h.ratio, if_neg (by norm_num)]
    exact h.checkpoint
  have e3 : divergenceFor (0, 0) s.inFrame s.outFrame 1 (1 / 1) a b true = 0 := by
    unfold divergenceFor expectedOutFrame
    simp only [if_true]
    rw [h.frames]
    simp
  have e4 : ∀ d, transientAt s 1 d = false := by
    intro d
    unfold transientAt
    rw [h.soft]
    simp
  have e5 : clampedIncrement n (1 / (1 / 1)) (recoveryFor s.sampleRate n 0) = (n : Int) := by
    have hr : recoveryFor s.sampleRate n 0 = 0 := by unfold recoveryFor; norm_num
    rw [hr]
    unfold clampedIncrement
    simp only
    have l1 : lrint ((n : Rat) * (1 / (1 / 1))) = (n : Int) := by
      rw [show (n : Rat) * (1 / (1 / 1)) = ((n : Int) : Rat) by push_cast; ring]
      exact lrint_int _
    have l2 : lrint (((lrint ((n : Rat) * (1 / (1 / 1))) : Int) : Rat) - 0) = (n : Int) := by
      rw [l1, sub_zero]
      exact lrint_int _
    have n0 : (0 : Rat) ≤ n := by positivity
    have l3 : lrint ((n : Rat) * (1 / (1 / 1)) * (3 / 10)) ≤ (n : Int) := by
      refine lrint_le_int ?_
      push_cast
      linarith
    have l4 : (n : Int) ≤ lrint ((n : Rat) * (1 / (1 / 1)) * 2) := by
      refine int_le_lrint ?_
      push_cast
      linarith
    rw [l2, if_neg (by omega), if_neg (by omega), if_neg (by omega)]
  have key : calculateSingle s ⟨1, 1 / 1, 1, n, a, b, true⟩ = ({ s with
      justReset := false, prevRatio := 1 / (1 / 1), prevTimeRatio := 1, checkpoint := (0, 0), prevDf := 1, amnesty := s.amnesty - 1,
      inFrame := s.inFrame + n, outFrame := s.outFrame + ((n : Int) : Rat) * (1 / 1) }, (n : Int)) := by
    unfold calculateSingle
    simp only [e1, e2, e3, e4, e5, Bool.false_and, Bool.false_eq_true, if_false]
  rw [key]
  refine ⟨⟨h.soft, by norm_num, rfl, ?_⟩, rfl⟩
  simp only
  rw [h.frames]
  push_cast
  ring

variable {F : Dbl → Prop}

/-- The engine at unity. -/
structure AtUnity (F : Dbl → Prop) (p : Params) (env : Env α σ ρ) (s : State α (σ × List (Entry α)) ρ) : Prop where
  ratio : s.timeRatio = 1
  pitch : s.pitchScale = 1
  inhop : s.inhop = unityHop p
  ahead : s.useReadahead = decide (unityHop p < p.maxInhopWithReadahead)
  prevInhop : s.prevInhop = unityHop p
  prevOuthop : s.prevOuthop = unityHop p
  resampler : p.realTime = false → s.resampler = none
  map : s.keyFrameMap = []
  level : Level s.calculator
  log : ∀ e ∈ s.dsp.2, UnityHop F p e.hop
  replays : Replays env s.dsp
  formant : F s.formantScale

/-- The members that matter for that. -/
def core (s : State α σ ρ) : Rat × Rat × Nat × Bool × Nat × Nat × Option ρ × List (Nat × Nat) × Calc × σ × Dbl :=
  (s.timeRatio, s.pitchScale, s.inhop, s.useReadahead, s.prevInhop, s.prevOuthop, s.resampler, s.keyFrameMap, s.calculator, s.dsp, s.formantScale)

omit [Zero α] [Add α] [Sub α] in
theorem AtUnity.congr {p : Params} {env : Env α σ ρ} {s s' : State α (σ × List (Entry α)) ρ} (h : AtUnity F p env s) (e : core s' = core s) : AtUnity F p env s' := by
  simp only [core, Prod.mk.injEq] at e
  obtain ⟨a, b, c, d, f, f', g, i, j, k, m⟩ := e
  exact ⟨a ▸ h.ratio, b ▸ h.pitch, c ▸ h.inhop, d ▸ h.ahead, f ▸ h.prevInhop, f' ▸ h.prevOuthop, g ▸ h.resampler, i ▸ h.map, j ▸ h.level, k ▸ h.log, k ▸ h.replays, m ▸ h.formant⟩

omit [Zero α] [Add α] [Sub α] in
theorem core_ensureOutbuf (s : State α σ ρ) (n : Nat) : core (ensureOutbuf s n) = core s := by
  unfold ensureOutbuf; split <;> rfl

omit [Zero α] [Add α] [Sub α] in
theorem core_ensureInbuf (s : State α σ ρ) (n : Nat) : core (ensureInbuf s n) = core s := by
  unfold ensureInbuf; split <;> rfl

omit [Zero α] [Add α] [Sub α] in
theorem core_skipStart (s : State α σ ρ) : core (skipStart s) = core s := by
  unfold skipStart; split <;> rfl

omit [Zero α] [Add α] [Sub α] in
theorem core_emit (p : Params) (s : State α σ ρ) (a b c : Nat) (out : List (Frame α)) : core (emit p s a b c out) = core { s with prevInhop := a, prevOuthop := b } := by
  unfold emit
  simp only
  rw [show ∀ (t : State α σ ρ), core { t with prevInhop := a, prevOuthop := b } = (t.timeRatio, t.pitchScale, t.inhop, t.useReadahead, a, b, t.resampler, t.keyFrameMap, t.calculator, t.dsp, t.formantScale) from fun _ => rfl]
  unfold skipStart
  simp only
  split <;> rfl

/-- Nothing is resampled at unity: offline, or without the option for high consistency and when the resampler says that its ratio is then 1. -/
def Unresampled (p : Params) (env : Env α σ ρ) : Prop := p.realTime = false ∨ (p.highConsistency = false ∧ ∀ r, env.effective r 1 = 1)

omit [Zero α] [Add α] [Sub α] in
theorem AtUnity.still {p : Params} {env : Env α σ ρ} (hm : Unresampled p env) {s : State α (σ × List (Entry α)) ρ} (h : AtUnity F p env s) : resamplingBefore p s = false ∧ resamplingAfter p s = false := by
  unfold resamplingBefore resamplingAfter areWeResampling
  rw [h.pitch]
  rcases hm with hm | ⟨hm, _⟩
  · rw [hm]; cases s.resampler.isSome <;> simp
  · rw [hm]; cases s.resampler.isSome <;> cases p.realTime <;> simp

theorem round_atUnity {p : Params} {env : Env α σ ρ} (hm : Unresampled p env) {s s' : State α (σ × List (Entry α)) ρ} (h : AtUnity F p env s) {final : Bool}
    (hr : consumeRound p (recording env) final (unityHop p) (unityHop p) s = some s') : AtUnity F p env s' := by
  unfold consumeRound at hr
  have h1 := h.congr (core_ensureOutbuf s (unityHop p))
  generalize ensureOutbuf s (unityHop p) = s1 at *
  simp only at hr
  split at hr
  · cases hr
  · have hre : ∀ a b c d m, resampleAfter p (recording env) s1 final a b c d m = (s1.resampler, m) := by
      intro a b c d m
      unfold resampleAfter
      rw [(h1.still hm).2]
      cases s1.resampler <;> rfl
    rw [hre] at hr
    simp only [Option.some.injEq] at hr
    rw [← hr]
    refine AtUnity.congr ?_ (core_emit _ _ _ _ _ _)
    refine ⟨h1.ratio, h1.pitch, h1.inhop, h1.ahead, rfl, rfl, h1.resampler, h1.map, h1.level, ?_, h1.replays.next _ _, h1.formant⟩
    intro x hx
    rcases List.mem_append.mp hx with hx | hx
    · exact h1.log x hx
    · rw [List.mem_singleton.mp hx]
      exact ⟨rfl, h1.prevInhop, h1.prevOuthop, rfl, h1.ahead, h1.ratio, h1.pitch, h1.formant⟩

theorem loop_atUnity {p : Params} {env : Env α σ ρ} (hm : Unresampled p env) {final : Bool} : ∀ (fuel : Nat) (s s' : State α (σ × List (Entry α)) ρ), AtUnity F p env s →
    consumeLoop p (recording env) final (unityHop p) (unityHop p) fuel s = some s' → AtUnity F p env s' := by
  intro fuel
  induction fuel with
  | zero => intro s s' _ h; cases h
  | succ fuel ih =>
    intro s s' h hr
    unfold consumeLoop at hr
    split at hr
    · cases hr; exact h
    · obtain ⟨s1, h1, h2⟩ := Option.bind_eq_some_iff.mp hr
      exact ih s1 s' (round_atUnity hm h h1) h2

theorem consume_atUnity {p : Params} {env : Env α σ ρ} (hm : Unresampled p env) {final : Bool} {s s' : State α (σ × List (Entry α)) ρ} (h : AtUnity F p env s)
    (hr : consume p (recording env) final s = some s') : AtUnity F p env s' := by
  have he : calculated p (recording env) s = calculateSingle s.calculator ⟨1, 1 / 1, 1, unityHop p, p.longestFftSize, p.longestFftSize, true⟩ := by
    unfold calculated
    rw [h.ratio, h.inhop, h.pitch]
    cases hr : s.resampler with
    | none => rfl
    | some r =>
      rcases hm with hm | ⟨_, hm⟩
      · rw [h.resampler hm] at hr; cases hr
      · have e : (recording env).effective r (1 / 1) = 1 / 1 := by
          show env.effective r (1 / 1) = 1 / 1
          rw [div_one]; exact hm r
        simp only [e]
  unfold consume at hr
  rw [he] at hr
  simp only [h.inhop] at hr
  obtain ⟨l1, l2⟩ := level_next h.level (unityHop_pos p) p.longestFftSize p.longestFftSize
  rw [l2, if_neg (by have := unityHop_pos p; omega), Int.toNat_natCast] at hr
  refine loop_atUnity hm _ _ _ ?_ hr
  exact ⟨h.ratio, h.pitch, rfl, h.ahead, h.prevInhop, h.prevOuthop, h.resampler, h.map, l1, h.log, h.replays, h.formant⟩

theorem takeIn_core {p : Params} {env : Env α σ ρ} {final : Bool} {s : State α σ ρ} {rest : List (Frame α)} {r : State α σ ρ × Nat}
    (h : takeIn p env false final s rest = some r) : core r.1 = core s := by
  unfold takeIn at h
  split at h
  · rename_i hx; cases hx
  · obtain ⟨b, _, h⟩ := Option.bind_eq_some_iff.mp h
    cases h
    rfl

theorem processRound_atUnity {p : Params} {env : Env α σ ρ} (hm : Unresampled p env) {final : Bool} {s : State α (σ × List (Entry α)) ρ} (h : AtUnity F p env s) {rest : List (Frame α)}
    {r : State α (σ × List (Entry α)) ρ × List (Frame α)} (hr : processRound p (recording env) false final s rest = some r) : AtUnity F p env r.1 := by
  unfold processRound at hr
  obtain ⟨s1, h1, hr⟩ := Option.bind_eq_some_iff.mp hr
  obtain ⟨⟨s2, k⟩, h2, hr⟩ := Option.bind_eq_some_iff.mp hr
  obtain ⟨s3, h3, hr⟩ := Option.bind_eq_some_iff.mp hr
  cases hr
  have u1 : AtUnity F p env s1 := by
    unfold roomy at h1
    split at h1
    · exact consume_atUnity hm h h1
    · cases h1; exact h
  have u1' := u1.congr (core_ensureInbuf s1 rest.length)
  exact consume_atUnity hm (u1'.congr (takeIn_core h2)) h3

theorem processLoop_atUnity {p : Params} {env : Env α σ ρ} (hm : Unresampled p env) {final : Bool} : ∀ (fuel : Nat) (s : State α (σ × List (Entry α)) ρ) (rest : List (Frame α))
    (s' : State α (σ × List (Entry α)) ρ), AtUnity F p env s → processLoop p (recording env) false final fuel s rest = some s' → AtUnity F p env s' := by
  intro fuel
  induction fuel with
  | zero =>
    intro s rest s' h hr
    unfold processLoop at hr
    split at hr
    · cases hr; exact h
    · cases hr
  | succ fuel ih =>
    intro s rest s' h hr
    unfold processLoop at hr
    split at hr
    · cases hr; exact h
    · obtain ⟨⟨s1, rest1⟩, h1, h2⟩ := Option.bind_eq_some_iff.mp hr
      exact ih s1 rest1 s' (processRound_atUnity hm h h1) h2

theorem process_atUnity {p : Params} {env : Env α σ ρ} (hm : Unresampled p env) {s s' : State α (σ × List (Entry α)) ρ} (h : AtUnity F p env s) {input : List (Frame α)} {final : Bool}
    (hr : process p (recording env) s input final = some s') : AtUnity F p env s' := by
  unfold process at hr
  split at hr
  · cases hr; exact h
  · rw [Option.map_eq_some_iff] at hr
    obtain ⟨s1, h1, rfl⟩ := hr
    have hp : AtUnity F p env (prologue p (recording env) s) := by
      refine h.congr ?_
      unfold prologue
      split
      · rfl
      · unfold updateRatioFromMap
        simp only [h.map]
        unfold padStart
        split
        · simp only [h.pitch, ne_eq, not_true_eq_false, false_and, if_false]
          show core (ensureInbuf _ _) = _
          rw [core_ensureInbuf]
          simp only [core, h.pitch, h.map]
        · simp only [core, h.map]
    unfold processInput at h1
    have : AtUnity F p env s1 := by
      split at h1
      · split at h1
        · exact consume_atUnity hm hp h1
        · cases h1; exact hp
      · rw [(hp.still hm).1] at h1
        exact processLoop_atUnity hm _ _ _ _ hp h1
    exact this.congr rfl

/-- Calls that change neither ratio nor map and reset nothing. -/
def Call.plain : Call α → Prop
  | .setTimeRatio _ => False
  | .setPitchScale _ => False
  | .setKeyFrameMap _ => False
  | .reset => False
  | _ => True

omit [Zero α] [Add α] [Sub α] in
theorem create_atUnity (h0 : F (.fin 0)) (p : Params) (env : Env α σ ρ) : AtUnity F p env (create p (recording env) (.fin 1) (.fin 1)) := by
  have hf : fixRatios (.fin 1) (.fin 1) = (1, 1) := fixRatios_fin (by norm_num) (by norm_num)
  unfold create calculateHop
  rw [hf]
  simp only
  have e : inhopFor p (recording env).curve (1 * 1) = unityHop p := by rw [mul_one]; exact unityHop_eq p _
  have e' : (Round.roundAway ((unityHop p : Rat) * (1 * 1))).toNat = unityHop p := by
    rw [mul_one, mul_one, show ((unityHop p : Nat) : Rat) = (((unityHop p : Nat) : Int) : Rat) by push_cast; rfl, Round.roundAway_int, Int.toNat_natCast]
  rw [e]
  refine ⟨rfl, rfl, rfl, rfl, rfl, e', fun hrt => by simp [hrt], rfl, ⟨rfl, rfl, rfl, by norm_num⟩, ?_, ⟨rfl, ?_⟩, h0⟩
  · intro e he; cases he
  · intro k e he; cases he

theorem run_atUnity {p : Params} {env : Env α σ ρ} (hm : Unresampled p env) : ∀ (cs : List (Call α)) (s : State α (σ × List (Entry α)) ρ) (r : State α (σ × List (Entry α)) ρ × List (List (List α))),
    AtUnity F p env s → (∀ c ∈ cs, c.plain) → (∀ x, .setFormantScale x ∈ cs → F x) → run p (recording env) s cs = some r → AtUnity F p env r.1 := by
  intro cs
  induction cs with
  | nil => intro s r h _ _ hr; cases hr; exact h
  | cons c cs ih =>
    intro s r h hp hF hr
    obtain ⟨a, b, ha, hb, rfl⟩ := run_cons hr
    refine ih a.1 b ?_ (fun c hc => hp c (by simp [hc])) (fun x hx => hF x (by simp [hx])) hb
    have hc := hp c (by simp)
    cases c with
    | setTimeRatio _ => exact hc.elim
    | setPitchScale _ => exact hc.elim
    | setKeyFrameMap _ => exact hc.elim
    | reset => exact hc.elim
    | setFormantScale x =>
      cases ha
      unfold setFormantScale
      split
      · exact h
      · exact ⟨h.ratio, h.pitch, h.inhop, h.ahead, h.prevInhop, h.prevOuthop, h.resampler, h.map, h.level, h.log, h.replays, hF x (by simp)⟩
    | setExpectedInputDuration n => cases ha; exact h.congr rfl
    | setMaxProcessSize n =>
      cases ha
      refine h.congr ?_
      unfold setMaxProcessSize
      rw [core_ensureOutbuf, core_ensureInbuf]
    | study n =>
      cases ha
      refine h.congr ?_
      unfold study
      split
      · rfl
      · split <;> rfl
    | process x f =>
      simp only [call] at ha
      rw [Option.map_eq_some_iff] at ha
      obtain ⟨s1, h1, rfl⟩ := ha
      exact process_atUnity hm h h1
    | retrieve n => cases ha; exact h.congr rfl

end Verif.R3
