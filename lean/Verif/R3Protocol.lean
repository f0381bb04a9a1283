import Verif.R3Props
/-!
# The call protocol of the R3 engine: C26, C31
-/
namespace Verif.R3
open Verif.Round Verif.StretchCalc

variable {α σ ρ : Type}

/-! ## What has been called -/

/-- How far things have come since creation or the last reset, by the calls alone. -/
inductive Phase where
  | fresh | studied | running | ended
deriving DecidableEq

/-- The phase after a call.  In real time `study` does nothing; after the first `process` it is too late for it, and after a
final block it is too late for `process` as well. -/
def phaseAfter (realTime : Bool) (ph : Phase) : Call α → Phase
  | .reset => .fresh
  | .study _ => if realTime = false ∧ ph = .fresh then .studied else ph
  | .process _ final => if ph = .ended ∨ final = true then .ended else .running
  | _ => ph

/-- The phase after a history. -/
def phase (realTime : Bool) (cs : List (Call α)) : Phase := cs.foldl (phaseAfter realTime) .fresh

/-- The mode that stands for a phase. -/
def Phase.mode : Phase → Mode
  | .fresh => .justCreated
  | .studied => .studying
  | .running => .processing
  | .ended => .finished

section
variable [Zero α] [Add α] [Sub α]

theorem process_mode {p : Params} {env : Env α σ ρ} {s s' : State α σ ρ} {input : List (Frame α)} {final : Bool}
    (h : process p env s input final = some s') :
    s'.mode = if s.mode = .finished ∨ final = true then .finished else .processing := by
  unfold process at h
  split at h
  · rename_i hm
    cases h
    simp [hm]
  · rename_i hm
    rw [Option.map_eq_some_iff] at h
    obtain ⟨t, _, rfl⟩ := h
    cases final <;> simp [hm]

theorem call_mode {p : Params} {env : Env α σ ρ} {s : State α σ ρ} {ph : Phase} (hm : s.mode = ph.mode)
    {c : Call α} {r : State α σ ρ × List (List α)} (h : call p env s c = some r) : r.1.mode = (phaseAfter p.realTime ph c).mode := by
  cases c with
  | setTimeRatio x =>
    cases h
    show (setTimeRatio p env s x).mode = ph.mode
    unfold setTimeRatio
    split
    · exact hm
    · split <;> exact hm
  | setPitchScale x =>
    cases h
    show (setPitchScale p env s x).mode = ph.mode
    unfold setPitchScale
    split
    · exact hm
    · split <;> exact hm
  | setFormantScale x =>
    cases h
    show (setFormantScale p s x).mode = ph.mode
    unfold setFormantScale
    split <;> exact hm
  | setKeyFrameMap x =>
    cases h
    show (setKeyFrameMap p s x).mode = ph.mode
    unfold setKeyFrameMap
    split
    · exact hm
    · split <;> exact hm
  | setExpectedInputDuration x => cases h; exact hm
  | setMaxProcessSize x =>
    cases h
    show (setMaxProcessSize s x).mode = ph.mode
    unfold setMaxProcessSize
    exact ((ensureInbuf_kept _ _).trans (ensureOutbuf_kept _ _)).mode.trans hm
  | study x =>
    cases h
    show (study p s x).mode = _
    unfold study phaseAfter
    rcases p.realTime with _ | _ <;> cases ph <;> simp_all [Phase.mode]
  | process x f =>
    unfold call at h
    rw [Option.map_eq_some_iff] at h
    obtain ⟨t, ht, rfl⟩ := h
    show t.mode = _
    rw [process_mode ht, hm]
    unfold phaseAfter
    cases ph <;> cases f <;> simp [Phase.mode]
  | retrieve k => cases h; exact hm
  | reset => cases h; rfl

theorem run_mode {p : Params} {env : Env α σ ρ} : ∀ (cs : List (Call α)) (s : State α σ ρ) (ph : Phase)
    (r : State α σ ρ × List (List (List α))), s.mode = ph.mode → run p env s cs = some r → r.1.mode = (cs.foldl (phaseAfter p.realTime) ph).mode := by
  intro cs
  induction cs with
  | nil => intro s ph r hm h; cases h; exact hm
  | cons c cs ih =>
    intro s ph r hm h
    obtain ⟨a, b, ha, hb, rfl⟩ := run_cons h
    exact ih a.1 _ b (call_mode hm ha) hb

theorem reached_mode {p : Params} {env : Env α σ ρ} {t ps : Dbl} {cs : List (Call α)}
    {r : State α σ ρ × List (List (List α))} (h : run p env (create p env t ps) cs = some r) : r.1.mode = (phase p.realTime cs).mode :=
  run_mode cs _ .fresh r rfl h

/-! ## C26 -/

/-- **C26**, what is refused: offline the ratios and the formant scale, from the first `study` or `process` until the
final block; `study` and key-frame maps, in real time or from the first `process` on; `process`, after a final block. -/
theorem C26_refused {p : Params} (env : Env α σ ρ) (t ps : Dbl) (cs : List (Call α))
    {r : State α σ ρ × List (List (List α))} (h : run p env (create p env t ps) cs = some r) :
    (p.realTime = false → phase p.realTime cs = .studied ∨ phase p.realTime cs = .running → ∀ x : Dbl,
      call p env r.1 (.setTimeRatio x) = some (r.1, []) ∧ call p env r.1 (.setPitchScale x) = some (r.1, []) ∧
        call p env r.1 (.setFormantScale x) = some (r.1, [])) ∧
    (p.realTime = true ∨ phase p.realTime cs = .running ∨ phase p.realTime cs = .ended → ∀ n m,
      call p env r.1 (.study n) = some (r.1, []) ∧ call p env r.1 (.setKeyFrameMap m) = some (r.1, [])) ∧
    (phase p.realTime cs = .ended → ∀ x f, call p env r.1 (.process x f) = some (r.1, [])) := by
  have hm := reached_mode h
  refine ⟨?_, ?_, ?_⟩
  · intro hr hph x
    have hl : locked p r.1 = true := by
      unfold locked
      rw [hm, hr]
      rcases hph with e | e <;> · rw [hr] at e; rw [e]; rfl
    refine ⟨?_, ?_, ?_⟩ <;> simp [call, setTimeRatio, setPitchScale, setFormantScale, hl]
  · intro hph n m
    rcases hrt : p.realTime with _ | _
    · have hm' : r.1.mode = .processing ∨ r.1.mode = .finished := by
        rw [hm]
        rcases hph with e | e | e
        · rw [hrt] at e; cases e
        · left; rw [e]; rfl
        · right; rw [e]; rfl
      constructor <;> simp [call, study, setKeyFrameMap, hrt, hm']
    · constructor <;> simp [call, study, setKeyFrameMap, hrt]
  · intro hph x f
    have : r.1.mode = .finished := by rw [hm, hph]; rfl
    simp [call, process, this]

/-- **C26**, what is accepted: a new ratio is what it is set to, offline before anything else and after the final block, in real time
always; `study` before processing adds to the duration; a key-frame map before processing is what it is set to. -/
theorem C26_accepted {p : Params} (hc : 0 < p.channels) (env : Env α σ ρ) (t ps : Dbl) (cs : List (Call α))
    {r : State α σ ρ × List (List (List α))} (h : run p env (create p env t ps) cs = some r) :
    (p.realTime = true ∨ phase p.realTime cs = .fresh ∨ phase p.realTime cs = .ended → ∀ x : Rat, 0 < x →
      (setTimeRatio p env r.1 (.fin x)).timeRatio = x ∧ (setTimeRatio p env r.1 (.fin x)).pitchScale = r.1.pitchScale ∧
      (setPitchScale p env r.1 (.fin x)).pitchScale = x ∧ (setPitchScale p env r.1 (.fin x)).timeRatio = r.1.timeRatio) ∧
    (p.realTime = false → phase p.realTime cs = .fresh ∨ phase p.realTime cs = .studied → ∀ n m,
      (study p r.1 n).studyInputDuration = (if phase p.realTime cs = .fresh then 0 else r.1.studyInputDuration) + n ∧
      (setKeyFrameMap p r.1 m).keyFrameMap = m) := by
  have hm := reached_mode h
  have hi := (run_inv hc cs _ _ (create_inv p env t ps) h).hops
  constructor
  · intro hph x hx
    have hl : locked p r.1 = false := by
      unfold locked
      rcases hrt : p.realTime with _ | _
      · rw [hm]
        rcases hph with e | e | e
        · rw [hrt] at e; cases e
        · rw [e]; rfl
        · rw [e]; rfl
      · rfl
    refine ⟨?_, ?_, ?_, ?_⟩
    · unfold setTimeRatio
      rw [hl]
      simp only [Bool.false_eq_true, if_false]
      split
      · rename_i e
        simp only [Dbl.feq, decide_eq_true_eq, Dbl.fin.injEq] at e
        exact e.symm
      · unfold calculateHop; rw [fixRatios_fin hx hi.pspos]
    · unfold setTimeRatio
      rw [hl]
      simp only [Bool.false_eq_true, if_false]
      split
      · rfl
      · unfold calculateHop; rw [fixRatios_fin hx hi.pspos]
    · unfold setPitchScale
      rw [hl]
      simp only [Bool.false_eq_true, if_false]
      split
      · rename_i e
        simp only [Dbl.feq, decide_eq_true_eq, Dbl.fin.injEq] at e
        exact e.symm
      · unfold calculateHop; rw [fixRatios_fin hi.tpos hx]
    · unfold setPitchScale
      rw [hl]
      simp only [Bool.false_eq_true, if_false]
      split
      · rfl
      · unfold calculateHop; rw [fixRatios_fin hi.tpos hx]
  · intro hrt hph n m
    rw [hrt] at hph hm ⊢
    unfold study setKeyFrameMap
    rw [hrt]
    rcases hph with e | e <;> · rw [e] at hm ⊢; simp [hm, Phase.mode]

omit [Zero α] [Add α] [Sub α] in
/-- Output is available or the end has been reached. -/
theorem available_eq {p : Params} (hc : 0 < p.channels) {s : State α σ ρ} {cap m : Nat} (hu : Uniform p.channels s.outbuf cap m) :
    available s = if m = 0 ∧ s.mode = .finished then -1 else (m : Int) := by
  unfold available
  rw [(out0_eq hc hu).2.1]

/-- **C26**, the end: `available` gives -1 exactly when the final block has been processed and nothing is left to be
retrieved. -/
theorem C26_end {p : Params} (hc : 0 < p.channels) (env : Env α σ ρ) (t ps : Dbl) (cs : List (Call α))
    {r : State α σ ρ × List (List (List α))} (h : run p env (create p env t ps) cs = some r) :
    available r.1 = -1 ↔ phase p.realTime cs = .ended ∧ ∀ n, (retrieve p r.1 n).2.2 = 0 := by
  have hm := reached_mode h
  have hi := run_inv hc cs _ _ (create_inv p env t ps) h
  obtain ⟨ic, oc, k, m, hb, _, _, _⟩ := hi.bufs
  have ha := available_eq hc hb.outU
  have hmode : r.1.mode = .finished ↔ phase p.realTime cs = .ended := by
    rw [hm]
    cases phase p.realTime cs <;> simp [Phase.mode]
  have hret : (∀ n, (retrieve p r.1 n).2.2 = 0) ↔ m = 0 := by
    constructor
    · intro hn
      have h1 := (retrieve_facts hc hi m).1
      rw [hn m, ha] at h1
      split at h1
      · omega
      · simp only [Int.toNat_natCast] at h1; omega
    · intro h0 n
      rw [(retrieve_facts hc hi n).1, ha, h0]
      split <;> simp
  rw [hret, ← hmode, ha]
  split
  · rename_i hx; simp [hx]
  · rename_i hx
    constructor
    · intro e; omega
    · rintro ⟨e1, e2⟩; exact absurd ⟨e2, e1⟩ hx

theorem call_ended {p : Params} (hc : 0 < p.channels) {env : Env α σ ρ} {s : State α σ ρ} (hi : Inv p env s) (ha : available s = -1)
    {c : Call α} (hcr : c ≠ .reset) {r : State α σ ρ × List (List α)} (h : call p env s c = some r) :
    available r.1 = -1 ∧ ∀ l ∈ r.2, l = [] := by
  obtain ⟨ic, oc, n, m, hb, _, _, _⟩ := hi.bufs
  have hav := available_eq hc hb.outU
  have hm : m = 0 ∧ s.mode = .finished := by
    by_contra hx
    rw [if_neg hx] at hav
    omega
  obtain ⟨rfl, hmode⟩ := hm
  have key : ∀ s' : State α σ ρ, s'.outbuf = s.outbuf → s'.mode = s.mode → available s' = -1 := by
    intro s' e1 e2
    unfold available out0 at ha ⊢
    rw [e1, e2]; exact ha
  cases c with
  | setTimeRatio x =>
    cases h
    refine ⟨?_, by simp⟩
    show available (setTimeRatio p env s x) = -1
    unfold setTimeRatio
    split
    · exact ha
    · split
      · exact ha
      · exact key _ rfl rfl
  | setPitchScale x =>
    cases h
    refine ⟨?_, by simp⟩
    show available (setPitchScale p env s x) = -1
    unfold setPitchScale
    split
    · exact ha
    · split
      · exact ha
      · exact key _ rfl rfl
  | setFormantScale x =>
    cases h
    refine ⟨?_, by simp⟩
    show available (setFormantScale p s x) = -1
    unfold setFormantScale
    split
    · exact ha
    · exact key _ rfl rfl
  | setKeyFrameMap x =>
    cases h
    refine ⟨?_, by simp⟩
    show available (setKeyFrameMap p s x) = -1
    unfold setKeyFrameMap
    split
    · exact ha
    · split
      · exact ha
      · exact key _ rfl rfl
  | setExpectedInputDuration x => cases h; exact ⟨key _ rfl rfl, by simp⟩
  | setMaxProcessSize x =>
    cases h
    refine ⟨?_, by simp⟩
    show available (setMaxProcessSize s x) = -1
    unfold setMaxProcessSize
    simp only
    generalize (if x > overallMaxProcessSize then overallMaxProcessSize else x) = k
    obtain ⟨ic', _, _, b1, k1⟩ := ensureInbuf_bufs hc hb (k * 2)
    obtain ⟨oc', _, _, b2, k2⟩ := ensureOutbuf_bufs hc b1 (k * 8)
    rw [available_eq hc b2.outU, (k1.trans k2).mode, hmode]
    simp
  | study x =>
    cases h
    refine ⟨?_, by simp⟩
    show available (study p s x) = -1
    unfold study
    split
    · exact ha
    · rw [if_pos (Or.inr hmode)]; exact ha
  | process x f =>
    have e : process p env s x f = some s := by unfold process; rw [if_pos hmode]
    unfold call at h
    simp only [e, Option.map_some] at h
    cases h
    exact ⟨ha, by simp⟩
  | retrieve k =>
    cases h
    obtain ⟨f1, f2, f3, f4, _⟩ := retrieve_facts hc hi k
    constructor
    · show available (retrieve p s k).1 = -1
      rw [f4]
      have hu := hb.outU.skip k
      rw [available_eq (s := { s with outbuf := s.outbuf.map fun q => q.skip k }) hc hu]
      simp [hmode]
    · intro l hl
      have := f3 l hl
      rw [ha] at this
      apply List.length_eq_zero_iff.mp
      simpa using this
  | reset => exact absurd rfl hcr

/-- **C26**, for ever: once `available` gives -1 it does so after any further calls, and nothing more is delivered, until `reset`. -/
theorem C26_forever {p : Params} (hc : 0 < p.channels) (env : Env α σ ρ) (t ps : Dbl) (cs ds : List (Call α))
    {r r' : State α σ ρ × List (List (List α))} (h : run p env (create p env t ps) cs = some r) (ha : available r.1 = -1)
    (hds : Call.reset ∉ ds) (h' : run p env r.1 ds = some r') : available r'.1 = -1 ∧ ∀ o ∈ r'.2, ∀ l ∈ o, l = [] := by
  have hi := run_inv hc cs _ _ (create_inv p env t ps) h
  have main : ∀ (ds : List (Call α)) (s : State α σ ρ) (r' : State α σ ρ × List (List (List α))), Inv p env s → available s = -1 →
      Call.reset ∉ ds → run p env s ds = some r' → available r'.1 = -1 ∧ ∀ o ∈ r'.2, ∀ l ∈ o, l = [] := by
    intro ds
    induction ds with
    | nil => intro s r' _ ha _ h; cases h; exact ⟨ha, by simp⟩
    | cons c ds ih =>
      intro s r' hi ha hn h
      obtain ⟨a, b, hca, hcb, rfl⟩ := run_cons h
      obtain ⟨a1, a2⟩ := call_ended hc hi ha (fun e => hn (by rw [e]; simp)) hca
      obtain ⟨b1, b2⟩ := ih a.1 b (call_inv hc hi hca) a1 (fun e => hn (by simp [e])) hcb
      refine ⟨b1, ?_⟩
      intro o ho
      rcases List.mem_cons.mp ho with e | e
      · rw [e]; exact a2
      · exact b2 o e
  exact main ds r.1 r' hi ha hds h'

/-- A whole offline history: studied, processed, all of it retrieved, and more calls that are refused. -/
example : ((run (Ex.small false) Ex.env (create (Ex.small false) Ex.env (.fin 1) (.fin 1))
    [.study 300, .setTimeRatio (.fin 2), .process (Ex.block 300) true, .study 7, .retrieve 1000, .process (Ex.block 5) false, .retrieve 4]).map fun r =>
      (r.1.timeRatio, available r.1, r.1.studyInputDuration, r.2.map fun o => o.map List.length)) =
    some (1, -1, 300, [[], [], [], [], [300, 300], [], [0, 0]]) := by decide +kernel

end

/-! ## C31 -/

/-- **C31**, in full: processing does not change the pitch scale, whatever key-frame maps have been set. -/
def C31_statement : Prop :=
  ∀ (p : Params) (env : Env Rat Unit Unit) (t ps : Dbl) (cs : List (Call Rat)) (x : List (Frame Rat)) (f : Bool) (r : State Rat Unit Unit × List (List (List Rat)))
    (s' : State Rat Unit Unit), 0 < p.channels → run p env (create p env t ps) cs = some r → process p env r.1 x f = some s' →
      s'.pitchScale = r.1.pitchScale

/-- **C31 is violated**: with a map that begins at frame 0 the quotient of target and position is not a number, and
`calculateHop` then sets both ratios to 1. -/
theorem C31_violated : ¬ C31_statement := by
  intro h
  have key : ∃ r, run (Ex.small false) Ex.env (create (Ex.small false) Ex.env (.fin 1) (.fin 2)) [.setKeyFrameMap [(0, 0), (100, 150)], .study 200] = some r ∧
      ∃ s', process (Ex.small false) Ex.env r.1 [] false = some s' ∧ s'.pitchScale ≠ r.1.pitchScale := by
    refine ⟨_, rfl, _, rfl, ?_⟩
    decide +kernel
  obtain ⟨r, hr, s', hs, hne⟩ := key
  exact hne (h _ _ _ _ _ _ _ _ _ (by decide) hr hs)

/-- Maps that do not begin at frame 0. -/
def MapFine (m : List (Nat × Nat)) : Prop := ∀ e ∈ m.head?, e.1 ≠ 0

theorem fixRatios_keeps (t : Dbl) (ht : ∃ q : Rat, t = .fin q) {ps : Rat} (hps : 0 < ps) : (fixRatios t (.fin ps)).2 = ps := by
  obtain ⟨q, rfl⟩ := ht
  by_cases hq : 0 < q
  · rw [fixRatios_fin hq hps]
  · have e : fixRatios (.fin q) (.fin ps) = fixRatios (.fin 1) (.fin ps) := by
      unfold fixRatios
      have : (Dbl.fin q).nonPos = true := by simp [Dbl.nonPos]; linarith
      rw [this]
      rfl
    rw [e, fixRatios_fin (by norm_num) hps]

theorem quotient_fin {a b : Nat} (h : b ≠ 0) : ∃ q : Rat, Dbl.quotient a b = .fin q := by
  unfold Dbl.quotient
  rw [if_neg h]
  exact ⟨_, rfl⟩

theorem segmentRatio_fin (s : State α σ ρ) (i0 : Nat × Nat) : ∃ q : Rat, segmentRatio s i0 = .fin q := by
  unfold segmentRatio
  simp only
  split
  · exact quotient_fin (by omega)
  · exact ⟨1, rfl⟩

theorem updateRatioFromMap_keeps (p : Params) (env : Env α σ ρ) {s : State α σ ρ} (h : 0 < s.pitchScale) (hm : MapFine s.keyFrameMap) :
    (updateRatioFromMap p env s).pitchScale = s.pitchScale := by
  unfold updateRatioFromMap
  split
  · rfl
  · rename_i key target rest hk
    split
    · have : key ≠ 0 := hm (key, target) (by rw [hk]; rfl)
      exact fixRatios_keeps _ (quotient_fin this) h
    · split
      · rfl
      · split
        · exact fixRatios_keeps _ (segmentRatio_fin s _) h
        · rfl

variable [Zero α] [Add α] [Sub α]

theorem process_pitch {p : Params} (hc : 0 < p.channels) {env : Env α σ ρ} {s s' : State α σ ρ} {input : List (Frame α)} {final : Bool}
    (hi : Inv p env s) (hmap : MapFine s.keyFrameMap) (h : process p env s input final = some s') :
    s'.pitchScale = s.pitchScale ∧ s'.keyFrameMap = s.keyFrameMap := by
  unfold process at h
  split at h
  · cases h; exact ⟨rfl, rfl⟩
  · obtain ⟨ic, oc, n, m, hb, h1, h2, h3⟩ := hi.bufs
    obtain ⟨q1, ⟨ic', n', q2, q3⟩, _⟩ := prologue_facts hc hi.hops hb h1 (fun hm => (h2 hm).1)
    rw [Option.map_eq_some_iff] at h
    obtain ⟨t, ht, rfl⟩ := h
    obtain ⟨k, _⟩ := processInput_bufs hc ht q2 q3
    have hp : (prologue p env s).pitchScale = s.pitchScale ∧ (prologue p env s).keyFrameMap = s.keyFrameMap := by
      clear k ht q1 q2 q3
      unfold prologue
      split
      · exact ⟨rfl, rfl⟩
      · have up := updateRatioFromMap_keeps p env (s := { s with totalTargetDuration := targetFor s }) hi.hops.pspos hmap
        have uk : (updateRatioFromMap p env { s with totalTargetDuration := targetFor s }).keyFrameMap = s.keyFrameMap := by
          unfold updateRatioFromMap
          split
          · rfl
          · split
            · rfl
            · split
              · rfl
              · split <;> rfl
        generalize updateRatioFromMap p env { s with totalTargetDuration := targetFor s } = u at *
        unfold padStart
        split
        · have ke := ensureInbuf_kept { u with resampler := if u.pitchScale ≠ 1 ∧ u.resampler.isNone then some env.rsInit else u.resampler } (p.windowSourceSize / 2)
          exact ⟨ke.pitchScale.trans up, ke.keyFrameMap.trans uk⟩
        · exact ⟨up, uk⟩
    exact ⟨k.pitchScale.trans hp.1, k.keyFrameMap.trans hp.2⟩

/-- **C31, partial**: it holds if no map set begins at frame 0.  (Missing: maps that do, for which it fails.) -/
theorem C31_partial {p : Params} (hc : 0 < p.channels) (env : Env α σ ρ) (t ps : Dbl) (cs : List (Call α))
    {r : State α σ ρ × List (List (List α))} (h : run p env (create p env t ps) cs = some r)
    (hmaps : ∀ m, Call.setKeyFrameMap m ∈ cs → ∀ e ∈ m.head?, e.1 ≠ 0) {x : List (Frame α)} {f : Bool} {s' : State α σ ρ}
    (hs : process p env r.1 x f = some s') : s'.pitchScale = r.1.pitchScale := by
  have main : ∀ (cs : List (Call α)) (s : State α σ ρ) (r : State α σ ρ × List (List (List α))), Inv p env s → MapFine s.keyFrameMap →
      (∀ m, Call.setKeyFrameMap m ∈ cs → MapFine m) → run p env s cs = some r → MapFine r.1.keyFrameMap := by
    intro cs
    induction cs with
    | nil => intro s r _ hf _ h; cases h; exact hf
    | cons c cs ih =>
      intro s r hi hf hm h
      obtain ⟨a, b, ha, hb, rfl⟩ := run_cons h
      refine ih a.1 b (call_inv hc hi ha) ?_ (fun m hm' => hm m (by simp [hm'])) hb
      cases c with
      | setTimeRatio x =>
        cases ha
        show MapFine (setTimeRatio p env s x).keyFrameMap
        unfold setTimeRatio
        split
        · exact hf
        · split <;> exact hf
      | setPitchScale x =>
        cases ha
        show MapFine (setPitchScale p env s x).keyFrameMap
        unfold setPitchScale
        split
        · exact hf
        · split <;> exact hf
      | setFormantScale x =>
        cases ha
        show MapFine (setFormantScale p s x).keyFrameMap
        unfold setFormantScale
        split <;> exact hf
      | setKeyFrameMap x =>
        cases ha
        show MapFine (setKeyFrameMap p s x).keyFrameMap
        unfold setKeyFrameMap
        split
        · exact hf
        · split
          · exact hf
          · exact hm x (by simp)
      | setExpectedInputDuration x => cases ha; exact hf
      | setMaxProcessSize x =>
        cases ha
        show MapFine (setMaxProcessSize s x).keyFrameMap
        unfold setMaxProcessSize
        rw [((ensureInbuf_kept _ _).trans (ensureOutbuf_kept _ _)).keyFrameMap]
        exact hf
      | study x =>
        cases ha
        show MapFine (study p s x).keyFrameMap
        unfold study
        split
        · exact hf
        · split <;> exact hf
      | process x f =>
        unfold call at ha
        rw [Option.map_eq_some_iff] at ha
        obtain ⟨t, ht, rfl⟩ := ha
        show MapFine t.keyFrameMap
        rw [(process_pitch hc hi hf ht).2]
        exact hf
      | retrieve k => cases ha; exact hf
      | reset => cases ha; intro e he; cases he
  have hf := main cs _ r (create_inv p env t ps) (by intro e he; cases he) hmaps h
  exact (process_pitch hc (run_inv hc cs _ _ (create_inv p env t ps) h) hf hs).1

/-- A map that begins later: the time ratio follows it, the pitch scale does not. -/
example : ((run (Ex.small false) Ex.env (create (Ex.small false) Ex.env (.fin 1) (.fin 2))
    [.setKeyFrameMap [(50, 75), (100, 100)], .study 200, .process [] false]).map fun r => (r.1.timeRatio, r.1.pitchScale)) = some (3 / 2, 2) := by decide +kernel

end Verif.R3
