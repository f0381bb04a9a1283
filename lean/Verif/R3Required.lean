import Verif.R3OutStream
/-!
# How much input makes output available: C34
-/
namespace Verif.R3
open Verif.Round Verif.StretchCalc

variable {α σ ρ : Type}

section
variable [Zero α]

/-- In real time nothing is skipped and there is no target. -/
def Plain (s : State α σ ρ) : Prop := s.startSkip = 0 ∧ s.totalTargetDuration = 0

omit [Zero α] in
theorem Plain.congr {s s' : State α σ ρ} (h : Plain s) (h1 : s'.startSkip = s.startSkip) (h2 : s'.totalTargetDuration = s.totalTargetDuration) : Plain s' :=
  ⟨h1.trans h.1, h2.trans h.2⟩

theorem RoundFacts.plain {p : Params} {env : Env α σ ρ} {final : Bool} {inhop outhop : Nat} {s s' : State α σ ρ}
    (f : RoundFacts p env final inhop outhop s s') (h : Plain s) : Plain s' :=
  ⟨by rw [f.startSkip, h.1]; omega, f.kept.totalTargetDuration.trans h.2⟩

theorem consume_plain {p : Params} {env : Env α σ ρ} {final : Bool} {s s' : State α σ ρ} (h : consume p env final s = some s') (hp : Plain s) : Plain s' :=
  (consume_induct (fun t => Plain t) (fun _ _ ht _ f => f.plain ht) hp h).1

variable [Add α] [Sub α]

theorem processRound_plain {p : Params} {env : Env α σ ρ} {before final : Bool} {s : State α σ ρ} {rest : List (Frame α)}
    {r : State α σ ρ × List (Frame α)} (h : processRound p env before final s rest = some r) (hp : Plain s) : Plain r.1 := by
  obtain ⟨a, b, k, h1, h2, h3, h4⟩ := processRound_split h
  have ha : Plain a := by
    unfold roomy at h1
    split at h1
    · exact consume_plain h1 hp
    · cases h1; exact hp
  have eo := ensureInbuf_other a rest.length
  have ke := ensureInbuf_kept a rest.length
  have f := takeIn_facts h2
  exact consume_plain h3 (ha.congr (f.startSkip.trans eo.2.2.2.2.2.2.1) (f.kept.totalTargetDuration.trans ke.totalTargetDuration))

theorem call_plain {p : Params} (hrt : p.realTime = true) {env : Env α σ ρ} {s : State α σ ρ} (hp : Plain s) {c : Call α}
    {r : State α σ ρ × List (List α)} (h : call p env s c = some r) : Plain r.1 := by
  cases c with
  | setTimeRatio x =>
    cases h
    refine hp.congr ?_ ?_ <;>
    · show _ = _
      unfold setTimeRatio
      split
      · rfl
      · split <;> rfl
  | setPitchScale x =>
    cases h
    refine hp.congr ?_ ?_ <;>
    · show _ = _
      unfold setPitchScale
      split
      · rfl
      · split <;> rfl
  | setFormantScale x =>
    cases h
    refine hp.congr ?_ ?_ <;>
    · show _ = _
      unfold setFormantScale
      split <;> rfl
  | setKeyFrameMap x =>
    cases h
    refine hp.congr ?_ ?_ <;>
    · show _ = _
      unfold setKeyFrameMap
      rw [hrt]
      rfl
  | setExpectedInputDuration x => cases h; exact hp
  | setMaxProcessSize x =>
    cases h
    show Plain (setMaxProcessSize s x)
    unfold setMaxProcessSize
    simp only
    generalize (if x > overallMaxProcessSize then overallMaxProcessSize else x) = k
    have e1 := ensureInbuf_other s (k * 2)
    have e2 := ensureOutbuf_other (ensureInbuf s (k * 2)) (k * 8)
    have k1 := ensureInbuf_kept s (k * 2)
    have k2 := ensureOutbuf_kept (ensureInbuf s (k * 2)) (k * 8)
    exact hp.congr (e2.2.2.2.2.2.2.1.trans e1.2.2.2.2.2.2.1) (k1.trans k2).totalTargetDuration
  | study x =>
    cases h
    show Plain (study p s x)
    unfold study
    rw [hrt]
    exact hp
  | process x f =>
    unfold call at h
    rw [Option.map_eq_some_iff] at h
    obtain ⟨t, ht, rfl⟩ := h
    unfold process at ht
    split at ht
    · cases ht; exact hp
    · rw [Option.map_eq_some_iff] at ht
      obtain ⟨u, hu, rfl⟩ := ht
      have e : prologue p env s = s := by unfold prologue; rw [hrt]; rfl
      rw [e] at hu
      have : Plain u := by
        unfold processInput at hu
        split at hu
        · split at hu
          · exact consume_plain hu hp
          · cases hu; exact hp
        · exact processLoop_induct (fun t _ => Plain t) (fun t rest r ht _ hr => processRound_plain hr ht) _ _ _ _ hp hu
      exact this.congr rfl rfl
  | retrieve k => cases h; exact hp.congr rfl rfl
  | reset => cases h; exact ⟨rfl, rfl⟩

theorem run_plain {p : Params} (hrt : p.realTime = true) {env : Env α σ ρ} : ∀ (cs : List (Call α)) (s : State α σ ρ)
    (r : State α σ ρ × List (List (List α))), Plain s → run p env s cs = some r → Plain r.1 := by
  intro cs
  induction cs with
  | nil => intro s r hp h; cases h; exact hp
  | cons c cs ih =>
    intro s r hp h
    obtain ⟨a, b, h1, h2, rfl⟩ := run_cons h
    exact ih a.1 b (call_plain hrt hp h1) h2

/-! ## Rounds that give output -/

omit [Add α] [Sub α] in
/-- A round, when nothing is skipped, cut off or resampled, adds a hop to the output. -/
theorem RoundFacts.gives {p : Params} (hc : 0 < p.channels) {env : Env α σ ρ} {final : Bool} {inhop outhop : Nat}
    {s s' : State α σ ρ} (f : RoundFacts p env final inhop outhop s s') {icap ocap n m : Nat} (hb : Bufs p s icap ocap n m)
    (hna : resamplingAfter p s = false) (hp : Plain s) : ∃ ocap', Bufs p s' icap ocap' (n - inhop) (m + outhop) := by
  have hout : (outOf p env final s inhop outhop).2 = mixOf p env s inhop outhop := by
    unfold outOf resampleAfter
    split
    · rename_i hx; rw [hna] at hx; cases hx
    · rfl
  have hlen : (mixOf p env s inhop outhop).length = outhop := by simp [mixOf]
  obtain ⟨oc', m', _, hb'⟩ := f.bufs hc hb
  obtain ⟨oc, o1, o2, ob, _⟩ := ensureOutbuf_bufs hc hb outhop
  have hfo := f.outbuf
  rw [hout, hlen] at hfo
  have hwc : writeCountFor p s outhop = outhop := by
    unfold writeCountFor
    rw [hp.2, if_neg (by simp)]
  rw [hwc, List.take_of_length_le (by omega), hp.1, Nat.zero_sub, map_skip_zero] at hfo
  have hw := ob.outU.writeAll (mixOf p env s inhop outhop)
  rw [hlen, ← hfo] at hw
  have e := (hb'.outU.head hc).2.symm.trans (hw.head hc).2
  have : m' = m + outhop := by omega
  rw [this] at hb'
  exact ⟨oc', hb'⟩

omit [Add α] [Sub α] in
/-- With a window of input there will be output. -/
theorem consume_gives {p : Params} (hc : 0 < p.channels) {env : Env α σ ρ} {final : Bool} {s s' : State α σ ρ}
    (h : consume p env final s = some s') {icap ocap n m : Nat} (hb : Bufs p s icap ocap n m) (hna : resamplingAfter p s = false) (hp : Plain s)
    (hn : p.windowSourceSize ≤ n) : ∃ ocap' n' m', Bufs p s' icap ocap' n' m' ∧ 0 < m' := by
  obtain ⟨⟨oc, n', m', b, hor, _, _⟩, hst⟩ := consume_induct (fun t => ∃ ocap' n' m', Bufs p t icap ocap' n' m' ∧ (0 < m' ∨ p.windowSourceSize ≤ n') ∧
      resamplingAfter p t = false ∧ Plain t)
    (by
      rintro t t' ⟨oc, n', m', b, _, na, hp⟩ _ f
      obtain ⟨oc', b'⟩ := f.gives hc b na hp
      have := outhopOf_pos p env s
      exact ⟨oc', _, _, b', Or.inl (by omega), f.kept.after.trans na, f.plain hp⟩)
    ⟨ocap, n, m, hb.congr rfl rfl rfl, Or.inr hn, hna, hp⟩ h
  refine ⟨oc, n', m', b, ?_⟩
  rcases hor with h | h
  · exact h
  · unfold stops at hst
    rw [(in0_eq hc b.inU).2.1] at hst
    simp only [Bool.and_eq_true, decide_eq_true_eq] at hst
    omega

omit [Add α] [Sub α] in
/-- Without one, and with more to come, nothing happens. -/
theorem consume_waits {p : Params} (hc : 0 < p.channels) {env : Env α σ ρ} {s s' : State α σ ρ}
    (h : consume p env false s = some s') {icap ocap n m : Nat} (hb : Bufs p s icap ocap n m) (hn : n < p.windowSourceSize) : s'.outbuf = s.outbuf := by
  refine (consume_induct (fun t => t.outbuf = s.outbuf ∧ t.inbuf = s.inbuf) ?_ ⟨rfl, rfl⟩ h).1.1
  rintro t t' ⟨_, h2⟩ hs _
  refine absurd ?_ hs
  have e : in0 t = in0 s := by unfold in0; rw [h2]
  unfold stops
  rw [e, (in0_eq hc hb.inU).2.1]
  simp [hn]

/-- A round of `process` without resampling of the input: it is all written and then consumed. -/
theorem processInput_plain {p : Params} (hc : 0 < p.channels) {env : Env α σ ρ} {final : Bool} {s s' : State α σ ρ} {input : List (Frame α)}
    {icap ocap n m : Nat} (hb : Bufs p s icap ocap n m) (hn : n < p.windowSourceSize) (hpre : resamplingBefore p s = false)
    (hl : input.length ≠ 0) (hs : processInput p env s input final = some s') :
    ∃ b icap', Bufs p b icap' ocap (n + input.length) m ∧ Kept s b ∧ b.outbuf = s.outbuf ∧ b.startSkip = s.startSkip ∧ consume p env final b = some s' ∧
      b.resampler = s.resampler ∧ b.calculator = s.calculator := by
  unfold processInput at hs
  rw [if_neg hl, hpre] at hs
  obtain ⟨k, hk⟩ := Nat.exists_eq_succ_of_ne_zero hl
  rw [hk] at hs
  unfold processLoop at hs
  rw [if_neg hl] at hs
  cases hr : processRound p env false final s input with
  | none => rw [hr] at hs; cases hs
  | some r =>
    rw [hr] at hs
    obtain ⟨a, b, j, h1, h2, h3, h4⟩ := processRound_split hr
    have ha : a = s := by
      unfold roomy at h1
      have hcap := hb.inCap
      have hle := ringBufferSize_ge p
      have hw := windowSourceSize_pos p
      rw [if_neg (by rw [(in0_eq hc hb.inU).2.2]; omega)] at h1
      cases h1; rfl
    subst ha
    obtain ⟨ic', i1, i2, be, ke⟩ := ensureInbuf_bufs hc hb input.length
    have eo := ensureInbuf_other a input.length
    have hw := (in0_eq hc be.inU).2.2
    have htp := takeIn_plain (p := p) (env := env) (final := final) (s := ensureInbuf a input.length) (rest := input) (by rw [be.mix]; omega) (by rw [hw]; omega)
    rw [htp] at h2
    have hbk := Option.some.inj h2
    rw [Prod.mk.injEq] at hbk
    obtain ⟨hbe, rfl⟩ := hbk
    have f := takeIn_facts htp
    rw [hbe] at f
    have hin : b.inbuf = writeAll (ensureInbuf a input.length).inbuf (if p.useMidSide then input.map (encode env.halve) else input) := by rw [← hbe]
    have hlen : (if p.useMidSide then input.map (encode env.halve) else input).length = input.length := by split <;> simp
    have hU := be.inU.writeAll (if p.useMidSide then input.map (encode env.halve) else input)
    rw [hlen, ← hin, show n + min input.length (ic' - n) = n + input.length by omega] at hU
    have hr2 : r.2 = [] := by rw [h4, List.drop_length]
    have : processLoop p env false final k r.1 r.2 = some r.1 := by
      rw [hr2]
      cases k <;> rfl
    simp only [Option.bind_some] at hs
    rw [this] at hs
    cases hs
    have e : (final && decide (input.length ≥ input.length)) = final := by simp
    rw [e] at h3
    refine ⟨b, ic', ⟨hU, by rw [f.outbuf, eo.1]; exact hb.outU, by omega, hb.outLe, be.inCap, hb.outCap, by rw [f.mixdownSize]; exact be.mix⟩,
      ke.trans f.kept, f.outbuf.trans eo.1, f.startSkip.trans eo.2.2.2.2.2.2.1, h3, ?_, f.calculator.trans eo.2.2.1⟩
    rw [← hbe]; exact eo.2.2.2.1

/-! ## C34 -/

/-- **C34.**  In real time, before the end of the input and when nothing is resampled: if nothing is available, `getSamplesRequired` returns at least
1, and a block of that many frames, or more, makes output available. -/
theorem C34_enough {p : Params} (hc : 0 < p.channels) (hrt : p.realTime = true) (env : Env α σ ρ) (t ps : Dbl) (cs : List (Call α))
    {r : State α σ ρ × List (List (List α))} (h : run p env (create p env t ps) cs = some r) (hph : phase p.realTime cs ≠ .ended)
    (hb : resamplingBefore p r.1 = false) (ha : resamplingAfter p r.1 = false) (h0 : available r.1 = 0) :
    1 ≤ getSamplesRequired p r.1 ∧ ∀ (x : List (Frame α)) (f : Bool) (s' : State α σ ρ × List (List α)), getSamplesRequired p r.1 ≤ x.length →
      call p env r.1 (.process x f) = some s' → 0 < available s'.1 := by
  have hi := run_inv hc cs _ _ (create_inv p env t ps) h
  have hp := run_plain hrt cs _ _ ⟨rfl, rfl⟩ h
  have hmode : r.1.mode ≠ .finished := by
    rw [reached_mode h]
    revert hph
    cases phase p.realTime cs <;> simp [Phase.mode]
  obtain ⟨ic, oc, n, m, bb, hn, _, _⟩ := hi.bufs
  have hreq : getSamplesRequired p r.1 = p.windowSourceSize - n := by
    unfold getSamplesRequired
    rw [if_neg (by rw [h0]; simp), (in0_eq hc bb.inU).2.1, if_pos hn, hb]
    rfl
  rw [hreq]
  refine ⟨by omega, ?_⟩
  intro x f s' hx hs
  unfold call at hs
  rw [Option.map_eq_some_iff] at hs
  obtain ⟨u, hu, rfl⟩ := hs
  unfold process at hu
  rw [if_neg hmode, Option.map_eq_some_iff] at hu
  obtain ⟨v, hv, rfl⟩ := hu
  have e : prologue p env r.1 = r.1 := by unfold prologue; rw [hrt]; rfl
  rw [e] at hv
  have hbig : p.windowSourceSize ≤ overallMaxProcessSize := by
    obtain ⟨_, _, _, _, _, _, h7⟩ := sizes_eq p
    obtain ⟨_, _, _, _, _, hu⟩ := sizes p
    unfold overallMaxProcessSize
    rw [h7]
    split <;> omega
  have hl : (x.take overallMaxProcessSize).length ≠ 0 := by rw [List.length_take]; omega
  obtain ⟨b, ic', b1, kb, b2, b3, b4, _⟩ := processInput_plain hc bb hn hb hl hv
  obtain ⟨oc', n', m', c1, c2⟩ := consume_gives hc b4 b1 (kb.after.trans ha) (hp.congr b3 kb.totalTargetDuration) (by rw [List.length_take]; omega)
  show 0 < available { v with mode := if f then .finished else .processing }
  rw [available_eq hc (s := { v with mode := if f then .finished else .processing }) c1.outU]
  split
  · omega
  · omega

/-- **C34**, the other way: fewer frames, if more are to come, do not. -/
theorem C34_needed {p : Params} (hc : 0 < p.channels) (hrt : p.realTime = true) (env : Env α σ ρ) (t ps : Dbl) (cs : List (Call α))
    {r : State α σ ρ × List (List (List α))} (h : run p env (create p env t ps) cs = some r) (hph : phase p.realTime cs ≠ .ended)
    (hb : resamplingBefore p r.1 = false) (h0 : available r.1 = 0) :
    ∀ (x : List (Frame α)) (s' : State α σ ρ × List (List α)), x.length < getSamplesRequired p r.1 →
      call p env r.1 (.process x false) = some s' → available s'.1 = 0 := by
  have hi := run_inv hc cs _ _ (create_inv p env t ps) h
  have hmode : r.1.mode ≠ .finished := by
    rw [reached_mode h]
    revert hph
    cases phase p.realTime cs <;> simp [Phase.mode]
  obtain ⟨ic, oc, n, m, bb, hn, _, _⟩ := hi.bufs
  have hreq : getSamplesRequired p r.1 = p.windowSourceSize - n := by
    unfold getSamplesRequired
    rw [if_neg (by rw [h0]; simp), (in0_eq hc bb.inU).2.1, if_pos hn, hb]
    rfl
  rw [hreq]
  intro x s' hx hs
  unfold call at hs
  rw [Option.map_eq_some_iff] at hs
  obtain ⟨u, hu, rfl⟩ := hs
  unfold process at hu
  rw [if_neg hmode, Option.map_eq_some_iff] at hu
  obtain ⟨v, hv, rfl⟩ := hu
  have e : prologue p env r.1 = r.1 := by unfold prologue; rw [hrt]; rfl
  rw [e] at hv
  have hob : v.outbuf = r.1.outbuf := by
    by_cases hl : (x.take overallMaxProcessSize).length = 0
    · unfold processInput at hv
      rw [if_pos hl] at hv
      cases hv
      rfl
    · obtain ⟨b, ic', b1, kb, b2, b3, b4, _⟩ := processInput_plain hc bb hn hb hl hv
      rw [consume_waits hc b4 b1 (by rw [List.length_take]; omega), b2]
  have hm : m = 0 := by
    have := available_eq hc bb.outU
    rw [this] at h0
    split at h0
    · omega
    · omega
  subst hm
  show available _ = 0
  have : (out0 { v with mode := if false = true then .finished else .processing }).readSpace = 0 := by
    show (v.outbuf.headD ⟨0, []⟩).readSpace = 0
    rw [hob]
    exact (out0_eq hc bb.outU).2.1
  unfold available
  rw [this]
  simp

end

/-- In real time, 200 frames short after 888: the 200 make 80 available. -/
example : ((run (Ex.small true) Ex.env (create (Ex.small true) Ex.env (.fin 1) (.fin 1)) [.process (Ex.block 888) false]).bind fun r =>
    (call (Ex.small true) Ex.env r.1 (.process (Ex.block 200) false)).bind fun s => (call (Ex.small true) Ex.env r.1 (.process (Ex.block 199) false)).map fun s' =>
      (resamplingBefore (Ex.small true) r.1, resamplingAfter (Ex.small true) r.1, getSamplesRequired (Ex.small true) r.1, available s.1, available s'.1)) =
    some (false, false, 200, 80, 0) := by decide +kernel

end Verif.R3
