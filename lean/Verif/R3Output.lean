import Verif.R3Observer
/-!
# How much the R3 engine delivers: C29
-/
namespace Verif.R3
open Verif.Round Verif.StretchCalc

variable {α σ ρ : Type}

/-! ## What the calls say -/

/-- The duration that has been studied since creation or the last reset, by the calls alone. -/
def studiedAfter (realTime : Bool) (st : Phase × Nat) (c : Call α) : Phase × Nat :=
  (phaseAfter realTime st.1 c,
    match c with
    | .reset => 0
    | .study n => if realTime = false ∧ (st.1 = .fresh ∨ st.1 = .studied) then st.2 + n else st.2
    | _ => st.2)

def studied (realTime : Bool) (cs : List (Call α)) : Nat := (cs.foldl (studiedAfter realTime) (.fresh, 0)).2

/-- The last duration announced since creation or the last reset. -/
def expected (cs : List (Call α)) : Nat := cs.foldl (fun n c => match c with
  | .reset => 0
  | .setExpectedInputDuration k => k
  | _ => n) 0

/-- The duration known before the first block. -/
def knownDuration (realTime : Bool) (cs : List (Call α)) : Nat :=
  if phase realTime cs = .studied then studied realTime cs else expected cs

/-- What a channel gets. -/
def channelOut (os : List (List (List α))) (c : Nat) : List α := (os.map fun o => (o[c]?).getD []).flatten

/-- No reset. -/
def noReset (cs : List (Call α)) : Prop := ∀ c ∈ cs, match c with
  | .reset => False
  | _ => True

/-! ## Durations in the state -/

theorem resampleAfter_le (p : Params) (env : Env α σ ρ) (s : State α σ ρ) (final : Bool) (a b c d : Nat) (mix : List (Frame α)) :
    writeCountFor p s (resampleAfter p env s final a b c d mix).2.length ≤ (resampleAfter p env s final a b c d mix).2.length := by
  unfold writeCountFor
  split
  · rename_i h
    simp only [Bool.and_eq_true, Bool.not_eq_true', decide_eq_true_eq] at h
    omega
  · exact le_refl _

/-- Everything delivered and waiting is within the total, and the total within the target. -/
structure Account (s : State α σ ρ) (m gone : Nat) : Prop where
  skipping : 0 < s.startSkip → m = 0 ∧ gone = 0 ∧ s.totalOutputDuration = 0
  within : gone + m ≤ s.totalOutputDuration
  capped : 0 < s.totalTargetDuration → s.totalOutputDuration ≤ s.totalTargetDuration

theorem Account.congr {s s' : State α σ ρ} {m gone : Nat} (h : Account s m gone) (h1 : s'.startSkip = s.startSkip)
    (h2 : s'.totalOutputDuration = s.totalOutputDuration) (h3 : s'.totalTargetDuration = s.totalTargetDuration) : Account s' m gone :=
  ⟨by rw [h1, h2]; exact h.skipping, by rw [h2]; exact h.within, by rw [h2, h3]; exact h.capped⟩

section
variable [Zero α]

theorem RoundFacts.account {p : Params} (hc : 0 < p.channels) (hrt : p.realTime = false) {env : Env α σ ρ} {final : Bool} {inhop outhop : Nat}
    {s s' : State α σ ρ} (f : RoundFacts p env final inhop outhop s s') {icap ocap n m gone : Nat} (h : Bufs p s icap ocap n m)
    (ha : Account s m gone) : ∃ ocap' m', Bufs p s' icap ocap' (n - inhop) m' ∧ Account s' m' gone := by
  obtain ⟨oc', m', _, hb'⟩ := f.bufs hc h
  refine ⟨oc', m', hb', ?_⟩
  obtain ⟨oc, o1, o2, ob, _⟩ := ensureOutbuf_bufs hc h outhop
  have hw := ob.outU.writeAll ((outOf p env final s inhop outhop).2.take
    (writeCountFor p s (outOf p env final s inhop outhop).2.length))
  have hm1 := (hw.head hc).2
  have hu := hw.skip (s.startSkip - s'.startSkip)
  rw [← f.outbuf] at hu
  have hm' := (hb'.outU.head hc).2.symm.trans (hu.head hc).2
  have hsk := f.startSkip
  have htot := f.total
  have hle := resampleAfter_le p env s final inhop outhop (in0 s).readSpace (fillAfter p s.accumulatorFill outhop ((in0 s).readSpace == 0)) (mixOf p env s inhop outhop)
  have hT := f.kept.totalTargetDuration
  have hwc : 0 < s.totalTargetDuration → s.totalOutputDuration ≤ s.totalTargetDuration →
      s.totalOutputDuration + writeCountFor p s (outOf p env final s inhop outhop).2.length ≤ s.totalTargetDuration := by
    intro h1 h2
    unfold writeCountFor
    rw [hrt]
    simp only [Bool.not_false, Bool.true_and, Bool.and_eq_true, decide_eq_true_eq]
    split <;> omega
  change writeCountFor p s (outOf p env final s inhop outhop).2.length ≤ (outOf p env final s inhop outhop).2.length at hle
  simp only [Fifo.readSpace] at hsk htot
  rw [hm1] at hsk htot
  simp only [List.length_take] at hm' hsk htot
  generalize writeCountFor p s (outOf p env final s inhop outhop).2.length = wc at *
  generalize (outOf p env final s inhop outhop).2.length = w at *
  obtain ⟨a1, a2, a3⟩ := ha
  by_cases hk : 0 < s.startSkip
  · obtain ⟨b1, b2, b3⟩ := a1 hk
    rw [if_pos hk] at htot
    refine ⟨?_, ?_, ?_⟩
    · intro hk'; omega
    · omega
    · intro hx; rw [hT] at hx ⊢; have := hwc hx (a3 hx); omega
  · rw [if_neg hk] at htot
    refine ⟨?_, ?_, ?_⟩
    · intro hk'; omega
    · omega
    · intro hx; rw [hT] at hx ⊢; have := hwc hx (a3 hx); omega

/-- The account in a state. -/
def Accounted (p : Params) (s : State α σ ρ) (gone : Nat) : Prop := ∃ icap ocap n m, Bufs p s icap ocap n m ∧ Account s m gone

theorem consume_account {p : Params} (hc : 0 < p.channels) (hrt : p.realTime = false) {env : Env α σ ρ} {final : Bool} {s s' : State α σ ρ} {gone : Nat}
    (h : consume p env final s = some s') (hb : Accounted p s gone) : Accounted p s' gone := by
  obtain ⟨ic, oc, n, m, hb, ha⟩ := hb
  refine (consume_induct (fun t => Accounted p t gone) ?_ ⟨ic, oc, n, m, hb.congr rfl rfl rfl, ha.congr rfl rfl rfl⟩ h).1
  rintro t t' ⟨ic, oc, n, m, hb, ha⟩ _ f
  obtain ⟨oc', m', hb', ha'⟩ := f.account hc hrt hb ha
  exact ⟨_, _, _, _, hb', ha'⟩

variable [Add α] [Sub α]

theorem processRound_account {p : Params} (hc : 0 < p.channels) (hrt : p.realTime = false) {env : Env α σ ρ} {before final : Bool} {s : State α σ ρ} {rest : List (Frame α)}
    {r : State α σ ρ × List (Frame α)} {gone : Nat} (h : processRound p env before final s rest = some r) (hb : Accounted p s gone) : Accounted p r.1 gone := by
  obtain ⟨a, b, k, h1, h2, h3, h4⟩ := processRound_split h
  have ha : Accounted p a gone := by
    unfold roomy at h1
    split at h1
    · exact consume_account hc hrt h1 hb
    · cases h1; exact hb
  obtain ⟨ic, oc, n, m, ba, aa⟩ := ha
  obtain ⟨ic', i1, i2, be, ke⟩ := ensureInbuf_bufs hc ba rest.length
  have eo := ensureInbuf_other a rest.length
  have f := takeIn_facts h2
  obtain ⟨n2, bb⟩ := f.bufs be
  refine consume_account hc hrt h3 ⟨_, _, _, _, bb, aa.congr ?_ ?_ ?_⟩
  · exact f.startSkip.trans eo.2.2.2.2.2.2.1
  · exact f.total.trans eo.2.2.2.2.2.2.2.2.1
  · exact f.kept.totalTargetDuration.trans ke.totalTargetDuration

theorem processInput_account {p : Params} (hc : 0 < p.channels) (hrt : p.realTime = false) {env : Env α σ ρ} {final : Bool} {s s' : State α σ ρ} {input : List (Frame α)}
    {gone : Nat} (h : processInput p env s input final = some s') (hb : Accounted p s gone) : Accounted p s' gone := by
  unfold processInput at h
  split at h
  · split at h
    · exact consume_account hc hrt h hb
    · cases h; exact hb
  · exact processLoop_induct (fun t _ => Accounted p t gone) (fun _ _ _ ht _ hr => processRound_account hc hrt hr ht) _ _ _ _ hb h

/-! ## Histories -/

omit [Add α] [Sub α] in
theorem prologue_account {p : Params} (hc : 0 < p.channels) {env : Env α σ ρ} {s : State α σ ρ} {gone : Nat} (hi : Inv p env s)
    (h0 : s.mode = .justCreated ∨ s.mode = .studying → gone = 0)
    (h1 : s.mode = .processing → Accounted p s gone) (hm : s.mode ≠ .finished) : Accounted p (prologue p env s) gone ∧
      (p.realTime = false → (prologue p env s).totalTargetDuration = targetFor s) := by
  obtain ⟨ic, oc, n, m, hb, b1, b2, b3⟩ := hi.bufs
  obtain ⟨q1, ⟨ic', n', q2, q3⟩, q4, q5, q6⟩ := prologue_facts hc hi.hops hb b1 (fun hm => (b2 hm).1)
  have hrest : (p.realTime = false → (prologue p env s).totalTargetDuration = targetFor s) ∧
      (prologue p env s).totalOutputDuration = s.totalOutputDuration ∧ (s.mode = .processing → (prologue p env s).startSkip = s.startSkip) ∧
      (p.realTime = true → prologue p env s = s) := by
    unfold prologue
    split
    · rename_i hrt
      exact ⟨fun h => (by rw [hrt] at h; cases h), rfl, fun _ => rfl, fun _ => rfl⟩
    · rename_i hrt
      obtain ⟨u1, u2, u3, u4, u5, u6, u7, u8, u9, _⟩ := updateRatioFromMap_facts p env (s := { s with totalTargetDuration := targetFor s }) (hi.hops.congr rfl rfl rfl rfl)
      obtain ⟨_, _, _, _, _, v6, v7, _⟩ := padStart_facts hc u1 (hb.congr u2 u3 u4) b1 (by rw [u5]; exact fun hm => (b2 hm).1)
      refine ⟨fun _ => v6.trans u7, v7.trans u8, ?_, fun h => absurd h hrt⟩
      intro hp
      unfold padStart
      rw [u5, if_neg (by rw [hp]; simp)]
      exact u9
  obtain ⟨r1, r2, r3, r4⟩ := hrest
  refine ⟨?_, r1⟩
  cases hmode : s.mode with
  | finished => exact absurd hmode hm
  | processing =>
    obtain ⟨ic2, oc2, n2, m2, hb2, ha⟩ := h1 hmode
    have hm2 : m2 = m := (hb2.outU.head hc).2.symm.trans (hb.outU.head hc).2
    subst hm2
    refine ⟨_, _, _, _, q2, ha.congr (r3 hmode) r2 ?_⟩
    cases hrt : p.realTime with
    | true => rw [r4 hrt]
    | false => rw [r1 hrt]; unfold targetFor; simp [hmode]
  | justCreated =>
    have hid := hi.idle (Or.inl hmode)
    have hm0 := (b2 (Or.inl hmode)).2
    have hg := h0 (Or.inl hmode)
    subst hm0 hg
    refine ⟨_, _, _, _, q2, ⟨fun _ => ⟨rfl, rfl, r2.trans hid.total⟩, by omega, fun _ => by rw [r2, hid.total]; omega⟩⟩
  | studying =>
    have hid := hi.idle (Or.inr hmode)
    have hm0 := (b2 (Or.inr hmode)).2
    have hg := h0 (Or.inr hmode)
    subst hm0 hg
    refine ⟨_, _, _, _, q2, ⟨fun _ => ⟨rfl, rfl, r2.trans hid.total⟩, by omega, fun _ => by rw [r2, hid.total]; omega⟩⟩

theorem process_account {p : Params} (hc : 0 < p.channels) (hrt : p.realTime = false) {env : Env α σ ρ} {s s' : State α σ ρ} {input : List (Frame α)} {final : Bool}
    {gone : Nat} (hi : Inv p env s) (h0 : s.mode = .justCreated ∨ s.mode = .studying → gone = 0)
    (h1 : s.mode = .processing ∨ s.mode = .finished → Accounted p s gone) (h : process p env s input final = some s') :
    Accounted p s' gone ∧ s'.totalTargetDuration = if s.mode = .finished then s.totalTargetDuration else targetFor s := by
  unfold process at h
  split at h
  · rename_i hm
    cases h
    exact ⟨h1 (Or.inr hm), by rw [if_pos hm]⟩
  · rename_i hm
    obtain ⟨a1, a2⟩ := prologue_account hc hi h0 (fun hp => h1 (Or.inl hp)) hm
    rw [Option.map_eq_some_iff] at h
    obtain ⟨t, ht, rfl⟩ := h
    obtain ⟨ic, oc, n, m, hb, b1, b2, b3⟩ := hi.bufs
    obtain ⟨q1, ⟨ic', n', q2, q3⟩, q4, q5, q6⟩ := prologue_facts hc hi.hops hb b1 (fun hm => (b2 hm).1)
    obtain ⟨k, _⟩ := processInput_bufs hc ht q2 q3
    obtain ⟨x1, x2, x3, x4, x5, x6⟩ := processInput_account hc hrt ht a1
    refine ⟨⟨x1, x2, x3, x4, x5.congr rfl rfl rfl, x6.congr rfl rfl rfl⟩, ?_⟩
    rw [if_neg hm]
    exact k.totalTargetDuration.trans (a2 hrt)

omit [Zero α] [Add α] [Sub α] in
theorem Accounted.congr {p : Params} {s s' : State α σ ρ} {gone : Nat} (h : Accounted p s gone)
    (e1 : s'.inbuf = s.inbuf) (e2 : s'.outbuf = s.outbuf) (e3 : s'.mixdownSize = s.mixdownSize) (h1 : s'.startSkip = s.startSkip)
    (h2 : s'.totalOutputDuration = s.totalOutputDuration) (h3 : s'.totalTargetDuration = s.totalTargetDuration) : Accounted p s' gone := by
  obtain ⟨ic, oc, n, m, hb, ha⟩ := h
  exact ⟨ic, oc, n, m, hb.congr e1 e2 e3, ha.congr h1 h2 h3⟩

/-- Once processing, a call that is not a reset keeps the account, and the target. -/
theorem call_account {p : Params} (hc : 0 < p.channels) (hrt : p.realTime = false) {env : Env α σ ρ} {s : State α σ ρ} (hi : Inv p env s) {gone : Nat}
    (hm : s.mode = .processing ∨ s.mode = .finished) (ha : Accounted p s gone) {c : Call α} (hne : c ≠ .reset) {r : State α σ ρ × List (List α)}
    (h : call p env s c = some r) (ch : Nat) (hch : ch < p.channels) :
    Accounted p r.1 (gone + ((r.2[ch]?).getD []).length) ∧ r.1.totalTargetDuration = s.totalTargetDuration := by
  cases c with
  | setTimeRatio x =>
    cases h
    refine ⟨ha.congr ?_ ?_ ?_ ?_ ?_ ?_, ?_⟩ <;>
    · show _ = _
      unfold setTimeRatio
      split
      · rfl
      · split <;> rfl
  | setPitchScale x =>
    cases h
    refine ⟨ha.congr ?_ ?_ ?_ ?_ ?_ ?_, ?_⟩ <;>
    · show _ = _
      unfold setPitchScale
      split
      · rfl
      · split <;> rfl
  | setFormantScale x =>
    cases h
    refine ⟨ha.congr ?_ ?_ ?_ ?_ ?_ ?_, ?_⟩ <;>
    · show _ = _
      unfold setFormantScale
      split <;> rfl
  | setKeyFrameMap x =>
    cases h
    refine ⟨ha.congr ?_ ?_ ?_ ?_ ?_ ?_, ?_⟩ <;>
    · show _ = _
      unfold setKeyFrameMap
      split <;> rfl
  | setExpectedInputDuration x => cases h; exact ⟨ha.congr rfl rfl rfl rfl rfl rfl, rfl⟩
  | setMaxProcessSize x =>
    cases h
    show Accounted p (setMaxProcessSize s x) _ ∧ (setMaxProcessSize s x).totalTargetDuration = _
    unfold setMaxProcessSize
    simp only
    generalize (if x > overallMaxProcessSize then overallMaxProcessSize else x) = k
    obtain ⟨ic, oc, n, m, hb, aa⟩ := ha
    obtain ⟨ic', _, _, b1, k1⟩ := ensureInbuf_bufs hc hb (k * 2)
    obtain ⟨oc', _, _, b2, k2⟩ := ensureOutbuf_bufs hc b1 (k * 8)
    have e1 := ensureInbuf_other s (k * 2)
    have e2 := ensureOutbuf_other (ensureInbuf s (k * 2)) (k * 8)
    refine ⟨⟨_, _, _, _, b2, aa.congr ?_ ?_ (k1.trans k2).totalTargetDuration⟩, (k1.trans k2).totalTargetDuration⟩
    · exact e2.2.2.2.2.2.2.1.trans e1.2.2.2.2.2.2.1
    · exact e2.2.2.2.2.2.2.2.2.1.trans e1.2.2.2.2.2.2.2.2.1
  | study x =>
    cases h
    have e : study p s x = s := by
      unfold study
      rw [hrt]
      simp [hm]
    show Accounted p (study p s x) _ ∧ (study p s x).totalTargetDuration = _
    rw [e]
    exact ⟨ha, rfl⟩
  | process x f =>
    unfold call at h
    rw [Option.map_eq_some_iff] at h
    obtain ⟨t, ht, rfl⟩ := h
    obtain ⟨a, b⟩ := process_account hc hrt hi (gone := gone) (by intro h'; rcases h' with h' | h' <;> rw [h'] at hm <;> simp at hm) (fun _ => ha) ht
    refine ⟨a, b.trans ?_⟩
    split
    · rfl
    · rename_i hx
      have hp : s.mode = .processing := hm.resolve_right hx
      unfold targetFor
      simp [hp]
  | retrieve k =>
    cases h
    obtain ⟨f1, f2, f3, f4, _⟩ := retrieve_facts hc hi k
    obtain ⟨ic, oc, n, m, hb, aa⟩ := ha
    have hav : (available s).toNat = m := by
      rw [available_eq hc hb.outU]
      split
      · omega
      · simp
    simp only
    have hl : (((retrieve p s k).2.1[ch]?).getD []).length = min k m := by
      rw [List.getElem?_eq_getElem (by rw [f2]; exact hch), Option.getD_some, f3 _ (List.getElem_mem _), hav]
    rw [hl, f4]
    have := hb.outLe
    refine ⟨⟨ic, oc, n, m - k, ⟨hb.inU, hb.outU.skip k, hb.inLe, by omega, hb.inCap, hb.outCap, hb.mix⟩, ?_, ?_, aa.capped⟩, rfl⟩
    · intro hx; have := aa.skipping hx; exact ⟨by omega, by omega, this.2.2⟩
    · have := aa.within; show gone + min k m + (m - k) ≤ s.totalOutputDuration; omega
  | reset => exact absurd rfl hne

omit [Zero α] [Add α] [Sub α] in
theorem running_on {rt : Bool} {ph : Phase} (h : ph = .running ∨ ph = .ended) {c : Call α} (hne : c ≠ .reset) :
    phaseAfter rt ph c = .running ∨ phaseAfter rt ph c = .ended := by
  cases c with
  | process x f => unfold phaseAfter; cases f <;> rcases h with h | h <;> simp [h]
  | study x => unfold phaseAfter; rcases h with h | h <;> simp [h]
  | reset => exact absurd rfl hne
  | _ => exact h

theorem run_account {p : Params} (hc : 0 < p.channels) (hrt : p.realTime = false) {env : Env α σ ρ} (ch : Nat) (hch : ch < p.channels) :
    ∀ (cs : List (Call α)) (s : State α σ ρ) (r : State α σ ρ × List (List (List α))) (gone : Nat), Inv p env s →
      s.mode = .processing ∨ s.mode = .finished → Accounted p s gone → noReset cs → run p env s cs = some r →
      Accounted p r.1 (gone + (channelOut r.2 ch).length) ∧ r.1.totalTargetDuration = s.totalTargetDuration := by
  intro cs
  induction cs with
  | nil => intro s r gone _ _ ha _ h; cases h; exact ⟨ha, rfl⟩
  | cons c cs ih =>
    intro s r gone hi hm ha hn h
    obtain ⟨a, b, h1, h2, rfl⟩ := run_cons h
    have hne : c ≠ .reset := by
      intro e
      have := hn c (by simp)
      rw [e] at this
      exact this
    obtain ⟨x1, x2⟩ := call_account hc hrt hi hm ha hne h1 ch hch
    have hm' : a.1.mode = .processing ∨ a.1.mode = .finished := by
      obtain ⟨ph, e, hph⟩ : ∃ ph : Phase, s.mode = ph.mode ∧ (ph = .running ∨ ph = .ended) := by
        rcases hm with hm | hm
        · exact ⟨.running, hm, Or.inl rfl⟩
        · exact ⟨.ended, hm, Or.inr rfl⟩
      rw [call_mode e h1]
      rcases running_on (rt := p.realTime) hph hne with e | e <;> rw [e]
      · exact Or.inl rfl
      · exact Or.inr rfl
    obtain ⟨y1, y2⟩ := ih a.1 b _ (call_inv hc hi h1) hm' x1 (fun d hd => hn d (by simp [hd])) h2
    refine ⟨?_, y2.trans x2⟩
    have : gone + (channelOut (a.2 :: b.2) ch).length = gone + ((a.2[ch]?).getD []).length + (channelOut b.2 ch).length := by
      unfold channelOut
      rw [List.map_cons, List.flatten_cons, List.length_append, Nat.add_assoc]
    rw [this]
    exact y1

/-! ## The durations announced -/

/-- The durations in the state are those the calls have announced. -/
structure Announced (rt : Bool) (s : State α σ ρ) (st : Phase × Nat) (ex : Nat) : Prop where
  mode : s.mode = st.1.mode
  fresh : st.1 = .fresh → st.2 = 0
  studied : st.1 = .studied → s.studyInputDuration = st.2
  expected : s.suppliedInputDuration = ex

/-- `expected` for one more call. -/
def expectedAfter (n : Nat) : Call α → Nat
  | .reset => 0
  | .setExpectedInputDuration k => k
  | _ => n

omit [Zero α] [Add α] [Sub α] in
theorem expected_eq (cs : List (Call α)) : expected cs = cs.foldl expectedAfter 0 := by
  unfold expected
  congr 1

theorem call_announced {p : Params} (hc : 0 < p.channels) {env : Env α σ ρ} {s : State α σ ρ} (hi : Inv p env s) {st : Phase × Nat} {ex : Nat}
    (ha : Announced p.realTime s st ex) {c : Call α} {r : State α σ ρ × List (List α)} (h : call p env s c = some r) :
    Announced p.realTime r.1 (studiedAfter p.realTime st c) (expectedAfter ex c) := by
  have hmode := call_mode ha.mode h
  have same : ∀ s' : State α σ ρ, s'.mode = st.1.mode → s'.studyInputDuration = s.studyInputDuration →
      s'.suppliedInputDuration = s.suppliedInputDuration → Announced p.realTime s' st ex := by
    intro s' h1 h2 h3
    exact ⟨h1, ha.fresh, fun h => h2.trans (ha.studied h), h3.trans ha.expected⟩
  cases c with
  | setTimeRatio x =>
    cases h
    refine same _ hmode ?_ ?_ <;>
    · simp only
      unfold setTimeRatio
      split
      · rfl
      · split <;> rfl
  | setPitchScale x =>
    cases h
    refine same _ hmode ?_ ?_ <;>
    · simp only
      unfold setPitchScale
      split
      · rfl
      · split <;> rfl
  | setFormantScale x =>
    cases h
    refine same _ hmode ?_ ?_ <;>
    · simp only
      unfold setFormantScale
      split <;> rfl
  | setKeyFrameMap x =>
    cases h
    refine same _ hmode ?_ ?_ <;>
    · simp only
      unfold setKeyFrameMap
      split
      · rfl
      · split <;> rfl
  | setExpectedInputDuration x =>
    cases h
    exact ⟨ha.mode, ha.fresh, ha.studied, rfl⟩
  | setMaxProcessSize x =>
    cases h
    have k := (ensureInbuf_kept s ((if x > overallMaxProcessSize then overallMaxProcessSize else x) * 2)).trans
      (ensureOutbuf_kept _ ((if x > overallMaxProcessSize then overallMaxProcessSize else x) * 8))
    exact same _ hmode k.studyInputDuration k.suppliedInputDuration
  | study x =>
    cases h
    refine ⟨hmode, ?_, ?_, ?_⟩
    · simp only [studiedAfter, phaseAfter]
      intro hf
      split at hf
      · cases hf
      · rename_i hx
        rw [if_neg (by intro hy; exact hx ⟨hy.1, hf⟩)]
        exact ha.fresh hf
    · simp only [studiedAfter, phaseAfter]
      intro hf
      show (study p s x).studyInputDuration = _
      unfold study
      cases hrt : p.realTime with
      | true =>
        rw [hrt] at hf
        simp only [Bool.true_eq_false, false_and, if_false] at hf ⊢
        simpa using ha.studied hf
      | false =>
        rw [hrt] at hf
        have hm := ha.mode
        rcases e : st.1 with _ | _ | _ | _
        · have h0 := ha.fresh e
          rw [e] at hm
          simp [hm, Phase.mode, h0]
        · have h0 := ha.studied e
          rw [e] at hm
          simp [hm, Phase.mode, h0]
        · rw [e] at hf; simp at hf
        · rw [e] at hf; simp at hf
    · show (study p s x).suppliedInputDuration = ex
      unfold study
      split
      · exact ha.expected
      · split <;> exact ha.expected
  | process x f =>
    unfold call at h
    rw [Option.map_eq_some_iff] at h
    obtain ⟨t, ht, rfl⟩ := h
    refine ⟨hmode, ?_, ?_, ?_⟩
    · simp only [studiedAfter, phaseAfter]
      intro hf
      split at hf <;> cases hf
    · simp only [studiedAfter, phaseAfter]
      intro hf
      split at hf <;> cases hf
    · show t.suppliedInputDuration = ex
      rw [← ha.expected]
      unfold process at ht
      split at ht
      · cases ht; rfl
      · obtain ⟨ic, oc, n, m, hb, h1, h2, h3⟩ := hi.bufs
        obtain ⟨q1, ⟨ic', n', q2, q3⟩, _⟩ := prologue_facts hc hi.hops hb h1 (fun hm => (h2 hm).1)
        rw [Option.map_eq_some_iff] at ht
        obtain ⟨u, hu, rfl⟩ := ht
        obtain ⟨k, _⟩ := processInput_bufs hc hu q2 q3
        refine k.suppliedInputDuration.trans ?_
        clear hu k q1 q2 q3
        unfold prologue
        split
        · rfl
        · have e : (updateRatioFromMap p env { s with totalTargetDuration := targetFor s }).suppliedInputDuration = s.suppliedInputDuration := by
            unfold updateRatioFromMap
            split
            · rfl
            · split
              · rfl
              · split
                · rfl
                · split <;> rfl
          generalize updateRatioFromMap p env { s with totalTargetDuration := targetFor s } = u at *
          unfold padStart
          split
          · exact (ensureInbuf_kept { u with resampler := if u.pitchScale ≠ 1 ∧ u.resampler.isNone then some env.rsInit else u.resampler } _).suppliedInputDuration.trans e
          · exact e
  | retrieve k => cases h; exact same _ ha.mode rfl rfl
  | reset => cases h; exact ⟨rfl, fun _ => rfl, fun h => (by cases h), rfl⟩

theorem run_announced {p : Params} (hc : 0 < p.channels) {env : Env α σ ρ} : ∀ (cs : List (Call α)) (s : State α σ ρ) (st : Phase × Nat) (ex : Nat)
    (r : State α σ ρ × List (List (List α))), Inv p env s → Announced p.realTime s st ex → run p env s cs = some r →
      Announced p.realTime r.1 (cs.foldl (studiedAfter p.realTime) st) (cs.foldl expectedAfter ex) := by
  intro cs
  induction cs with
  | nil => intro s st ex r _ ha h; cases h; exact ha
  | cons c cs ih =>
    intro s st ex r hi ha h
    obtain ⟨a, b, h1, h2, rfl⟩ := run_cons h
    exact ih a.1 _ _ b (call_inv hc hi h1) (call_announced hc hi ha h1) h2

omit [Zero α] [Add α] [Sub α] in
theorem studied_phase (rt : Bool) : ∀ (cs : List (Call α)) (st : Phase × Nat), (cs.foldl (studiedAfter rt) st).1 = cs.foldl (phaseAfter rt) st.1 := by
  intro cs
  induction cs with
  | nil => intro st; rfl
  | cons c cs ih => intro st; exact ih _

/-- The target when the first block comes. -/
theorem targetFor_known {p : Params} (hc : 0 < p.channels) {env : Env α σ ρ} {t ps : Dbl} {cs : List (Call α)}
    {r : State α σ ρ × List (List (List α))} (h : run p env (create p env t ps) cs = some r)
    (hph : phase p.realTime cs = .fresh ∨ phase p.realTime cs = .studied) :
    targetFor r.1 = (roundAway (knownDuration p.realTime cs * r.1.timeRatio)).toNat := by
  have ha := run_announced hc cs _ (.fresh, 0) 0 r (create_inv p env t ps) ⟨rfl, fun _ => rfl, fun h => (by cases h), rfl⟩ h
  have hid := (run_inv hc cs _ _ (create_inv p env t ps) h).idle
  have hm := ha.mode
  have hp := studied_phase p.realTime cs (.fresh, 0)
  have hp' : (cs.foldl (studiedAfter p.realTime) (.fresh, 0)).1 = phase p.realTime cs := hp
  rw [hp'] at hm
  have h2 := ha.studied
  rw [hp'] at h2
  have h3 := ha.expected
  rw [← expected_eq] at h3
  unfold targetFor knownDuration
  rcases hph with e | e
  · rw [e] at hm
    simp only [e, reduceCtorEq, if_false]
    rw [hm]
    simp only [Phase.mode, reduceCtorEq, if_false, true_and, h3]
    split
    · rfl
    · rename_i hx
      have : expected cs = 0 := by omega
      rw [(hid (Or.inl hm)).target, this]
      rw [Nat.cast_zero, zero_mul]
      decide +kernel
  · rw [e] at hm
    simp only [e, if_true]
    rw [hm]
    simp only [Phase.mode, if_true]
    rw [h2 e]
    rfl

/-! ## C29 -/

/-- **C29**, as claimed: whenever the duration is known, by studying or by announcement, each channel is delivered no more than the
rounded product of that duration and the time ratio when processing begins. -/
def C29_statement : Prop := ∀ (p : Params) (_ : 0 < p.channels) (_ : p.realTime = false) (env : Env Rat Unit Unit) (t ps : Dbl)
  (pre post : List (Call Rat)) (x : List (Frame Rat)) (f : Bool) (a r : State Rat Unit Unit × List (List (List Rat))),
  run p env (create p env t ps) pre = some a → phase p.realTime pre = .fresh ∨ phase p.realTime pre = .studied →
  run p env a.1 (.process x f :: post) = some r → noReset post → 0 < knownDuration p.realTime pre →
  ∀ c < p.channels, (channelOut r.2 c).length ≤ (roundAway (knownDuration p.realTime pre * a.1.timeRatio)).toNat

/-- **C29**, if the target does not round to 0: what has been delivered and what is waiting are together within the target, at any
time until the next reset. -/
theorem C29_partial {p : Params} (hc : 0 < p.channels) (hrt : p.realTime = false) (env : Env α σ ρ) (t ps : Dbl)
    (pre post : List (Call α)) (x : List (Frame α)) (f : Bool) {a r : State α σ ρ × List (List (List α))}
    (h1 : run p env (create p env t ps) pre = some a) (hph : phase p.realTime pre = .fresh ∨ phase p.realTime pre = .studied)
    (h2 : run p env a.1 (.process x f :: post) = some r) (hn : noReset post)
    (hpos : 0 < (roundAway (knownDuration p.realTime pre * a.1.timeRatio)).toNat) (c : Nat) (hcc : c < p.channels) :
    (channelOut r.2 c).length + (available r.1).toNat ≤ (roundAway (knownDuration p.realTime pre * a.1.timeRatio)).toNat := by
  have ht := targetFor_known hc h1 hph
  have hi := run_inv hc pre _ _ (create_inv p env t ps) h1
  have hm : a.1.mode = .justCreated ∨ a.1.mode = .studying := by
    rw [reached_mode h1]
    rcases hph with e | e <;> rw [e] <;> simp [Phase.mode]
  obtain ⟨b, d, h3, h4, rfl⟩ := run_cons h2
  have hi' := call_inv hc hi h3
  unfold call at h3
  rw [Option.map_eq_some_iff] at h3
  obtain ⟨u, hu, rfl⟩ := h3
  obtain ⟨x1, x2⟩ := process_account hc hrt hi (gone := 0) (fun _ => rfl) (by intro h'; rcases h' with h' | h' <;> rw [h'] at hm <;> simp at hm) hu
  have hm' : u.mode = .processing ∨ u.mode = .finished := by
    rw [process_mode hu]
    split <;> simp
  obtain ⟨⟨ic, oc, n, m, hb, ha⟩, y2⟩ := run_account hc hrt c hcc post u d 0 hi' hm' x1 hn h4
  have e : channelOut ([] :: d.2) c = channelOut d.2 c := by
    unfold channelOut
    simp
  have hmf : a.1.mode ≠ .finished := by rcases hm with h | h <;> rw [h] <;> simp
  rw [if_neg hmf, ht] at x2
  show (channelOut ([] :: d.2) c).length + (available d.1).toNat ≤ _
  have hav : (available d.1).toNat = m := by
    rw [available_eq hc hb.outU]
    split
    · omega
    · simp
  have hw := ha.within
  have hcap := ha.capped (by rw [y2, x2]; exact hpos)
  rw [y2, x2] at hcap
  rw [e, hav]
  omega

/-- One frame studied at the ratio 3/10, so a target of 0, which stands for no target: there is output. -/
theorem C29_violated : ¬ C29_statement := by
  intro h
  have key : (run (Ex.small false) Ex.env (create (Ex.small false) Ex.env (.fin (3 / 10)) (.fin 1)) [.study 1]).isSome = true := by decide +kernel
  obtain ⟨a, ha⟩ := Option.isSome_iff_exists.mp key
  have key2 : (((run (Ex.small false) Ex.env (create (Ex.small false) Ex.env (.fin (3 / 10)) (.fin 1)) [.study 1]).bind fun a =>
      (run (Ex.small false) Ex.env a.1 [.process (Ex.block 1) true, .retrieve 10]).map fun r =>
        ((channelOut r.2 0).length, (roundAway (1 * a.1.timeRatio)).toNat))) = some (10, 0) := by decide +kernel
  rw [ha] at key2
  simp only [Option.bind_some, Option.map_eq_some_iff, Prod.mk.injEq] at key2
  obtain ⟨r, hr, e1, e2⟩ := key2
  have := h (Ex.small false) (by decide) rfl Ex.env _ _ [.study 1] [.retrieve 10] _ _ a r ha (Or.inr rfl) hr
    (by intro c hc; rw [List.mem_singleton.mp hc]; trivial) (by decide) 0 (by decide)
  have hk : knownDuration (Ex.small false).realTime ([.study 1] : List (Call Rat)) = 1 := rfl
  rw [hk, e1] at this
  simp only [Nat.cast_one] at this
  rw [e2] at this
  omega

end

/-- 900 frames at the ratio 3/2 make 1350, though more would come out. -/
example : (((run (Ex.small false) Ex.env (create (Ex.small false) Ex.env (.fin (3 / 2)) (.fin 1)) [.study 500, .study 400]).bind fun a =>
    (run (Ex.small false) Ex.env a.1 [.process (Ex.block 600) false, .retrieve 50, .process (Ex.block 300) true, .retrieve 5000]).map fun r =>
      (phase false ([.study 500, .study 400] : List (Call Rat)), (channelOut r.2 1).length))) = some (.studied, 1350) := by decide +kernel

end Verif.R3
