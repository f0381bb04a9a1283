import Verif.R3Lemmas
/-!
# `process` in the R3 model
-/
namespace Verif.R3
open Verif.Round Verif.StretchCalc

variable {α σ ρ : Type} [Zero α] [Add α] [Sub α]

/-! ## Taking input -/

omit [Zero α] in
theorem prepareInput_some {p : Params} {env : Env α σ ρ} {s : State α σ ρ} {block : List (Frame α)} (h : block.length ≤ s.mixdownSize) :
    prepareInput p env s block = some (if p.useMidSide then block.map (encode env.halve) else block) := by
  unfold prepareInput
  split
  · rw [if_neg (by omega)]
  · rfl

/-- How much is taken in by a round of `process`. -/
def takenBy (p : Params) (before : Bool) (s : State α σ ρ) (n : Nat) : Nat :=
  if before && s.resampler.isSome then resampleInputFor p s n else min (in0 s).writeSpace n

omit [Zero α] [Add α] [Sub α] in
theorem resampleInputFor_bounds {p : Params} {s : State α σ ρ} {n : Nat} (hn : 1 ≤ n) :
    1 ≤ resampleInputFor p s n ∧ resampleInputFor p s n ≤ n := by
  unfold resampleInputFor
  simp only
  split <;> omega

/-- What taking in does. -/
structure TakeFacts (p : Params) (before : Bool) (s s' : State α σ ρ) (rest : List (Frame α)) (k : Nat) : Prop where
  kept : Kept s s'
  taken : k = takenBy p before s rest.length
  inbuf : ∃ block, s'.inbuf = writeAll s.inbuf block
  outbuf : s'.outbuf = s.outbuf
  mixdownSize : s'.mixdownSize = s.mixdownSize
  fill : s'.accumulatorFill = s.accumulatorFill
  calculator : s'.calculator = s.calculator
  consumed : s'.consumedInputDuration = s.consumedInputDuration
  total : s'.totalOutputDuration = s.totalOutputDuration
  startSkip : s'.startSkip = s.startSkip
  dsp : s'.dsp = s.dsp
  prevInhop : s'.prevInhop = s.prevInhop
  prevOuthop : s'.prevOuthop = s.prevOuthop

theorem takeIn_facts {p : Params} {env : Env α σ ρ} {before final : Bool} {s : State α σ ρ} {rest : List (Frame α)}
    {r : State α σ ρ × Nat} (h : takeIn p env before final s rest = some r) : TakeFacts p before s r.1 rest r.2 := by
  unfold takeIn at h
  split at h
  · rename_i x hx
    simp only [Option.bind_eq_bind, Option.pure_def, Option.bind_eq_some_iff] at h
    obtain ⟨block, h1, h2⟩ := h
    have h3 := (Option.some.inj h2).symm
    subst h3
    exact ⟨⟨rfl, rfl, rfl, rfl, rfl, rfl, rfl, rfl, rfl, rfl, rfl, by rw [hx]; rfl⟩, by unfold takenBy; rw [hx]; rfl, ⟨_, rfl⟩, rfl, rfl, rfl, rfl, rfl, rfl, rfl,
      rfl, rfl, rfl⟩
  · rename_i bf _ _ hx
    simp only [Option.bind_eq_bind, Option.pure_def, Option.bind_eq_some_iff] at h
    obtain ⟨block, h1, h2⟩ := h
    have h3 := (Option.some.inj h2).symm
    subst h3
    refine ⟨⟨rfl, rfl, rfl, rfl, rfl, rfl, rfl, rfl, rfl, rfl, rfl, rfl⟩, ?_, ⟨_, rfl⟩, rfl, rfl, rfl, rfl, rfl, rfl, rfl, rfl, rfl, rfl⟩
    unfold takenBy
    cases bf with
    | false => rfl
    | true =>
      cases hr : s.resampler with
      | none => rfl
      | some x => exact absurd rfl (hx x hr)

theorem takeIn_some {p : Params} {env : Env α σ ρ} {before final : Bool} {s : State α σ ρ} {rest : List (Frame α)}
    (h : rest.length ≤ s.mixdownSize) : ∃ r, takeIn p env before final s rest = some r := by
  unfold takeIn
  split
  · simp only
    rw [prepareInput_some (by rw [List.length_take]; omega)]
    exact ⟨_, rfl⟩
  · simp only
    rw [prepareInput_some (by rw [List.length_take]; omega)]
    exact ⟨_, rfl⟩

/-- Without resampling, and with enough room, all of the input is taken in as it is. -/
theorem takeIn_plain {p : Params} {env : Env α σ ρ} {final : Bool} {s : State α σ ρ} {rest : List (Frame α)}
    (h : rest.length ≤ s.mixdownSize) (hw : rest.length ≤ (in0 s).writeSpace) :
    takeIn p env false final s rest =
      some ({ s with inbuf := writeAll s.inbuf (if p.useMidSide then rest.map (encode env.halve) else rest) }, rest.length) := by
  unfold takeIn
  have e : min (in0 s).writeSpace rest.length = rest.length := by omega
  cases hr : s.resampler with
  | none =>
    simp only [e, List.take_length]
    rw [prepareInput_some h]
    rfl
  | some r =>
    simp only [e, List.take_length]
    rw [prepareInput_some h]
    rfl

omit [Zero α] [Add α] [Sub α] in
theorem TakeFacts.bufs {p : Params} {before : Bool} {s s' : State α σ ρ} {rest : List (Frame α)} {k : Nat}
    (f : TakeFacts p before s s' rest k) {icap ocap n m : Nat} (h : Bufs p s icap ocap n m) : ∃ n', Bufs p s' icap ocap n' m := by
  obtain ⟨block, hb⟩ := f.inbuf
  have hw := h.inU.writeAll block
  rw [← hb] at hw
  have := h.inLe
  exact ⟨_, hw, by rw [f.outbuf]; exact h.outU, by omega, h.outLe, h.inCap, h.outCap, by rw [f.mixdownSize]; exact h.mix⟩

/-! ## A round -/

theorem processRound_split {p : Params} {env : Env α σ ρ} {before final : Bool} {s : State α σ ρ} {rest : List (Frame α)}
    {r : State α σ ρ × List (Frame α)} (h : processRound p env before final s rest = some r) :
    ∃ a b k, roomy p env s = some a ∧ takeIn p env before final (ensureInbuf a rest.length) rest = some (b, k) ∧
      consume p env (final && decide (k ≥ rest.length)) b = some r.1 ∧ r.2 = rest.drop k := by
  unfold processRound at h
  simp only [Option.bind_eq_bind, Option.pure_def, Option.bind_eq_some_iff] at h
  obtain ⟨a, ha, ⟨b, k⟩, hb, c, hc, hr⟩ := h
  cases hr
  exact ⟨a, b, k, ha, hb, hc, rfl⟩

/-- What is kept from the state before a round, and that something is taken in. -/
theorem processRound_bufs {p : Params} (hc : 0 < p.channels) {env : Env α σ ρ} {before final : Bool} {s : State α σ ρ} {rest : List (Frame α)}
    {r : State α σ ρ × List (Frame α)} (h : processRound p env before final s rest = some r) (hrest : 1 ≤ rest.length) {icap ocap n m : Nat}
    (hb : Bufs p s icap ocap n m) :
    Kept s r.1 ∧ (∃ icap' ocap' n' m', Bufs p r.1 icap' ocap' n' m' ∧ n' < p.windowSourceSize ∧
      (final = true → r.2 = [] → n' = 0 ∧ r.1.accumulatorFill = 0)) ∧ r.2.length < rest.length := by
  obtain ⟨a, b, k, h1, h2, h3, h4⟩ := processRound_split h
  have ha : Kept s a ∧ ∃ icap' ocap' n' m', Bufs p a icap' ocap' n' m' := by
    unfold roomy at h1
    split at h1
    · obtain ⟨oc, n', m', _, _, hb', _⟩ := consume_bufs hc h1 hb
      exact ⟨consume_kept h1, _, _, _, _, hb'⟩
    · cases h1
      exact ⟨Kept.refl _, _, _, _, _, hb⟩
  obtain ⟨ka, ic, oc, n1, m1, ba⟩ := ha
  obtain ⟨ic', i1, i2, be, ke⟩ := ensureInbuf_bufs hc ba rest.length
  have f := takeIn_facts h2
  obtain ⟨n2, bb⟩ := f.bufs be
  obtain ⟨oc', n3, m3, _, _, bc, hn3, hfin⟩ := consume_bufs hc h3 bb
  have hk : 1 ≤ k := by
    have := f.taken
    unfold takenBy at this
    split at this
    · have := (resampleInputFor_bounds (p := p) (s := ensureInbuf a rest.length) hrest).1
      omega
    · rw [(in0_eq hc be.inU).2.2] at this
      omega
  refine ⟨((ka.trans ke).trans f.kept).trans (consume_kept h3), ⟨_, _, _, _, bc, hn3, ?_⟩, ?_⟩
  · intro hf hr
    apply hfin
    rw [h4, List.drop_eq_nil_iff] at hr
    rw [hf]
    simpa using hr
  · rw [h4, List.length_drop]
    omega

/-- Everything that has an effect on the output hop is the same for every call of `consume` in a round, but for the
calculator and the resampler. -/
def OuthopFits (p : Params) (env : Env α σ ρ) (s : State α σ ρ) : Prop :=
  ∀ s' : State α σ ρ, Kept s s' → outhopOf p env s' ≤ p.longestFftSize

theorem processRound_some {p : Params} (hc : 0 < p.channels) {env : Env α σ ρ} {before final : Bool} {s : State α σ ρ} {rest : List (Frame α)}
    (hops : Hops p env s) (hfit : OuthopFits p env s) {icap ocap n m : Nat} (hb : Bufs p s icap ocap n m) :
    ∃ r, processRound p env before final s rest = some r := by
  have hl := (ringBufferSize_ge p).1
  have ha : ∃ a, roomy p env s = some a ∧ Kept s a ∧ ∃ icap' ocap' n' m', Bufs p a icap' ocap' n' m' := by
    unfold roomy
    split
    · obtain ⟨a, ha⟩ := consume_some (final := false) hops (by rw [hb.mix]; exact hl.trans hb.inCap) (hfit s (Kept.refl s))
      obtain ⟨oc, n', m', _, _, hb', _⟩ := consume_bufs hc ha hb
      exact ⟨a, ha, consume_kept ha, _, _, _, _, hb'⟩
    · exact ⟨s, rfl, Kept.refl _, _, _, _, _, hb⟩
  obtain ⟨a, ha, ka, ic, oc, n1, m1, ba⟩ := ha
  obtain ⟨ic', i1, i2, be, ke⟩ := ensureInbuf_bufs hc ba rest.length
  obtain ⟨⟨b, k⟩, hk⟩ := takeIn_some (p := p) (env := env) (before := before) (final := final) (s := ensureInbuf a rest.length) (rest := rest)
    (by rw [be.mix]; omega)
  have f := takeIn_facts hk
  obtain ⟨n2, bb⟩ := f.bufs be
  have kb : Kept s b := (ka.trans ke).trans f.kept
  obtain ⟨c, hcon⟩ := consume_some (final := final && decide (k ≥ rest.length)) (kb.hops hops)
    (by rw [bb.mix]; exact hl.trans bb.inCap) (hfit b kb)
  refine ⟨(c, rest.drop k), ?_⟩
  unfold processRound
  rw [ha]
  simp only [Option.bind_eq_bind, Option.bind_some, Option.pure_def]
  rw [hk]
  simp only [Option.bind_some]
  rw [hcon]
  rfl

/-! ## The loop -/

/-- Induction over the rounds. -/
theorem processLoop_induct {p : Params} {env : Env α σ ρ} {before final : Bool} (P : State α σ ρ → List (Frame α) → Prop)
    (hP : ∀ s rest r, P s rest → 1 ≤ rest.length → processRound p env before final s rest = some r → P r.1 r.2) :
    ∀ (fuel : Nat) (s s' : State α σ ρ) (rest : List (Frame α)), P s rest → processLoop p env before final fuel s rest = some s' → P s' [] := by
  intro fuel
  induction fuel with
  | zero =>
    intro s s' rest h0 h
    unfold processLoop at h
    split at h
    · rename_i hl
      cases h
      rw [List.length_eq_zero_iff.mp hl] at h0
      exact h0
    · cases h
  | succ fuel ih =>
    intro s s' rest h0 h
    unfold processLoop at h
    split at h
    · rename_i hl
      cases h
      rw [List.length_eq_zero_iff.mp hl] at h0
      exact h0
    · rename_i hl
      cases hr : processRound p env before final s rest with
      | none => rw [hr] at h; cases h
      | some r =>
        rw [hr] at h
        exact ih r.1 s' r.2 (hP s rest r h0 (by omega) hr) h

theorem processLoop_some {p : Params} (hc : 0 < p.channels) {env : Env α σ ρ} {before final : Bool} :
    ∀ (fuel : Nat) (s : State α σ ρ) (rest : List (Frame α)), Hops p env s → OuthopFits p env s →
      (∃ icap ocap n m, Bufs p s icap ocap n m) → rest.length ≤ fuel → ∃ s', processLoop p env before final fuel s rest = some s' := by
  intro fuel
  induction fuel with
  | zero =>
    intro s rest _ _ _ h
    unfold processLoop
    rw [if_pos (by omega)]
    exact ⟨s, rfl⟩
  | succ fuel ih =>
    rintro s rest hh hf ⟨ic, oc, n, m, hb⟩ h
    unfold processLoop
    split
    · exact ⟨s, rfl⟩
    · rename_i hl
      obtain ⟨r, hr⟩ := processRound_some (before := before) (final := final) (rest := rest) hc hh hf hb
      rw [hr]
      obtain ⟨k, ⟨ic', oc', n', m', hb', _⟩, hlt⟩ := processRound_bufs hc hr (by omega) hb
      exact ih r.1 r.2 (k.hops hh) (fun s' ks => hf s' (k.trans ks)) ⟨_, _, _, _, hb'⟩ (by omega)

/-- The buffers after the loop. -/
theorem processLoop_bufs {p : Params} (hc : 0 < p.channels) {env : Env α σ ρ} {before final : Bool} {fuel : Nat} {s s' : State α σ ρ}
    {rest : List (Frame α)} (h : processLoop p env before final fuel s rest = some s') {icap ocap n m : Nat} (hb : Bufs p s icap ocap n m)
    (hn : n < p.windowSourceSize) (hrest : 1 ≤ rest.length) :
    Kept s s' ∧ ∃ icap' ocap' n' m', Bufs p s' icap' ocap' n' m' ∧ n' < p.windowSourceSize ∧ (final = true → n' = 0 ∧ s'.accumulatorFill = 0) := by
  have := processLoop_induct (before := before) (final := final) (p := p) (env := env)
    (fun t l => Kept s t ∧ ∃ icap' ocap' n' m', Bufs p t icap' ocap' n' m' ∧ n' < p.windowSourceSize ∧
      (final = true → l = [] → n' = 0 ∧ t.accumulatorFill = 0))
    (by
      rintro t l r ⟨kt, ic, oc, n1, m1, bt, _, _⟩ hl hr
      obtain ⟨kr, ⟨ic', oc', n', m', b', hn', hf'⟩, _⟩ := processRound_bufs hc hr hl bt
      exact ⟨kt.trans kr, ic', oc', n', m', b', hn', hf'⟩)
    fuel s s' rest ⟨Kept.refl s, _, _, _, _, hb, hn, by intro _ hl; rw [hl] at hrest; simp at hrest⟩ h
  obtain ⟨k, ic, oc, n', m', b, h1, h2⟩ := this
  exact ⟨k, ic, oc, n', m', b, h1, fun hf => h2 hf rfl⟩

end Verif.R3
