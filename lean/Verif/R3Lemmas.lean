import Verif.R3Limits
/-!
# Invariants of the R3 model
-/
namespace Verif.R3
open Verif.Round Verif.StretchCalc

variable {α σ ρ : Type}

/-! ## Buffers -/

/-- All channels have a buffer of the same size holding the same number of samples. -/
def Uniform (c : Nat) (bufs : List (Fifo α)) (cap n : Nat) : Prop :=
  bufs.length = c ∧ ∀ q ∈ bufs, q.cap = cap ∧ q.data.length = n

theorem Uniform.head {c : Nat} {bufs : List (Fifo α)} {cap n : Nat} (hc : 0 < c) (h : Uniform c bufs cap n) :
    (bufs.headD ⟨0, []⟩).cap = cap ∧ (bufs.headD ⟨0, []⟩).data.length = n := by
  obtain ⟨h1, h2⟩ := h
  cases bufs with
  | nil => simp only [List.length_nil] at h1; omega
  | cons q qs => exact h2 q (by simp)

theorem Uniform.map {c : Nat} {bufs : List (Fifo α)} {cap n cap' n' : Nat} (h : Uniform c bufs cap n) (f : Fifo α → Fifo α)
    (hf : ∀ q : Fifo α, q.cap = cap → q.data.length = n → (f q).cap = cap' ∧ (f q).data.length = n') :
    Uniform c (bufs.map f) cap' n' := by
  obtain ⟨h1, h2⟩ := h
  refine ⟨by simpa using h1, ?_⟩
  intro q hq
  obtain ⟨r, hr, rfl⟩ := List.mem_map.mp hq
  exact hf r (h2 r hr).1 (h2 r hr).2

theorem Uniform.skip {c : Nat} {bufs : List (Fifo α)} {cap n : Nat} (h : Uniform c bufs cap n) (k : Nat) :
    Uniform c (bufs.map fun q => q.skip k) cap (n - k) :=
  h.map _ fun q h1 h2 => ⟨h1, by simp [Fifo.skip, h2]⟩

theorem Uniform.zero [Zero α] {c : Nat} {bufs : List (Fifo α)} {cap n : Nat} (h : Uniform c bufs cap n) (k : Nat) (hk : n + k ≤ cap) :
    Uniform c (bufs.map fun q => q.zero k) cap (n + k) :=
  h.map _ fun q h1 h2 => ⟨h1, by simp [Fifo.zero, Fifo.write, Fifo.writeSpace, h1, h2]; omega⟩

theorem Uniform.reset {c : Nat} {bufs : List (Fifo α)} {cap n : Nat} (h : Uniform c bufs cap n) :
    Uniform c (bufs.map Fifo.reset) cap 0 :=
  h.map _ fun q h1 _ => ⟨h1, rfl⟩

theorem Uniform.resized {c : Nat} {bufs : List (Fifo α)} {cap n : Nat} (h : Uniform c bufs cap n) (k : Nat) (hk : n ≤ k) :
    Uniform c (bufs.map fun q => q.resized k) k n :=
  h.map _ fun q _ h2 => ⟨rfl, by simp [Fifo.resized, h2, hk]⟩

theorem Uniform.writeAll {c : Nat} {bufs : List (Fifo α)} {cap n : Nat} (h : Uniform c bufs cap n) (block : List (Frame α)) :
    Uniform c (writeAll bufs block) cap (n + min block.length (cap - n)) := by
  obtain ⟨h1, h2⟩ := h
  refine ⟨by simpa [R3.writeAll] using h1, ?_⟩
  intro q hq
  unfold R3.writeAll at hq
  obtain ⟨i, hi, rfl⟩ := List.mem_mapIdx.mp hq
  have hb := h2 bufs[i] (List.getElem_mem hi)
  refine ⟨hb.1, ?_⟩
  simp only [Fifo.write, Fifo.writeSpace, List.length_append, List.length_take, List.length_map, hb.1, hb.2]
  omega

theorem in0_eq {c : Nat} {s : State α σ ρ} {cap n : Nat} (hc : 0 < c) (h : Uniform c s.inbuf cap n) :
    (in0 s).cap = cap ∧ (in0 s).readSpace = n ∧ (in0 s).writeSpace = cap - n := by
  obtain ⟨h1, h2⟩ := h.head hc
  unfold in0 Fifo.readSpace Fifo.writeSpace
  rw [h1, h2]
  exact ⟨rfl, rfl, rfl⟩

theorem out0_eq {c : Nat} {s : State α σ ρ} {cap n : Nat} (hc : 0 < c) (h : Uniform c s.outbuf cap n) :
    (out0 s).cap = cap ∧ (out0 s).readSpace = n ∧ (out0 s).writeSpace = cap - n := by
  obtain ⟨h1, h2⟩ := h.head hc
  unfold out0 Fifo.readSpace Fifo.writeSpace
  rw [h1, h2]
  exact ⟨rfl, rfl, rfl⟩

/-! ## The invariant -/

/-- What holds of the buffers. -/
structure Bufs (p : Params) (s : State α σ ρ) (icap ocap n m : Nat) : Prop where
  inU : Uniform p.channels s.inbuf icap n
  outU : Uniform p.channels s.outbuf ocap m
  inLe : n ≤ icap
  outLe : m ≤ ocap
  inCap : p.ringBufferSize ≤ icap
  outCap : p.ringBufferSize ≤ ocap
  mix : s.mixdownSize = icap

/-- What holds of the ratios and hops. -/
structure Hops (p : Params) (env : Env α σ ρ) (s : State α σ ρ) : Prop where
  tpos : 0 < s.timeRatio
  pspos : 0 < s.pitchScale
  inhop : s.inhop = inhopFor p env.curve (s.timeRatio * s.pitchScale)
  readahead : s.useReadahead = decide (s.inhop < p.maxInhopWithReadahead)

/-- Everything that `consume` leaves alone. -/
structure Kept (s s' : State α σ ρ) : Prop where
  timeRatio : s'.timeRatio = s.timeRatio
  pitchScale : s'.pitchScale = s.pitchScale
  formantScale : s'.formantScale = s.formantScale
  useReadahead : s'.useReadahead = s.useReadahead
  inhop : s'.inhop = s.inhop
  studyInputDuration : s'.studyInputDuration = s.studyInputDuration
  suppliedInputDuration : s'.suppliedInputDuration = s.suppliedInputDuration
  totalTargetDuration : s'.totalTargetDuration = s.totalTargetDuration
  lastKeyFrameSurpassed : s'.lastKeyFrameSurpassed = s.lastKeyFrameSurpassed
  keyFrameMap : s'.keyFrameMap = s.keyFrameMap
  mode : s'.mode = s.mode
  haveResampler : s'.resampler.isSome = s.resampler.isSome

theorem Kept.refl (s : State α σ ρ) : Kept s s := ⟨rfl, rfl, rfl, rfl, rfl, rfl, rfl, rfl, rfl, rfl, rfl, rfl⟩

theorem Kept.trans {a b c : State α σ ρ} (h : Kept a b) (k : Kept b c) : Kept a c :=
  ⟨k.1.trans h.1, k.2.trans h.2, k.3.trans h.3, k.4.trans h.4, k.5.trans h.5, k.6.trans h.6, k.7.trans h.7, k.8.trans h.8, k.9.trans h.9,
    k.10.trans h.10, k.11.trans h.11, k.12.trans h.12⟩

theorem Kept.hops {p : Params} {env : Env α σ ρ} {s s' : State α σ ρ} (k : Kept s s') (h : Hops p env s) : Hops p env s' := by
  obtain ⟨h1, h2, h3, h4⟩ := h
  exact ⟨by rw [k.timeRatio]; exact h1, by rw [k.pitchScale]; exact h2, by rw [k.timeRatio, k.pitchScale, k.inhop]; exact h3,
    by rw [k.useReadahead, k.inhop]; exact h4⟩

theorem Hops.inhop_pos {p : Params} {env : Env α σ ρ} {s : State α σ ρ} (h : Hops p env s) : 1 ≤ s.inhop := by
  rw [h.inhop]; exact (inhopFor_bounds p _ _).1

theorem Hops.cuts {p : Params} {env : Env α σ ρ} {s : State α σ ρ} (h : Hops p env s) : cutsInside p s.useReadahead s.inhop = true := by
  apply cutsInside_true
  intro hu
  rw [h.readahead] at hu
  simpa using hu

/-! ## Room -/

theorem ensureInbuf_bufs {p : Params} {s : State α σ ρ} {icap ocap n m : Nat} (hc : 0 < p.channels) (h : Bufs p s icap ocap n m)
    (required : Nat) : ∃ icap', icap ≤ icap' ∧ n + required ≤ icap' ∧ Bufs p (ensureInbuf s required) icap' ocap n m ∧
      Kept s (ensureInbuf s required) := by
  obtain ⟨h1, h2, h3⟩ := in0_eq hc h.inU
  unfold ensureInbuf
  have hle := h.inLe
  by_cases hr : required < (in0 s).writeSpace
  · rw [if_pos hr]
    exact ⟨icap, le_refl _, by omega, h, Kept.refl s⟩
  · rw [if_neg hr]
    have hg : icap ≤ grown (in0 s) required ∧ n + required ≤ grown (in0 s) required := by
      unfold grown
      rw [h1, h3]
      omega
    refine ⟨grown (in0 s) required, hg.1, hg.2, ?_, ⟨rfl, rfl, rfl, rfl, rfl, rfl, rfl, rfl, rfl, rfl, rfl, rfl⟩⟩
    exact ⟨h.inU.resized _ (by omega), h.outU, by omega, h.outLe, h.inCap.trans hg.1, h.outCap, rfl⟩

theorem ensureOutbuf_bufs {p : Params} {s : State α σ ρ} {icap ocap n m : Nat} (hc : 0 < p.channels) (h : Bufs p s icap ocap n m)
    (required : Nat) : ∃ ocap', ocap ≤ ocap' ∧ m + required ≤ ocap' ∧ Bufs p (ensureOutbuf s required) icap ocap' n m ∧
      Kept s (ensureOutbuf s required) := by
  obtain ⟨h1, h2, h3⟩ := out0_eq hc h.outU
  unfold ensureOutbuf
  have hle := h.outLe
  by_cases hr : required < (out0 s).writeSpace
  · rw [if_pos hr]
    exact ⟨ocap, le_refl _, by omega, h, Kept.refl s⟩
  · rw [if_neg hr]
    have hg : ocap ≤ grown (out0 s) required ∧ m + required ≤ grown (out0 s) required := by
      unfold grown
      rw [h1, h3]
      omega
    refine ⟨grown (out0 s) required, hg.1, hg.2, ?_, ⟨rfl, rfl, rfl, rfl, rfl, rfl, rfl, rfl, rfl, rfl, rfl, rfl⟩⟩
    exact ⟨h.inU, h.outU.resized _ (by omega), h.inLe, by omega, h.inCap, h.outCap.trans hg.1, h.mix⟩

/-- The contents are unchanged. -/
theorem ensureInbuf_data {p : Params} {s : State α σ ρ} {icap ocap n m : Nat} (hc : 0 < p.channels) (h : Bufs p s icap ocap n m)
    (required : Nat) : (ensureInbuf s required).inbuf.map Fifo.data = s.inbuf.map Fifo.data := by
  obtain ⟨h1, h2, h3⟩ := in0_eq hc h.inU
  unfold ensureInbuf
  split
  · rfl
  · simp only [List.map_map]
    apply List.map_congr_left
    intro q hq
    have := (h.inU.2 q hq).2
    have hle := h.inLe
    simp only [Function.comp, Fifo.resized]
    apply List.take_of_length_le
    unfold grown
    rw [h1, h3]
    omega

theorem ensureOutbuf_data {p : Params} {s : State α σ ρ} {icap ocap n m : Nat} (hc : 0 < p.channels) (h : Bufs p s icap ocap n m)
    (required : Nat) : (ensureOutbuf s required).outbuf.map Fifo.data = s.outbuf.map Fifo.data := by
  obtain ⟨h1, h2, h3⟩ := out0_eq hc h.outU
  unfold ensureOutbuf
  split
  · rfl
  · simp only [List.map_map]
    apply List.map_congr_left
    intro q hq
    have := (h.outU.2 q hq).2
    have hle := h.outLe
    simp only [Function.comp, Fifo.resized]
    apply List.take_of_length_le
    unfold grown
    rw [h1, h3]
    omega

theorem ensureInbuf_other (s : State α σ ρ) (required : Nat) : (ensureInbuf s required).outbuf = s.outbuf ∧
    (ensureInbuf s required).accumulatorFill = s.accumulatorFill ∧ (ensureInbuf s required).calculator = s.calculator ∧
    (ensureInbuf s required).resampler = s.resampler ∧ (ensureInbuf s required).prevInhop = s.prevInhop ∧
    (ensureInbuf s required).prevOuthop = s.prevOuthop ∧ (ensureInbuf s required).startSkip = s.startSkip ∧
    (ensureInbuf s required).consumedInputDuration = s.consumedInputDuration ∧
    (ensureInbuf s required).totalOutputDuration = s.totalOutputDuration ∧ (ensureInbuf s required).dsp = s.dsp := by
  unfold ensureInbuf
  split <;> exact ⟨rfl, rfl, rfl, rfl, rfl, rfl, rfl, rfl, rfl, rfl⟩

theorem ensureOutbuf_other (s : State α σ ρ) (required : Nat) : (ensureOutbuf s required).inbuf = s.inbuf ∧
    (ensureOutbuf s required).accumulatorFill = s.accumulatorFill ∧ (ensureOutbuf s required).calculator = s.calculator ∧
    (ensureOutbuf s required).resampler = s.resampler ∧ (ensureOutbuf s required).prevInhop = s.prevInhop ∧
    (ensureOutbuf s required).prevOuthop = s.prevOuthop ∧ (ensureOutbuf s required).startSkip = s.startSkip ∧
    (ensureOutbuf s required).consumedInputDuration = s.consumedInputDuration ∧
    (ensureOutbuf s required).totalOutputDuration = s.totalOutputDuration ∧ (ensureOutbuf s required).dsp = s.dsp := by
  unfold ensureOutbuf
  split <;> exact ⟨rfl, rfl, rfl, rfl, rfl, rfl, rfl, rfl, rfl, rfl⟩

/-! ## A round of `consume` -/

/-- The arguments given to the spectral processing in a round. -/
def hopOf (s : State α σ ρ) (inhop outhop : Nat) : Hop :=
  ⟨inhop, s.prevInhop, s.prevOuthop, outhop, s.useReadahead, (in0 s).readSpace == 0, s.timeRatio, s.pitchScale, s.formantScale⟩

/-- The spectral processing of a round. -/
def dspOf [Zero α] (p : Params) (env : Env α σ ρ) (s : State α σ ρ) (inhop outhop : Nat) : σ × (Nat → Nat → α) :=
  env.dsp s.dsp (hopOf s inhop outhop) (s.inbuf.map (sourceWindow p))

/-- The output of the spectral processing. -/
def mixOf [Zero α] (p : Params) (env : Env α σ ρ) (s : State α σ ρ) (inhop outhop : Nat) : List (Frame α) :=
  (List.range outhop).map fun i c => (dspOf p env s inhop outhop).2 c i

/-- The resampler and output of a round. -/
def outOf [Zero α] (p : Params) (env : Env α σ ρ) (final : Bool) (s : State α σ ρ) (inhop outhop : Nat) : Option ρ × List (Frame α) :=
  resampleAfter p env s final inhop outhop (in0 s).readSpace (fillAfter p s.accumulatorFill outhop ((in0 s).readSpace == 0)) (mixOf p env s inhop outhop)

theorem resampleAfter_congr {p : Params} {env : Env α σ ρ} {s s' : State α σ ρ} (h1 : s'.resampler = s.resampler) (h2 : s'.pitchScale = s.pitchScale)
    (final : Bool) (a b c d : Nat) (mix : List (Frame α)) :
    resampleAfter p env s' final a b c d mix = resampleAfter p env s final a b c d mix := by
  unfold resampleAfter resamplingAfter
  rw [h1, h2]

/-- What a round of `consume` does, component by component. -/
structure RoundFacts [Zero α] (p : Params) (env : Env α σ ρ) (final : Bool) (inhop outhop : Nat) (s s' : State α σ ρ) : Prop where
  kept : Kept s s'
  calculator : s'.calculator = s.calculator
  mixdownSize : s'.mixdownSize = s.mixdownSize
  outhop_le : outhop ≤ p.longestFftSize
  inbuf : s'.inbuf = s.inbuf.map fun q => q.skip (min inhop (in0 s).readSpace)
  outbuf : s'.outbuf = (writeAll (ensureOutbuf s outhop).outbuf
      ((outOf p env final s inhop outhop).2.take (writeCountFor p s (outOf p env final s inhop outhop).2.length))).map
    fun q => q.skip (s.startSkip - s'.startSkip)
  dsp : s'.dsp = (dspOf p env s inhop outhop).1
  fill : s'.accumulatorFill = fillAfter p s.accumulatorFill outhop ((in0 s).readSpace == 0)
  resampler : s'.resampler = (outOf p env final s inhop outhop).1
  consumed : s'.consumedInputDuration = s.consumedInputDuration + min inhop (in0 s).readSpace
  startSkip : s'.startSkip = s.startSkip - min s.startSkip ((writeAll (ensureOutbuf s outhop).outbuf
      ((outOf p env final s inhop outhop).2.take (writeCountFor p s (outOf p env final s inhop outhop).2.length))).headD ⟨0, []⟩).readSpace
  total : s'.totalOutputDuration = if s.startSkip > 0 then
      ((writeAll (ensureOutbuf s outhop).outbuf
      ((outOf p env final s inhop outhop).2.take (writeCountFor p s (outOf p env final s inhop outhop).2.length))).headD ⟨0, []⟩).readSpace -
        (s.startSkip - s'.startSkip)
    else s.totalOutputDuration + writeCountFor p s (outOf p env final s inhop outhop).2.length
  prevInhop : s'.prevInhop = inhop
  prevOuthop : s'.prevOuthop = outhop

theorem resampleAfter_isSome {p : Params} {env : Env α σ ρ} {s : State α σ ρ} (final : Bool) (a b c d : Nat) (mix : List (Frame α)) :
    (resampleAfter p env s final a b c d mix).1.isSome = s.resampler.isSome := by
  unfold resampleAfter
  split
  · rename_i r h1 h2; simp only [h1, Option.isSome_some]
  · rfl

theorem map_skip_zero (bufs : List (Fifo α)) : bufs.map (fun q => q.skip 0) = bufs := by
  have : (fun q : Fifo α => q.skip 0) = id := by
    funext q; simp [Fifo.skip]
  rw [this, List.map_id]

/-- What `emit` does. -/
structure EmitFacts (p : Params) (s s' : State α σ ρ) (inhop outhop readSpace : Nat) (out : List (Frame α)) : Prop where
  kept : Kept s s'
  calculator : s'.calculator = s.calculator
  mixdownSize : s'.mixdownSize = s.mixdownSize
  inbuf : s'.inbuf = s.inbuf.map fun q => q.skip (min inhop readSpace)
  outbuf : s'.outbuf = (writeAll s.outbuf (out.take (writeCountFor p s out.length))).map fun q => q.skip (s.startSkip - s'.startSkip)
  dsp : s'.dsp = s.dsp
  fill : s'.accumulatorFill = s.accumulatorFill
  resampler : s'.resampler = s.resampler
  consumed : s'.consumedInputDuration = s.consumedInputDuration + min inhop readSpace
  startSkip : s'.startSkip = s.startSkip - min s.startSkip ((writeAll s.outbuf (out.take (writeCountFor p s out.length))).headD ⟨0, []⟩).readSpace
  total : s'.totalOutputDuration = if s.startSkip > 0 then
      ((writeAll s.outbuf (out.take (writeCountFor p s out.length))).headD ⟨0, []⟩).readSpace - (s.startSkip - s'.startSkip)
    else s.totalOutputDuration + writeCountFor p s out.length
  prevInhop : s'.prevInhop = inhop
  prevOuthop : s'.prevOuthop = outhop

theorem emit_facts (p : Params) (s : State α σ ρ) (inhop outhop readSpace : Nat) (out : List (Frame α)) :
    EmitFacts p s (emit p s inhop outhop readSpace out) inhop outhop readSpace out := by
  have hadv : (if inhop > readSpace then readSpace else inhop) = min inhop readSpace := by
    split <;> omega
  have hmin : ∀ x : Nat, s.startSkip - (s.startSkip - min s.startSkip x) = min s.startSkip x := by intro x; omega
  unfold emit
  simp only [hadv]
  unfold skipStart
  by_cases hsk : s.startSkip > 0
  · simp only [hsk, if_true, out0]
    refine ⟨⟨rfl, rfl, rfl, rfl, rfl, rfl, rfl, rfl, rfl, rfl, rfl, rfl⟩, rfl, rfl, rfl, ?_, rfl, rfl, rfl, rfl, rfl, ?_, rfl, rfl⟩
    · simp only [hmin]
    · rw [if_pos hsk]; simp only [hmin]
  · simp only [hsk, if_false]
    have h0 : s.startSkip = 0 := by omega
    refine ⟨⟨rfl, rfl, rfl, rfl, rfl, rfl, rfl, rfl, rfl, rfl, rfl, rfl⟩, rfl, rfl, rfl, ?_, rfl, rfl, rfl, rfl, ?_, ?_, rfl, rfl⟩
    · simp only [Nat.sub_self]; rw [map_skip_zero]
    · simp only [h0]; omega
    · rw [if_neg hsk]

theorem consumeRound_facts [Zero α] {p : Params} {env : Env α σ ρ} {final : Bool} {inhop outhop : Nat} {s s' : State α σ ρ}
    (h : consumeRound p env final inhop outhop s = some s') : RoundFacts p env final inhop outhop s s' := by
  obtain ⟨e1, e2, e3, e4, e5, e6, e7, e8, e9, e10⟩ := ensureOutbuf_other s outhop
  have ek : Kept s (ensureOutbuf s outhop) ∧ (ensureOutbuf s outhop).mixdownSize = s.mixdownSize := by
    unfold ensureOutbuf
    split
    · exact ⟨Kept.refl s, rfl⟩
    · exact ⟨⟨rfl, rfl, rfl, rfl, rfl, rfl, rfl, rfl, rfl, rfl, rfl, rfl⟩, rfl⟩
  have hin0 : in0 (ensureOutbuf s outhop) = in0 s := by unfold in0; rw [e1]
  unfold consumeRound at h
  simp only at h
  split at h
  · cases h
  rename_i hcond
  simp only [Bool.or_eq_true, decide_eq_true_eq, not_or] at hcond
  have hs' := Option.some.inj h
  clear h
  have hout : resampleAfter p env (ensureOutbuf s outhop) final inhop outhop (in0 s).readSpace
      (fillAfter p (ensureOutbuf s outhop).accumulatorFill outhop ((in0 s).readSpace == 0))
      ((List.range outhop).map fun i c => (env.dsp (ensureOutbuf s outhop).dsp
        ⟨inhop, (ensureOutbuf s outhop).prevInhop, (ensureOutbuf s outhop).prevOuthop, outhop, (ensureOutbuf s outhop).useReadahead,
          (in0 s).readSpace == 0, (ensureOutbuf s outhop).timeRatio, (ensureOutbuf s outhop).pitchScale, (ensureOutbuf s outhop).formantScale⟩
        ((ensureOutbuf s outhop).inbuf.map (sourceWindow p))).2 c i) = outOf p env final s inhop outhop := by
    rw [resampleAfter_congr (s := s) e4 ek.1.pitchScale]
    unfold outOf mixOf dspOf hopOf
    rw [e1, e2, e5, e6, e10, ek.1.useReadahead, ek.1.timeRatio, ek.1.pitchScale, ek.1.formantScale]
  have hdsp : (env.dsp (ensureOutbuf s outhop).dsp
        ⟨inhop, (ensureOutbuf s outhop).prevInhop, (ensureOutbuf s outhop).prevOuthop, outhop, (ensureOutbuf s outhop).useReadahead,
          (in0 s).readSpace == 0, (ensureOutbuf s outhop).timeRatio, (ensureOutbuf s outhop).pitchScale, (ensureOutbuf s outhop).formantScale⟩
        ((ensureOutbuf s outhop).inbuf.map (sourceWindow p))).1 = (dspOf p env s inhop outhop).1 := by
    unfold dspOf hopOf
    rw [e1, e5, e6, e10, ek.1.useReadahead, ek.1.timeRatio, ek.1.pitchScale, ek.1.formantScale]
  rw [hout, hdsp, e2] at hs'
  have hwc : ∀ t : State α σ ρ, t.totalTargetDuration = s.totalTargetDuration → t.totalOutputDuration = s.totalOutputDuration → ∀ k, writeCountFor p t k = writeCountFor p s k := by
    intro t t1 t2 k
    unfold writeCountFor
    rw [t1, t2]
  have hsome : (outOf p env final s inhop outhop).1.isSome = s.resampler.isSome := resampleAfter_isSome ..
  obtain ⟨k, km⟩ := ek
  have key : ∀ S : State α σ ρ, Kept s S → S.calculator = s.calculator → S.mixdownSize = s.mixdownSize → S.inbuf = s.inbuf →
      S.outbuf = (ensureOutbuf s outhop).outbuf → S.dsp = (dspOf p env s inhop outhop).1 →
      S.accumulatorFill = fillAfter p s.accumulatorFill outhop ((in0 s).readSpace == 0) →
      S.resampler = (outOf p env final s inhop outhop).1 → S.consumedInputDuration = s.consumedInputDuration →
      S.startSkip = s.startSkip → S.totalOutputDuration = s.totalOutputDuration →
      emit p S inhop outhop (in0 s).readSpace (outOf p env final s inhop outhop).2 = s' → RoundFacts p env final inhop outhop s s' := by
    intro S g1 g2 g3 g4 g5 g6 g7 g8 g9 g10 g11 hS
    obtain ⟨f1, f2, f3, f4, f5, f6, f7, f8, f9, f10, f11, f12, f13⟩ :=
      emit_facts p S inhop outhop (in0 s).readSpace (outOf p env final s inhop outhop).2
    rw [hS] at f1 f2 f3 f4 f5 f6 f7 f8 f9 f10 f11 f12 f13
    rw [hwc S g1.totalTargetDuration g11, g5, g10] at f5 f10 f11
    rw [g4] at f4
    rw [g9] at f9
    rw [g11] at f11
    exact ⟨g1.trans f1, f2.trans g2, f3.trans g3, by omega, f4, f5, f6.trans g6, f7.trans g7, f8.trans g8, f9, f10, f11, f12, f13⟩
  refine key _ ?_ ?_ ?_ ?_ ?_ ?_ ?_ ?_ ?_ ?_ ?_ hs'
  · exact ⟨k.1, k.2, k.3, k.4, k.5, k.6, k.7, k.8, k.9, k.10, k.11, hsome⟩
  · exact e3
  · exact km
  · exact e1
  · rfl
  · rfl
  · rfl
  · rfl
  · exact e8
  · exact e7
  · exact e9

/-- When a round is defined. -/
theorem consumeRound_some [Zero α] {p : Params} {env : Env α σ ρ} {final : Bool} {inhop outhop : Nat} {s : State α σ ρ}
    (h1 : cutsInside p s.useReadahead inhop = true) (h2 : outhop ≤ p.longestFftSize) (h3 : p.longestFftSize ≤ s.mixdownSize) :
    ∃ s', consumeRound p env final inhop outhop s = some s' := by
  have ek : (ensureOutbuf s outhop).useReadahead = s.useReadahead ∧ (ensureOutbuf s outhop).mixdownSize = s.mixdownSize := by
    unfold ensureOutbuf
    split <;> exact ⟨rfl, rfl⟩
  unfold consumeRound
  simp only
  rw [ek.1, ek.2, h1, if_neg (by simp; omega)]
  exact ⟨_, rfl⟩

/-! ## The loop of `consume` -/

variable [Zero α]

/-- The number of input samples, and then of accumulated output, that remain. -/
def measure (p : Params) (s : State α σ ρ) : Nat :=
  (in0 s).readSpace + (if (in0 s).readSpace = 0 then s.accumulatorFill else p.longestFftSize)

theorem windowSourceSize_pos (p : Params) : 0 < p.windowSourceSize ∧ p.longestFftSize ≤ p.windowSourceSize ∧ 0 < p.longestFftSize := by
  obtain ⟨_, _, _, _, _, h6, h7⟩ := sizes_eq p
  obtain ⟨_, _, _, _, hu, _⟩ := sizes p
  rw [h6, h7]
  split <;> omega

theorem ringBufferSize_ge (p : Params) : p.longestFftSize ≤ p.ringBufferSize ∧ 16 * p.windowSourceSize = p.ringBufferSize := by
  obtain ⟨h1, h2, _⟩ := windowSourceSize_pos p
  unfold Params.ringBufferSize
  omega

omit [Zero α] in
/-- The head of a list of buffers after skipping. -/
theorem head_skip (bufs : List (Fifo α)) (k : Nat) :
    ((bufs.map fun q : Fifo α => q.skip k).headD (⟨0, []⟩ : Fifo α)).readSpace = (bufs.headD ⟨0, []⟩).readSpace - k := by
  cases bufs with
  | nil => simp [Fifo.readSpace]
  | cons q qs => simp [Fifo.readSpace, Fifo.skip]

theorem RoundFacts.readSpace {p : Params} {env : Env α σ ρ} {final : Bool} {inhop outhop : Nat} {s s' : State α σ ρ}
    (h : RoundFacts p env final inhop outhop s s') : (in0 s').readSpace = (in0 s).readSpace - min inhop (in0 s).readSpace := by
  unfold in0
  rw [h.inbuf, head_skip]
  rfl

omit [Zero α] in
theorem stops_iff {p : Params} {final : Bool} {s : State α σ ρ} : stops p final s = true ↔
    (in0 s).readSpace < p.windowSourceSize ∧ (final = true → (in0 s).readSpace = 0 ∧ s.accumulatorFill = 0) := by
  unfold stops
  cases final <;> simp

theorem RoundFacts.measure_lt {p : Params} {env : Env α σ ρ} {final : Bool} {inhop outhop : Nat} {s s' : State α σ ρ}
    (h : RoundFacts p env final inhop outhop s s') (hi : 1 ≤ inhop) (ho : 1 ≤ outhop) (hs : ¬ stops p final s = true) :
    measure p s' < measure p s := by
  have hr := h.readSpace
  have hf := h.fill
  obtain ⟨w1, _, w3⟩ := windowSourceSize_pos p
  unfold measure
  rw [hr, hf]
  unfold fillAfter
  rw [stops_iff] at hs
  by_cases h0 : (in0 s).readSpace = 0
  · rw [h0] at hs ⊢
    have : s.accumulatorFill ≠ 0 := by
      intro hc
      exact hs ⟨w1, fun _ => ⟨rfl, hc⟩⟩
    simp only [Nat.min_zero, Nat.sub_self, beq_self_eq_true, if_true]
    split <;> omega
  · rw [if_neg h0]
    have : ((in0 s).readSpace == 0) = false := by simpa using h0
    rw [this]
    simp only [Bool.false_eq_true, if_false]
    split <;> omega

/-- Induction over the rounds of a loop that has ended. -/
theorem consumeLoop_induct {p : Params} {env : Env α σ ρ} {final : Bool} {inhop outhop : Nat} (P : State α σ ρ → Prop)
    (hP : ∀ s s', P s → ¬ stops p final s = true → RoundFacts p env final inhop outhop s s' → P s') :
    ∀ (fuel : Nat) (s s' : State α σ ρ), P s → consumeLoop p env final inhop outhop fuel s = some s' → P s' ∧ stops p final s' = true := by
  intro fuel
  induction fuel with
  | zero => intro s s' _ h; cases h
  | succ fuel ih =>
    intro s s' hs h
    unfold consumeLoop at h
    split at h
    · rename_i hst
      cases h
      exact ⟨hs, hst⟩
    · rename_i hst
      cases hr : consumeRound p env final inhop outhop s with
      | none => rw [hr] at h; cases h
      | some t =>
        rw [hr] at h
        exact ih t s' (hP s t hs hst (consumeRound_facts hr)) h

/-- The loop ends, with enough fuel, if no round goes wrong. -/
theorem consumeLoop_some {p : Params} {env : Env α σ ρ} {final : Bool} {inhop outhop : Nat} (hi : 1 ≤ inhop) (ho : 1 ≤ outhop)
    (hout : outhop ≤ p.longestFftSize) :
    ∀ (fuel : Nat) (s : State α σ ρ), cutsInside p s.useReadahead inhop = true → p.longestFftSize ≤ s.mixdownSize → measure p s < fuel →
      ∃ s', consumeLoop p env final inhop outhop fuel s = some s' := by
  intro fuel
  induction fuel with
  | zero => intro s _ _ h; omega
  | succ fuel ih =>
    intro s h1 h2 h3
    unfold consumeLoop
    split
    · exact ⟨s, rfl⟩
    · rename_i hst
      obtain ⟨t, ht⟩ := consumeRound_some (env := env) (final := final) h1 hout h2
      rw [ht]
      have f := consumeRound_facts ht
      exact ih t (by rw [f.kept.useReadahead]; exact h1) (by rw [f.mixdownSize]; exact h2)
        (by have := f.measure_lt hi ho hst; omega)

/-- The output hop for a call of `consume`. -/
def outhopOf (p : Params) (env : Env α σ ρ) (s : State α σ ρ) : Nat :=
  if (calculated p env s).2 < 1 then 1 else (calculated p env s).2.toNat

omit [Zero α] in
theorem outhopOf_pos (p : Params) (env : Env α σ ρ) (s : State α σ ρ) : 1 ≤ outhopOf p env s := by
  unfold outhopOf
  split <;> omega

theorem consume_eq (p : Params) (env : Env α σ ρ) (final : Bool) (s : State α σ ρ) :
    consume p env final s = consumeLoop p env final s.inhop (outhopOf p env s)
      ((in0 s).readSpace + p.longestFftSize + s.accumulatorFill + 2) { s with calculator := (calculated p env s).1 } := rfl

theorem consume_some {p : Params} {env : Env α σ ρ} {final : Bool} {s : State α σ ρ} (h : Hops p env s)
    (h2 : p.longestFftSize ≤ s.mixdownSize) (ho : outhopOf p env s ≤ p.longestFftSize) :
    ∃ s', consume p env final s = some s' := by
  rw [consume_eq]
  apply consumeLoop_some h.inhop_pos (outhopOf_pos p env s) ho
  · exact h.cuts
  · exact h2
  · unfold measure
    show (in0 s).readSpace + (if (in0 s).readSpace = 0 then s.accumulatorFill else p.longestFftSize) < _
    split <;> omega

/-- Induction over the rounds of `consume`. -/
theorem consume_induct {p : Params} {env : Env α σ ρ} {final : Bool} {s s' : State α σ ρ} (P : State α σ ρ → Prop)
    (hP : ∀ t t', P t → ¬ stops p final t = true → RoundFacts p env final s.inhop (outhopOf p env s) t t' → P t')
    (h0 : P { s with calculator := (calculated p env s).1 }) (h : consume p env final s = some s') :
    P s' ∧ stops p final s' = true :=
  consumeLoop_induct P hP _ _ _ h0 h

theorem consume_kept {p : Params} {env : Env α σ ρ} {final : Bool} {s s' : State α σ ρ} (h : consume p env final s = some s') :
    Kept s s' :=
  (consume_induct (fun t => Kept s t) (fun _ _ ht _ f => ht.trans f.kept)
    ⟨rfl, rfl, rfl, rfl, rfl, rfl, rfl, rfl, rfl, rfl, rfl, rfl⟩ h).1

/-- The buffers after a round. -/
theorem RoundFacts.bufs {p : Params} (hc : 0 < p.channels) {env : Env α σ ρ} {final : Bool} {inhop outhop : Nat} {s s' : State α σ ρ}
    (f : RoundFacts p env final inhop outhop s s') {icap ocap n m : Nat} (h : Bufs p s icap ocap n m) :
    ∃ ocap' m', ocap ≤ ocap' ∧ Bufs p s' icap ocap' (n - inhop) m' := by
  obtain ⟨oc, o1, o2, ob, _⟩ := ensureOutbuf_bufs hc h outhop
  have hn : (in0 s).readSpace = n := (in0_eq hc h.inU).2.1
  have hw := (ob.outU.writeAll ((outOf p env final s inhop outhop).2.take
    (writeCountFor p s (outOf p env final s inhop outhop).2.length))).skip (s.startSkip - s'.startSkip)
  rw [← f.outbuf] at hw
  have hi := h.inU.skip (min inhop n)
  rw [← hn, ← f.inbuf, hn] at hi
  have e : n - min inhop n = n - inhop := by omega
  rw [e] at hi
  have := h.inLe
  have := ob.outLe
  exact ⟨oc, _, o1, hi, hw, by omega, by omega, h.inCap, h.outCap.trans o1, by rw [f.mixdownSize]; exact h.mix⟩

theorem consume_bufs {p : Params} (hc : 0 < p.channels) {env : Env α σ ρ} {final : Bool} {s s' : State α σ ρ} {icap ocap n m : Nat}
    (h : consume p env final s = some s') (hb : Bufs p s icap ocap n m) :
    ∃ ocap' n' m', ocap ≤ ocap' ∧ n' ≤ n ∧ Bufs p s' icap ocap' n' m' ∧ n' < p.windowSourceSize ∧
      (final = true → n' = 0 ∧ s'.accumulatorFill = 0) := by
  obtain ⟨⟨oc, n', m', h1, h2, h3⟩, hst⟩ := consume_induct (fun t => ∃ ocap' n' m', ocap ≤ ocap' ∧ n' ≤ n ∧ Bufs p t icap ocap' n' m')
    (by
      rintro t t' ⟨oc, n', m', h1, h2, h3⟩ _ f
      obtain ⟨oc', m'', a, b⟩ := f.bufs hc h3
      exact ⟨oc', _, m'', by omega, by omega, b⟩)
    ⟨ocap, n, m, le_refl _, le_refl _, ⟨hb.1, hb.2, hb.3, hb.4, hb.5, hb.6, hb.7⟩⟩ h
  rw [stops_iff, (in0_eq hc h3.inU).2.1] at hst
  exact ⟨oc, n', m', h1, h2, h3, hst.1, hst.2⟩

end Verif.R3
