import Verif.R3Process
/-!
# The invariant of the R3 model over all histories
-/
namespace Verif.R3
open Verif.Round Verif.StretchCalc

variable {α σ ρ : Type}

/-! ## Hops -/

theorem calculateHop_hops (p : Params) (env : Env α σ ρ) (s : State α σ ρ) (t ps : Dbl) : Hops p env (calculateHop p env s t ps) :=
  ⟨(fixRatios_pos t ps).1, (fixRatios_pos t ps).2, rfl, rfl⟩

theorem Bufs.congr {p : Params} {s s' : State α σ ρ} {icap ocap n m : Nat} (h : Bufs p s icap ocap n m) (h1 : s'.inbuf = s.inbuf)
    (h2 : s'.outbuf = s.outbuf) (h3 : s'.mixdownSize = s.mixdownSize) : Bufs p s' icap ocap n m :=
  ⟨by rw [h1]; exact h.inU, by rw [h2]; exact h.outU, h.inLe, h.outLe, h.inCap, h.outCap, by rw [h3]; exact h.mix⟩

theorem Hops.congr {p : Params} {env : Env α σ ρ} {s s' : State α σ ρ} (h : Hops p env s) (h1 : s'.timeRatio = s.timeRatio)
    (h2 : s'.pitchScale = s.pitchScale) (h3 : s'.inhop = s.inhop) (h4 : s'.useReadahead = s.useReadahead) : Hops p env s' :=
  ⟨by rw [h1]; exact h.tpos, by rw [h2]; exact h.pspos, by rw [h1, h2, h3]; exact h.inhop, by rw [h3, h4]; exact h.readahead⟩

/-- Nothing has been done since creation or the last reset. -/
structure Idle (s : State α σ ρ) : Prop where
  fill : s.accumulatorFill = 0
  consumed : s.consumedInputDuration = 0
  total : s.totalOutputDuration = 0
  startSkip : s.startSkip = 0
  target : s.totalTargetDuration = 0

/-- The invariant. -/
structure Inv (p : Params) (env : Env α σ ρ) (s : State α σ ρ) : Prop where
  hops : Hops p env s
  bufs : ∃ icap ocap n m, Bufs p s icap ocap n m ∧ n < p.windowSourceSize ∧
    (s.mode = .justCreated ∨ s.mode = .studying → n = 0 ∧ m = 0) ∧ (s.mode = .finished → n = 0)
  idle : s.mode = .justCreated ∨ s.mode = .studying → Idle s
  drained : s.mode = .finished → s.accumulatorFill = 0

theorem create_inv (p : Params) (env : Env α σ ρ) (t ps : Dbl) : Inv p env (create p env t ps) := by
  obtain ⟨w1, _, _⟩ := windowSourceSize_pos p
  refine ⟨calculateHop_hops .., ⟨p.ringBufferSize, p.ringBufferSize, 0, 0, ?_, w1, fun _ => ⟨rfl, rfl⟩, fun _ => rfl⟩,
    fun _ => ⟨rfl, rfl, rfl, rfl, rfl⟩, fun _ => rfl⟩
  have hu : Uniform p.channels (List.replicate p.channels (⟨p.ringBufferSize, []⟩ : Fifo α)) p.ringBufferSize 0 := by
    refine ⟨by simp, ?_⟩
    intro q hq
    rw [(List.mem_replicate.mp hq).2]
    exact ⟨rfl, rfl⟩
  exact ⟨hu, hu, by omega, by omega, le_refl _, le_refl _, rfl⟩

/-- Setting ratios keeps the invariant. -/
theorem calculateHop_inv {p : Params} {env : Env α σ ρ} {s : State α σ ρ} (h : Inv p env s) (t ps : Dbl) : Inv p env (calculateHop p env s t ps) := by
  obtain ⟨ic, oc, n, m, hb, h1, h2, h3⟩ := h.bufs
  refine ⟨calculateHop_hops .., ⟨ic, oc, n, m, hb.congr rfl rfl rfl, h1, h2, h3⟩, fun hm => ?_, h.drained⟩
  obtain ⟨a, b, c, d, e⟩ := h.idle hm
  exact ⟨a, b, c, d, e⟩

theorem setTimeRatio_inv {p : Params} {env : Env α σ ρ} {s : State α σ ρ} (h : Inv p env s) (r : Dbl) : Inv p env (setTimeRatio p env s r) := by
  unfold setTimeRatio
  split
  · exact h
  · split
    · exact h
    · exact calculateHop_inv h _ _

theorem setPitchScale_inv {p : Params} {env : Env α σ ρ} {s : State α σ ρ} (h : Inv p env s) (r : Dbl) : Inv p env (setPitchScale p env s r) := by
  unfold setPitchScale
  split
  · exact h
  · split
    · exact h
    · exact calculateHop_inv h _ _

theorem setFormantScale_inv {p : Params} {env : Env α σ ρ} {s : State α σ ρ} (h : Inv p env s) (r : Dbl) : Inv p env (setFormantScale p s r) := by
  unfold setFormantScale
  split
  · exact h
  · obtain ⟨ic, oc, n, m, hb, h1, h2, h3⟩ := h.bufs
    refine ⟨h.hops.congr rfl rfl rfl rfl, ⟨ic, oc, n, m, hb.congr rfl rfl rfl, h1, h2, h3⟩, fun hm => ?_, h.drained⟩
    obtain ⟨a, b, c, d, e⟩ := h.idle hm
    exact ⟨a, b, c, d, e⟩

theorem setKeyFrameMap_inv {p : Params} {env : Env α σ ρ} {s : State α σ ρ} (h : Inv p env s) (k : List (Nat × Nat)) : Inv p env (setKeyFrameMap p s k) := by
  unfold setKeyFrameMap
  split
  · exact h
  · split
    · exact h
    · obtain ⟨ic, oc, n, m, hb, h1, h2, h3⟩ := h.bufs
      refine ⟨h.hops.congr rfl rfl rfl rfl, ⟨ic, oc, n, m, hb.congr rfl rfl rfl, h1, h2, h3⟩, fun hm => ?_, h.drained⟩
      obtain ⟨a, b, c, d, e⟩ := h.idle hm
      exact ⟨a, b, c, d, e⟩

theorem setExpectedInputDuration_inv {p : Params} {env : Env α σ ρ} {s : State α σ ρ} (h : Inv p env s) (k : Nat) : Inv p env (setExpectedInputDuration s k) := by
  obtain ⟨ic, oc, n, m, hb, h1, h2, h3⟩ := h.bufs
  refine ⟨h.hops.congr rfl rfl rfl rfl, ⟨ic, oc, n, m, hb.congr rfl rfl rfl, h1, h2, h3⟩, fun hm => ?_, h.drained⟩
  obtain ⟨a, b, c, d, e⟩ := h.idle hm
  exact ⟨a, b, c, d, e⟩

theorem study_inv {p : Params} {env : Env α σ ρ} {s : State α σ ρ} (h : Inv p env s) (k : Nat) : Inv p env (study p s k) := by
  unfold study
  split
  · exact h
  · split
    · exact h
    · rename_i hm
      have hm' : s.mode = .justCreated ∨ s.mode = .studying := by
        rcases hmm : s.mode <;> simp_all
      obtain ⟨ic, oc, n, m, hb, h1, h2, h3⟩ := h.bufs
      refine ⟨h.hops.congr rfl rfl rfl rfl, ⟨ic, oc, n, m, hb.congr rfl rfl rfl, h1, fun _ => h2 hm', fun hf => ?_⟩, fun _ => ?_, fun hf => ?_⟩
      · cases hf
      · obtain ⟨a, b, c, d, e⟩ := h.idle hm'
        exact ⟨a, b, c, d, e⟩
      · cases hf

theorem reset_inv {p : Params} {env : Env α σ ρ} {s : State α σ ρ} (h : Inv p env s) : Inv p env (reset p env s) := by
  obtain ⟨w1, _, _⟩ := windowSourceSize_pos p
  obtain ⟨ic, oc, n, m, hb, h1, h2, h3⟩ := h.bufs
  exact ⟨calculateHop_hops .., ⟨ic, oc, 0, 0, ⟨hb.inU.reset, hb.outU.reset, by omega, by omega, hb.inCap, hb.outCap, hb.mix⟩, w1,
    fun _ => ⟨rfl, rfl⟩, fun _ => rfl⟩, fun _ => ⟨rfl, rfl, rfl, rfl, rfl⟩, fun _ => rfl⟩

theorem setMaxProcessSize_inv {p : Params} (hc : 0 < p.channels) {env : Env α σ ρ} {s : State α σ ρ} (h : Inv p env s) (k : Nat) :
    Inv p env (setMaxProcessSize s k) := by
  obtain ⟨ic, oc, n, m, hb, h1, h2, h3⟩ := h.bufs
  unfold setMaxProcessSize
  simp only
  generalize (if k > overallMaxProcessSize then overallMaxProcessSize else k) = k
  obtain ⟨ic', _, _, b1, k1⟩ := ensureInbuf_bufs hc hb (k * 2)
  obtain ⟨oc', _, _, b2, k2⟩ := ensureOutbuf_bufs hc b1 (k * 8)
  have e1 := ensureInbuf_other s (k * 2)
  have e2 := ensureOutbuf_other (ensureInbuf s (k * 2)) (k * 8)
  have kk := k1.trans k2
  refine ⟨kk.hops h.hops, ⟨_, _, _, _, b2, h1, by rw [kk.mode]; exact h2, by rw [kk.mode]; exact h3⟩, ?_, ?_⟩
  · rw [kk.mode]
    intro hm
    obtain ⟨a, b, c, d, e⟩ := h.idle hm
    obtain ⟨f1, f2, f3, f4, f5, f6, f7, f8, f9, f10⟩ := e1
    obtain ⟨g1, g2, g3, g4, g5, g6, g7, g8, g9, g10⟩ := e2
    exact ⟨by rw [g2, f2]; exact a, by rw [g8, f8]; exact b, by rw [g9, f9]; exact c, by rw [g7, f7]; exact d,
      by rw [kk.totalTargetDuration]; exact e⟩
  · rw [kk.mode]
    intro hm
    rw [e2.2.1, e1.2.1]
    exact h.drained hm

/-! ## Retrieving -/

/-- All channels being level, reading delivers the same number from each. -/
theorem readChannels_uniform {c : Nat} {bufs : List (Fifo α)} {cap m : Nat} (h : Uniform c bufs cap m) (got : Nat) :
    (readChannels bufs got).1 = bufs.map (fun q => q.skip got) ∧
      (readChannels bufs got).2.1 = bufs.map (fun q => q.peek got) ∧
      (0 < c → (readChannels bufs got).2.2 = min got m) := by
  have key : ∀ (bufs : List (Fifo α)) (g : Nat), g ≤ m → (∀ q ∈ bufs, q.data.length = m) →
      (readChannels bufs g).1 = bufs.map (fun q => q.skip g) ∧ (readChannels bufs g).2.1 = bufs.map (fun q => q.peek g) ∧
        (readChannels bufs g).2.2 = g := by
    intro bufs
    induction bufs with
    | nil => intro g _ _; exact ⟨rfl, rfl, rfl⟩
    | cons q qs ih =>
      intro g hg hq
      have hl : (q.peek g).length = g := by
        have := hq q (by simp)
        simp only [Fifo.peek, List.length_take]
        omega
      obtain ⟨i1, i2, i3⟩ := ih g hg (fun r hr => hq r (by simp [hr]))
      unfold readChannels
      simp only [hl, lt_irrefl, if_false, List.map_cons]
      exact ⟨by rw [i1], by rw [i2], i3⟩
  obtain ⟨hlen, hall⟩ := h
  by_cases hg : got ≤ m
  · obtain ⟨k1, k2, k3⟩ := key bufs got hg (fun q hq => (hall q hq).2)
    exact ⟨k1, k2, fun _ => by rw [k3]; omega⟩
  · cases bufs with
    | nil =>
      refine ⟨rfl, rfl, ?_⟩
      intro h0
      simp only [List.length_nil] at hlen
      omega
    | cons q qs =>
      have hqm := (hall q (by simp)).2
      have hl : (q.peek got).length = m := by
        simp only [Fifo.peek, List.length_take]
        omega
      obtain ⟨i1, i2, i3⟩ := key qs m (le_refl _) (fun r hr => (hall r (by simp [hr])).2)
      have e1 : qs.map (fun q => q.skip m) = qs.map (fun q => q.skip got) := by
        apply List.map_congr_left
        intro r hr
        have := (hall r (by simp [hr])).2
        simp only [Fifo.skip]
        rw [List.drop_eq_nil_of_le (by omega), List.drop_eq_nil_of_le (by omega)]
      have e2 : qs.map (fun q => q.peek m) = qs.map (fun q => q.peek got) := by
        apply List.map_congr_left
        intro r hr
        have := (hall r (by simp [hr])).2
        simp only [Fifo.peek]
        rw [List.take_of_length_le (by omega), List.take_of_length_le (by omega)]
      unfold readChannels
      simp only [hl]
      rw [if_pos (by omega)]
      simp only [List.map_cons]
      refine ⟨by rw [i1, e1], by rw [i2, e2], fun _ => by rw [i3]; omega⟩

variable [Zero α] [Add α] [Sub α]

omit [Zero α] in
theorem retrieve_inv {p : Params} {env : Env α σ ρ} {s : State α σ ρ} (h : Inv p env s) (k : Nat) : Inv p env (retrieve p s k).1 := by
  obtain ⟨ic, oc, n, m, hb, h1, h2, h3⟩ := h.bufs
  obtain ⟨r1, _, _⟩ := readChannels_uniform hb.outU k
  have e : (retrieve p s k).1 = { s with outbuf := s.outbuf.map fun q => q.skip k } := by
    unfold retrieve
    rw [← r1]
  rw [e]
  have := hb.outLe
  refine ⟨h.hops.congr rfl rfl rfl rfl, ⟨ic, oc, n, m - k, ⟨hb.inU, hb.outU.skip k, hb.inLe, by omega, hb.inCap, hb.outCap, hb.mix⟩, h1,
    fun hm => ⟨(h2 hm).1, by have := (h2 hm).2; omega⟩, h3⟩, fun hm => ?_, h.drained⟩
  obtain ⟨a, b, c, d, e⟩ := h.idle hm
  exact ⟨a, b, c, d, e⟩

/-! ## Processing -/

omit [Zero α] [Add α] [Sub α] in
theorem updateRatioFromMap_facts (p : Params) (env : Env α σ ρ) {s : State α σ ρ} (h : Hops p env s) :
    Hops p env (updateRatioFromMap p env s) ∧ (updateRatioFromMap p env s).inbuf = s.inbuf ∧
      (updateRatioFromMap p env s).outbuf = s.outbuf ∧ (updateRatioFromMap p env s).mixdownSize = s.mixdownSize ∧
      (updateRatioFromMap p env s).mode = s.mode ∧ (updateRatioFromMap p env s).accumulatorFill = s.accumulatorFill ∧
      (updateRatioFromMap p env s).totalTargetDuration = s.totalTargetDuration ∧
      (updateRatioFromMap p env s).totalOutputDuration = s.totalOutputDuration ∧
      (updateRatioFromMap p env s).startSkip = s.startSkip ∧ (updateRatioFromMap p env s).resampler = s.resampler ∧
      (updateRatioFromMap p env s).dsp = s.dsp ∧ (updateRatioFromMap p env s).consumedInputDuration = s.consumedInputDuration ∧
      (updateRatioFromMap p env s).calculator = s.calculator := by
  have key : ∀ (t : Dbl) (k : Nat), Hops p env { calculateHop p env s t (.fin s.pitchScale) with lastKeyFrameSurpassed := k } :=
    fun t k => (calculateHop_hops p env s t (.fin s.pitchScale)).congr rfl rfl rfl rfl
  unfold updateRatioFromMap
  split
  · exact ⟨h, rfl, rfl, rfl, rfl, rfl, rfl, rfl, rfl, rfl, rfl, rfl, rfl⟩
  · split
    · exact ⟨key _ _, rfl, rfl, rfl, rfl, rfl, rfl, rfl, rfl, rfl, rfl, rfl, rfl⟩
    · split
      · exact ⟨h, rfl, rfl, rfl, rfl, rfl, rfl, rfl, rfl, rfl, rfl, rfl, rfl⟩
      · split
        · exact ⟨key _ _, rfl, rfl, rfl, rfl, rfl, rfl, rfl, rfl, rfl, rfl, rfl, rfl⟩
        · exact ⟨h, rfl, rfl, rfl, rfl, rfl, rfl, rfl, rfl, rfl, rfl, rfl, rfl⟩

omit [Add α] [Sub α] in
theorem padStart_facts {p : Params} (hc : 0 < p.channels) {env : Env α σ ρ} {s : State α σ ρ} (h : Hops p env s) {icap ocap n m : Nat}
    (hb : Bufs p s icap ocap n m) (hn : n < p.windowSourceSize) (h0 : s.mode = .justCreated ∨ s.mode = .studying → n = 0) :
    Hops p env (padStart p env s) ∧ (∃ icap' n', Bufs p (padStart p env s) icap' ocap n' m ∧ n' < p.windowSourceSize) ∧
      (padStart p env s).mode = s.mode ∧ (padStart p env s).outbuf = s.outbuf ∧ (padStart p env s).accumulatorFill = s.accumulatorFill ∧
      (padStart p env s).totalTargetDuration = s.totalTargetDuration ∧ (padStart p env s).totalOutputDuration = s.totalOutputDuration ∧
      (padStart p env s).pitchScale = s.pitchScale := by
  obtain ⟨w1, _, _⟩ := windowSourceSize_pos p
  unfold padStart
  split
  · rename_i hm
    simp only
    have hn0 := h0 hm
    have hb' : Bufs p { s with resampler := if s.pitchScale ≠ 1 ∧ s.resampler.isNone then some env.rsInit else s.resampler } icap ocap n m :=
      hb.congr rfl rfl rfl
    obtain ⟨ic, i1, i2, be, ke⟩ := ensureInbuf_bufs hc hb' (p.windowSourceSize / 2)
    have eo := ensureInbuf_other { s with resampler := if s.pitchScale ≠ 1 ∧ s.resampler.isNone then some env.rsInit else s.resampler }
      (p.windowSourceSize / 2)
    obtain ⟨o1, o2, _, _, _, _, _, _, o9, _⟩ := eo
    generalize ensureInbuf _ _ = e at *
    refine ⟨⟨?_, ?_, ?_, ?_⟩, ⟨ic, n + p.windowSourceSize / 2, ?_, by omega⟩, ?_, ?_, ?_, ?_, ?_, ?_⟩
    · show 0 < e.timeRatio
      rw [ke.timeRatio]; exact h.tpos
    · show 0 < e.pitchScale
      rw [ke.pitchScale]; exact h.pspos
    · show e.inhop = inhopFor p env.curve (e.timeRatio * e.pitchScale)
      rw [ke.inhop, ke.timeRatio, ke.pitchScale]; exact h.inhop
    · show e.useReadahead = decide (e.inhop < _)
      rw [ke.useReadahead, ke.inhop]; exact h.readahead
    · exact ⟨be.inU.zero _ i2, be.outU, by omega, be.outLe, be.inCap, be.outCap, be.mix⟩
    · exact ke.mode
    · exact o1
    · exact o2
    · exact ke.totalTargetDuration
    · exact o9
    · exact ke.pitchScale
  · exact ⟨h, ⟨icap, n, hb, hn⟩, rfl, rfl, rfl, rfl, rfl, rfl⟩

omit [Add α] [Sub α] in
theorem prologue_facts {p : Params} (hc : 0 < p.channels) {env : Env α σ ρ} {s : State α σ ρ} (h : Hops p env s) {icap ocap n m : Nat}
    (hb : Bufs p s icap ocap n m) (hn : n < p.windowSourceSize) (h0 : s.mode = .justCreated ∨ s.mode = .studying → n = 0) :
    Hops p env (prologue p env s) ∧ (∃ icap' n', Bufs p (prologue p env s) icap' ocap n' m ∧ n' < p.windowSourceSize) ∧
      (prologue p env s).mode = s.mode ∧ (prologue p env s).outbuf = s.outbuf ∧ (prologue p env s).accumulatorFill = s.accumulatorFill := by
  unfold prologue
  split
  · exact ⟨h, ⟨icap, n, hb, hn⟩, rfl, rfl, rfl⟩
  · obtain ⟨u1, u2, u3, u4, u5, u6, _⟩ := updateRatioFromMap_facts p env (s := { s with totalTargetDuration := targetFor s }) (h.congr rfl rfl rfl rfl)
    have ub : Bufs p (updateRatioFromMap p env { s with totalTargetDuration := targetFor s }) icap ocap n m := hb.congr u2 u3 u4
    obtain ⟨q1, q2, q3, q4, q5, _⟩ := padStart_facts hc u1 ub hn (by rw [u5]; exact h0)
    exact ⟨q1, q2, q3.trans u5, q4.trans u3, q5.trans u6⟩

theorem processInput_bufs {p : Params} (hc : 0 < p.channels) {env : Env α σ ρ} {s s' : State α σ ρ} {input : List (Frame α)} {final : Bool}
    (h : processInput p env s input final = some s') {icap ocap n m : Nat} (hb : Bufs p s icap ocap n m) (hn : n < p.windowSourceSize) :
    Kept s s' ∧ ∃ icap' ocap' n' m', Bufs p s' icap' ocap' n' m' ∧ n' < p.windowSourceSize ∧ (final = true → n' = 0 ∧ s'.accumulatorFill = 0) := by
  unfold processInput at h
  split at h
  · split at h
    · obtain ⟨oc, n', m', _, _, b, h1, h2⟩ := consume_bufs hc h hb
      exact ⟨consume_kept h, _, _, _, _, b, h1, fun _ => h2 rfl⟩
    · rename_i hf
      cases h
      exact ⟨Kept.refl s, _, _, _, _, hb, hn, fun hf' => absurd hf' hf⟩
  · rename_i hl
    exact processLoop_bufs hc h hb hn (by omega)

theorem process_inv {p : Params} (hc : 0 < p.channels) {env : Env α σ ρ} {s s' : State α σ ρ} {input : List (Frame α)} {final : Bool}
    (hi : Inv p env s) (h : process p env s input final = some s') : Inv p env s' := by
  unfold process at h
  split at h
  · cases h; exact hi
  · rename_i hm
    obtain ⟨ic, oc, n, m, hb, h1, h2, h3⟩ := hi.bufs
    obtain ⟨q1, ⟨ic', n', q2, q3⟩, _⟩ := prologue_facts hc hi.hops hb h1 (fun hm => (h2 hm).1)
    rw [Option.map_eq_some_iff] at h
    obtain ⟨t, ht, rfl⟩ := h
    obtain ⟨k, ic2, oc2, n2, m2, b2, c1, c2⟩ := processInput_bufs hc ht q2 q3
    refine ⟨(k.hops q1).congr rfl rfl rfl rfl, ⟨_, _, _, _, b2.congr rfl rfl rfl, c1, ?_, ?_⟩, ?_, ?_⟩
    · intro hm; cases final <;> simp at hm
    · intro hm
      cases final with
      | false => simp at hm
      | true => exact (c2 rfl).1
    · intro hm; cases final <;> simp at hm
    · intro hm
      cases final with
      | false => simp at hm
      | true => exact (c2 rfl).2

theorem process_some {p : Params} (hc : 0 < p.channels) {env : Env α σ ρ} {s : State α σ ρ} {input : List (Frame α)} {final : Bool}
    (hi : Inv p env s) (hfit : OuthopFits p env (prologue p env s)) : ∃ s', process p env s input final = some s' := by
  unfold process
  split
  · exact ⟨_, rfl⟩
  · obtain ⟨ic, oc, n, m, hb, h1, h2, h3⟩ := hi.bufs
    obtain ⟨q1, ⟨ic', n', q2, q3⟩, _⟩ := prologue_facts hc hi.hops hb h1 (fun hm => (h2 hm).1)
    have : ∃ t, processInput p env (prologue p env s) (input.take overallMaxProcessSize) final = some t := by
      unfold processInput
      split
      · split
        · exact consume_some q1 (by rw [q2.mix]; exact (ringBufferSize_ge p).1.trans q2.inCap) (hfit _ (Kept.refl _))
        · exact ⟨_, rfl⟩
      · exact processLoop_some hc _ _ _ q1 hfit ⟨_, _, _, _, q2⟩ (le_refl _)
    obtain ⟨t, ht⟩ := this
    rw [ht]
    exact ⟨_, rfl⟩

/-! ## Histories -/

theorem call_inv {p : Params} (hc : 0 < p.channels) {env : Env α σ ρ} {s : State α σ ρ} (hi : Inv p env s) {c : Call α}
    {r : State α σ ρ × List (List α)} (h : call p env s c = some r) : Inv p env r.1 := by
  cases c with
  | setTimeRatio x => cases h; exact setTimeRatio_inv hi x
  | setPitchScale x => cases h; exact setPitchScale_inv hi x
  | setFormantScale x => cases h; exact setFormantScale_inv hi x
  | setKeyFrameMap x => cases h; exact setKeyFrameMap_inv hi x
  | setExpectedInputDuration x => cases h; exact setExpectedInputDuration_inv hi x
  | setMaxProcessSize x => cases h; exact setMaxProcessSize_inv hc hi x
  | study x => cases h; exact study_inv hi x
  | process x f =>
    unfold call at h
    rw [Option.map_eq_some_iff] at h
    obtain ⟨t, ht, rfl⟩ := h
    exact process_inv hc hi ht
  | retrieve k => cases h; exact retrieve_inv hi k
  | reset => cases h; exact reset_inv hi

theorem run_cons {p : Params} {env : Env α σ ρ} {s : State α σ ρ} {c : Call α} {cs : List (Call α)} {r : State α σ ρ × List (List (List α))}
    (h : run p env s (c :: cs) = some r) : ∃ a b, call p env s c = some a ∧ run p env a.1 cs = some b ∧ r = (b.1, a.2 :: b.2) := by
  unfold run at h
  simp only [Option.bind_eq_bind, Option.pure_def, Option.bind_eq_some_iff] at h
  obtain ⟨a, ha, b, hb, hr⟩ := h
  exact ⟨a, b, ha, hb, (Option.some.inj hr).symm⟩

theorem run_inv {p : Params} (hc : 0 < p.channels) {env : Env α σ ρ} : ∀ (cs : List (Call α)) (s : State α σ ρ) (r : State α σ ρ × List (List (List α))),
    Inv p env s → run p env s cs = some r → Inv p env r.1 := by
  intro cs
  induction cs with
  | nil => intro s r hi h; cases h; exact hi
  | cons c cs ih =>
    intro s r hi h
    obtain ⟨a, b, ha, hb, rfl⟩ := run_cons h
    exact ih a.1 b (call_inv hc hi ha) hb

theorem run_append {p : Params} {env : Env α σ ρ} : ∀ (cs ds : List (Call α)) (s : State α σ ρ) (r : State α σ ρ × List (List (List α))),
    run p env s (cs ++ ds) = some r ↔ ∃ a b, run p env s cs = some a ∧ run p env a.1 ds = some b ∧ r = (b.1, a.2 ++ b.2) := by
  intro cs
  induction cs with
  | nil =>
    intro ds s r
    constructor
    · intro h; exact ⟨(s, []), r, rfl, h, rfl⟩
    · rintro ⟨a, b, ha, hb, rfl⟩
      cases ha
      simpa using hb
  | cons c cs ih =>
    intro ds s r
    constructor
    · intro h
      obtain ⟨a, b, ha, hb, rfl⟩ := run_cons h
      obtain ⟨x, y, hx, hy, rfl⟩ := (ih ds a.1 b).mp hb
      refine ⟨(x.1, a.2 :: x.2), y, ?_, hy, rfl⟩
      unfold run
      simp only [Option.bind_eq_bind, Option.pure_def, ha, Option.bind_some, hx]
    · rintro ⟨a, b, ha, hb, rfl⟩
      obtain ⟨x, y, hx, hy, rfl⟩ := run_cons ha
      have := (ih ds x.1 (b.1, y.2 ++ b.2)).mpr ⟨y, b, hy, hb, rfl⟩
      show run p env s (c :: (cs ++ ds)) = _
      unfold run
      simp only [Option.bind_eq_bind, Option.pure_def, hx, Option.bind_some, this]
      rfl

end Verif.R3
