import Verif.R2OfflineRun
/-!
# The faster engine offline: before processing
-/
namespace Verif.R2
open Verif.Round Verif.StretchCalc

variable {α σ ρ κ : Type}

/-- The buffers of a channel are long enough: for two windows, and for one. -/
structure Roomy (z : Sizes) (cd : Chan α σ ρ) : Prop where
  inbuf : 2 * z.window ≤ cd.inbuf.cap
  outbuf : z.window ≤ cd.outbuf.cap

/-- A channel with half a window of zeros in it, and nothing else. -/
structure Clean [Zero α] (z : Sizes) (cd : Chan α σ ρ) : Prop where
  inbuf : cd.inbuf.data = List.replicate (z.window / 2) 0
  outbuf : cd.outbuf.data = []
  fill : cd.accumulatorFill = 0
  chunkCount : cd.chunkCount = 0
  inCount : cd.inCount = 0
  inputSize : cd.inputSize = none
  outCount : cd.outCount = 0
  draining : cd.draining = false
  complete : cd.outputComplete = false

/-- Nothing has been processed. -/
structure Ready [Zero α] (p : Params) (s : State α σ ρ κ) : Prop where
  mode : s.mode = .justCreated ∨ s.mode = .studying
  length : s.chans.length = p.channels
  roomy : ∀ cd ∈ s.chans, Roomy s.sizes cd
  clean : s.mode = .justCreated → ∀ cd ∈ s.chans, Clean s.sizes cd

section
variable [Zero α] {p : Params} {env : Env α σ ρ κ}

theorem prefill_clean {z : Sizes} {cd : Chan α σ ρ} (h : Roomy z cd) : Clean z (Chan.prefill env z cd) ∧ Roomy z (Chan.prefill env z cd) := by
  refine ⟨⟨?_, rfl, rfl, rfl, rfl, rfl, rfl, rfl, rfl⟩, ⟨h.inbuf, h.outbuf⟩⟩
  have := h.inbuf
  unfold Chan.prefill Chan.reset Fifo.zero Fifo.reset Fifo.write Fifo.writeSpace
  simp only [List.nil_append, List.length_nil]
  exact List.take_of_length_le (by simp; omega)

omit [Zero α] in
theorem resize_fields {s t : State α σ ρ κ} {a b : R3.Dbl} (h : resize p s a b = some t) : t.mode = s.mode ∧ t.chans = s.chans := by
  unfold resize at h
  obtain ⟨z, _, h⟩ := Option.bind_eq_some_iff.mp h
  cases h
  exact ⟨rfl, rfl⟩

omit [Zero α] in
theorem withResampler_roomy {z : Sizes} {cd : Chan α σ ρ} (h : Roomy z cd) : Roomy z (Chan.withResampler p env z cd) := by
  unfold Chan.withResampler
  split
  · exact ⟨h.inbuf, h.outbuf⟩
  · exact h

theorem configure_clean (hp : p.realTime = false) {first : Bool} {s t : State α σ ρ κ} {a b : R3.Dbl}
    (hs : first = false → s.chans.length = p.channels ∧ ∀ cd ∈ s.chans, Roomy s.sizes cd) (h : configure p env first s a b = some t) :
    t.chans.length = p.channels ∧ t.mode = s.mode ∧ ∀ cd ∈ t.chans, Clean t.sizes cd ∧ Roomy t.sizes cd := by
  unfold configure at h
  obtain ⟨u, hu, h⟩ := Option.bind_eq_some_iff.mp h
  obtain ⟨fresh, hfresh, h⟩ := Option.bind_eq_some_iff.mp h
  obtain ⟨u1, u2⟩ := resize_fields hu
  have hfr : Roomy u.sizes fresh := by
    unfold newChan at hfresh
    obtain ⟨base, _, hfresh⟩ := Option.bind_eq_some_iff.mp hfresh
    cases hfresh
    exact ⟨by simp only; omega, by simp only; omega⟩
  have hl : ∃ l : List (Chan α σ ρ), l = (if (first || decide (u.sizes.window ≠ s.sizes.window) || decide (u.outbufSize ≠ s.outbufSize)) = true
      then List.replicate p.channels fresh else s.chans) ∧ l.length = p.channels ∧ ∀ cd ∈ l, Roomy u.sizes cd := by
    refine ⟨_, rfl, ?_⟩
    split
    · refine ⟨by simp, fun cd hcd => ?_⟩
      rw [List.eq_of_mem_replicate hcd]
      exact hfr
    · rename_i hc
      simp only [Bool.or_eq_true, not_or, decide_eq_true_eq, ne_eq, not_not, Bool.not_eq_true] at hc
      obtain ⟨a1, a2⟩ := hs hc.1.1
      refine ⟨a1, fun cd hcd => ?_⟩
      have := a2 cd hcd
      exact ⟨by rw [hc.1.2]; exact this.inbuf, by rw [hc.1.2]; exact this.outbuf⟩
  obtain ⟨l, hle, l1, l2⟩ := hl
  simp only [← hle, hp, Bool.false_eq_true, if_false] at h
  cases h
  have key : ∀ cd ∈ (l.map (Chan.withResampler p env u.sizes)).map (Chan.prefill env u.sizes), Clean u.sizes cd ∧ Roomy u.sizes cd := by
    intro cd hcd
    obtain ⟨d, hd, e⟩ := List.mem_map.mp hcd
    obtain ⟨d', hd', e'⟩ := List.mem_map.mp hd
    rw [← e]
    apply prefill_clean
    rw [← e']
    exact withResampler_roomy (l2 d' hd')
  exact ⟨by simp [l1], u1, key⟩

theorem configure_ready (hp : p.realTime = false) {first : Bool} {s t : State α σ ρ κ} {a b : R3.Dbl} (hm : s.mode = .justCreated ∨ s.mode = .studying)
    (hs : first = false → s.chans.length = p.channels ∧ ∀ cd ∈ s.chans, Roomy s.sizes cd) (h : configure p env first s a b = some t) :
    Ready p t ∧ t.mode = s.mode := by
  obtain ⟨a1, a2, a3⟩ := configure_clean hp hs h
  exact ⟨⟨by rw [a2]; exact hm, a1, fun cd hcd => (a3 cd hcd).2, fun _ cd hcd => (a3 cd hcd).1⟩, a2⟩

theorem create_ready (hp : p.realTime = false) {a b : R3.Dbl} {s : State α σ ρ κ} (h : create p env a b = some s) : Ready p s :=
  (configure_ready hp (Or.inl rfl) (fun e => by cases e) h).1

omit [Zero α] in
theorem calculateStretch_fields {s t : State α σ ρ κ} (h : calculateStretch s = some t) : t.sizes = s.sizes ∧ t.mode = s.mode ∧ t.chans = s.chans := by
  unfold calculateStretch at h
  obtain ⟨incs, _, h⟩ := Option.bind_eq_some_iff.mp h
  cases h
  exact ⟨rfl, rfl, rfl⟩

omit [Zero α] in
/-- What studying leaves as it was. -/
theorem studyLoop_fields (final : Bool) : ∀ (fuel : Nat) (s : State α σ ρ κ) (cd : Chan α σ ρ) (r : State α σ ρ κ × Chan α σ ρ),
    studyLoop env final fuel s cd = some r → r.1.mode = s.mode ∧ r.1.sizes = s.sizes ∧ r.2.inbuf.cap = cd.inbuf.cap ∧ r.2.outbuf = cd.outbuf := by
  intro fuel
  induction fuel with
  | zero => intro s cd r h; cases h
  | succ fuel ih =>
    intro s cd r h
    unfold studyLoop at h
    split at h
    · obtain ⟨a1, a2, a3, a4⟩ := ih _ _ _ h
      exact ⟨a1, a2, a3, a4⟩
    · cases h; exact ⟨rfl, rfl, rfl, rfl⟩

omit [Zero α] in
theorem studyInput_fields (final : Bool) : ∀ (fuel : Nat) (s : State α σ ρ κ) (cd : Chan α σ ρ) (rest : List α) (r : State α σ ρ κ × Chan α σ ρ),
    studyInput env final fuel s cd rest = some r → r.1.mode = s.mode ∧ r.1.sizes = s.sizes ∧ r.2.inbuf.cap = cd.inbuf.cap ∧ r.2.outbuf = cd.outbuf := by
  intro fuel
  induction fuel with
  | zero =>
    intro s cd rest r h
    unfold studyInput at h
    split at h
    · cases h; exact ⟨rfl, rfl, rfl, rfl⟩
    · cases h
  | succ fuel ih =>
    intro s cd rest r h
    unfold studyInput at h
    split at h
    · cases h; exact ⟨rfl, rfl, rfl, rfl⟩
    · obtain ⟨y, hy, h⟩ := Option.bind_eq_some_iff.mp h
      obtain ⟨a1, a2, a3, a4⟩ := studyLoop_fields final _ _ _ _ hy
      obtain ⟨b1, b2, b3, b4⟩ := ih _ _ _ _ h
      exact ⟨b1.trans a1, b2.trans a2, b3.trans a3, b4.trans a4⟩

theorem study_ready (hp : p.realTime = false) {s t : State α σ ρ κ} (h0 : Ready p s) {input : List (Frame α)} {final : Bool}
    (h : study p env s input final = some t) : Ready p t := by
  unfold study at h
  simp only [hp, Bool.false_eq_true, if_false] at h
  split at h
  · cases h; exact h0
  · split at h
    · cases h
    · rename_i cd cds hc
      obtain ⟨y, hy, h⟩ := Option.bind_eq_some_iff.mp h
      cases h
      obtain ⟨a1, a2, a3, a4⟩ := studyInput_fields final _ _ _ _ _ hy
      have hsz : (studyEnd final y.1 y.2).sizes = s.sizes := by
        unfold studyEnd
        split
        · exact a2
        · exact a2
      have hmode : (studyEnd final y.1 y.2).mode = .studying := by
        unfold studyEnd
        split
        · exact a1
        · exact a1
      have hlen := h0.length
      rw [hc] at hlen
      refine ⟨Or.inr hmode, by simpa using hlen, ?_, fun e => ?_⟩
      · intro d hd
        simp only
        rw [hsz]
        rcases List.mem_cons.mp hd with rfl | hd
        · have := h0.roomy cd (by rw [hc]; exact List.mem_cons_self ..)
          exact ⟨by rw [a3]; exact this.inbuf, by rw [a4]; exact this.outbuf⟩
        · exact h0.roomy d (by rw [hc]; exact List.mem_cons_of_mem _ hd)
      · rw [hmode] at e
        cases e

variable [Add α] [Sub α]

/-- The calls that may be made before processing begins. -/
def Preparing : Call α → Prop
  | .setTimeRatio _ => True
  | .setPitchScale _ => True
  | .setExpectedInputDuration _ => True
  | .setMaxProcessSize _ => True
  | .setKeyFrameMap _ => True
  | .study _ _ => True
  | _ => False

/-- The state of the synthesis of each channel at the beginning. -/
def initial (env : Env α σ ρ κ) (s : State α σ ρ κ) (c : Nat) : Syn α σ :=
  match s.chans[c]? with
  | some cd => cd.syn
  | none => ⟨env.specInit, fun _ => 0, 0, 0⟩

omit [Add α] [Sub α] in
/-- After the prologue of the first `process`. -/
theorem prologue_clean {s t : State α σ ρ κ} (h0 : Ready p s) (h : prologue env s = some t) :
    t.sizes = s.sizes ∧ t.mode = .processing ∧ t.chans.length = p.channels ∧ ∀ cd ∈ t.chans, Clean t.sizes cd ∧ Roomy t.sizes cd := by
  unfold prologue at h
  rcases h0.mode with hm | hm
  · rw [hm] at h
    cases h
    exact ⟨rfl, rfl, h0.length, fun cd hcd => ⟨h0.clean hm cd hcd, h0.roomy cd hcd⟩⟩
  · rw [hm] at h
    obtain ⟨u, hu, e⟩ := Option.map_eq_some_iff.mp h
    obtain ⟨u1, u2, u3⟩ := calculateStretch_fields hu
    rw [← e]
    refine ⟨u1, rfl, by simp [u3, h0.length], ?_⟩
    intro cd hcd
    obtain ⟨d, hd, e⟩ := List.mem_map.mp hcd
    rw [u3] at hd
    rw [← e]
    apply prefill_clean
    rw [u1]
    exact h0.roomy d hd

theorem flow_start {s t : State α σ ρ κ} (h0 : Ready p s) (h : prologue env s = some t) (hp : Fine p t.sizes t.outputIncrements) :
    Flow p env t.sizes t.outputIncrements (initial env t) (fun _ => []) [] false t ∧
      ∀ c, (initial env t c).count = 0 ∧ (initial env t c).fill ≤ t.sizes.window := by
  obtain ⟨a1, a2, a3, a4⟩ := prologue_clean h0 h
  have hinc := hp.inc
  have hwin := hp.window
  refine ⟨⟨rfl, rfl, a2, a3, ?_⟩, ?_⟩
  · intro c cd hc
    obtain ⟨b1, b2⟩ := a4 cd (List.mem_of_getElem? hc)
    have hX : padded t.sizes ([] : List α) = List.replicate (t.sizes.window / 2) 0 := by unfold padded; simp
    have hi : initial env t c = cd.syn := by unfold initial; rw [hc]
    unfold Between
    simp only [Bool.false_eq_true, if_false, List.map_nil, hX]
    refine ⟨0, ⟨?_, by simp, ?_, ?_, ?_, b1.inputSize, b1.draining, b1.complete, ⟨?_, b2.outbuf⟩, ?_, fun i hi => absurd hi (by omega)⟩, ?_, by have := b2.inbuf; omega⟩
    · rw [b1.inbuf]; simp
    · rw [hi]; rfl
    · rw [b1.outbuf]; simp [synAt]
    · rw [b1.outCount]; rfl
    · rw [b1.outbuf]; simp
    · rw [b1.inCount]; simp
    · rw [b1.inbuf]; simp; omega
  · intro c
    unfold initial
    split
    · rename_i cd hc
      obtain ⟨b1, b2⟩ := a4 cd (List.mem_of_getElem? hc)
      unfold Chan.syn
      simp only
      rw [b1.chunkCount, b1.fill]
      exact ⟨rfl, Nat.zero_le _⟩
    · exact ⟨rfl, Nat.zero_le _⟩

/-- The first `process` begins with the prologue. -/
theorem process_prologue {s t : State α σ ρ κ} (h0 : Ready p s) (h : prologue env s = some t) (input : List (Frame α)) (final : Bool) :
    process p env s input final = process p env t input final := by
  have hm := (prologue_clean h0 h).2.1
  have e : prologue env t = some t := by unfold prologue; rw [hm]
  unfold process
  rw [if_neg (by rcases h0.mode with h | h <;> rw [h] <;> decide), if_neg (by rw [hm]; decide), h, e]

/-- From the first `process` on. -/
theorem flow_all {s t : State α σ ρ κ} (h0 : Ready p s) (h : prologue env s = some t) (hp : Fine p t.sizes t.outputIncrements)
    (hsep : (p.channelsTogether && decide (p.channels ≥ 2)) = false) {input : List (Frame α)} {final : Bool} {cs : List (Call α)}
    (hcs : ∀ c ∈ cs, Playing c) (hg : ends (.process input final :: cs) = true → Good p t.sizes t.outputIncrements (given (.process input final :: cs)).length) :
    ∃ s' outs, run p env s (.process input final :: cs) = some (s', outs) ∧
      Flow p env t.sizes t.outputIncrements (initial env t) (fun c => delivered outs c) (given (.process input final :: cs))
        (ends (.process input final :: cs)) s' := by
  obtain ⟨a1, a2⟩ := flow_start h0 h hp
  obtain ⟨s', outs, b1, b2⟩ := flow_run hp hsep a2 (.process input final :: cs) _ [] t (by
    intro c hc
    rcases List.mem_cons.mp hc with rfl | hc
    · trivial
    · exact hcs c hc) a1 (by simpa using hg)
  refine ⟨s', outs, ?_, by simpa using b2⟩
  rw [← b1]
  have e : call p env s (.process input final) = call p env t (.process input final) := by
    show (process p env s input final).map _ = (process p env t input final).map _
    rw [process_prologue h0 h]
  unfold run
  rw [e]

end
end Verif.R2
