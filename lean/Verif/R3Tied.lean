import Verif.R3Values
import Verif.R3Inv
/-!
# A tie between two channels stays through any history of the finer engine

Channel `i` is what `E` makes of channel `j`, sample by sample: with `E` the identity, the channels are the same; with `E` zero and `i = j`, the channel is silent.
-/
namespace Verif.R3

variable {α σ ρ : Type} [Zero α] [Add α] [Sub α]

/-- What keeps the tie: the spectral part and the resampler (while their states meet `G` and `R`, for pitch scales that meet `Q`), and the coding of frames that meet `X`. -/
structure Ties (p : Params) (env : Env α σ ρ) (i j : Nat) (E : α → α) (X : Frame α → Prop) (Q : Rat → Prop) (G : σ → Prop) (R : ρ → Prop) : Prop where
  zero : E 0 = 0
  one : Q 1
  coded : ∀ f, X f → (if p.useMidSide then encode env.halve f else f) i = E ((if p.useMidSide then encode env.halve f else f) j)
  init : G env.dspInit
  reset : ∀ {s}, G s → G (env.dspReset s)
  dsp : ∀ {s} (hop : Hop) {w : List (List α)}, G s → w.length = p.channels → w[i]? = (w[j]?).map (List.map E) →
    G (env.dsp s hop w).1 ∧ ∀ k, (env.dsp s hop w).2 i k = E ((env.dsp s hop w).2 j k)
  rsInit : R env.rsInit
  rsReset : ∀ {r}, R r → R (env.rsReset r)
  resample : ∀ {r} (n : Nat) {b : List (Frame α)} {q : Rat} (f : Bool), Q q → R r → (∀ x ∈ b, x i = E (x j)) →
    R (env.resample r n b (1 / q) f).1 ∧ ∀ x ∈ (env.resample r n b (1 / q) f).2, x i = E (x j)

/-- A buffer with `E` applied. -/
def under (E : α → α) (q : Fifo α) : Fifo α := ⟨q.cap, q.data.map E⟩

/-- The tie in the buffers. -/
def TiedIn (i j : Nat) (E : α → α) (bufs : List (Fifo α)) : Prop := bufs[i]? = (bufs[j]?).map (under E)

/-- The tie in a block. -/
def TiedOf (i j : Nat) (E : α → α) (block : List (Frame α)) : Prop := ∀ x ∈ block, x i = E (x j)

variable {i j : Nat} {E : α → α} {X : Frame α → Prop}

omit [Zero α] [Add α] [Sub α] in
theorem TiedIn.map {bufs : List (Fifo α)} (h : TiedIn i j E bufs) (g : Fifo α → Fifo α) (hg : ∀ q, g (under E q) = under E (g q)) : TiedIn i j E (bufs.map g) := by
  unfold TiedIn at h ⊢
  rw [List.getElem?_map, List.getElem?_map, h, Option.map_map, Option.map_map]
  congr 1
  exact funext hg

omit [Zero α] [Add α] [Sub α] in
theorem TiedIn.writeAll {bufs : List (Fifo α)} (h : TiedIn i j E bufs) {block : List (Frame α)} (hb : TiedOf i j E block) : TiedIn i j E (writeAll bufs block) := by
  unfold TiedIn R3.writeAll at *
  rw [List.getElem?_mapIdx, List.getElem?_mapIdx, h, Option.map_map, Option.map_map]
  congr 1
  funext q
  have : block.map (fun f => f i) = (block.map fun f => f j).map E := by
    rw [List.map_map]
    exact List.map_congr_left hb
  simp only [Function.comp, Fifo.write, under, Fifo.writeSpace, this, List.length_map, List.map_append, List.map_take]

omit [Zero α] [Add α] [Sub α] in
theorem TiedIn.resized {bufs : List (Fifo α)} (h : TiedIn i j E bufs) (n : Nat) : TiedIn i j E (bufs.map fun q => q.resized n) :=
  h.map _ fun q => by simp only [Fifo.resized, under, List.map_take]

omit [Zero α] [Add α] [Sub α] in
theorem TiedIn.skip {bufs : List (Fifo α)} (h : TiedIn i j E bufs) (n : Nat) : TiedIn i j E (bufs.map fun q => q.skip n) :=
  h.map _ fun q => by simp only [Fifo.skip, under, List.map_drop]

omit [Zero α] [Add α] [Sub α] in
theorem TiedIn.reset {bufs : List (Fifo α)} (h : TiedIn i j E bufs) : TiedIn i j E (bufs.map Fifo.reset) := h.map _ fun q => rfl

omit [Zero α] [Add α] [Sub α] in
theorem TiedOf.take {b : List (Frame α)} (h : TiedOf i j E b) (n : Nat) : TiedOf i j E (b.take n) := fun x hx => h x (List.mem_of_mem_take hx)

/-- What is kept. -/
structure Bound (i j : Nat) (E : α → α) (Q : Rat → Prop) (G : σ → Prop) (R : ρ → Prop) (p : Params) (s : State α σ ρ) : Prop where
  count : s.inbuf.length = p.channels
  inbuf : TiedIn i j E s.inbuf
  outbuf : TiedIn i j E s.outbuf
  dsp : G s.dsp
  resampler : ∀ r, s.resampler = some r → R r
  pitch : Q s.pitchScale

variable {p : Params} {env : Env α σ ρ} {Q : Rat → Prop} {G : σ → Prop} {R : ρ → Prop}

omit [Zero α] [Add α] [Sub α] in
theorem Bound.congr {s s' : State α σ ρ} (h : Bound i j E Q G R p s) (e : parts s' = parts s) (hp : Q s'.pitchScale) : Bound i j E Q G R p s' := by
  simp only [parts, Prod.mk.injEq] at e
  obtain ⟨a, b, c, d⟩ := e
  exact ⟨a ▸ h.count, a ▸ h.inbuf, b ▸ h.outbuf, c ▸ h.dsp, d ▸ h.resampler, hp⟩

theorem fixRatios_scale (t x : Dbl) : (fixRatios t x).2 = 1 ∨ x = .fin (fixRatios t x).2 ∧ 0 < (fixRatios t x).2 := by
  unfold fixRatios
  simp only
  generalize (if t.nonPos = true then Dbl.fin 1 else t) = t'
  cases hn : x.nonPos with
  | true =>
    left
    simp only [if_true]
    split <;> rfl
  | false =>
    simp only [Bool.false_eq_true, if_false]
    split
    · exact Or.inl rfl
    · rename_i h
      cases x with
      | nan => simp [Dbl.feq] at h
      | inf n => simp [Dbl.feq, Dbl.half] at h
      | fin q =>
        have : ¬ q ≤ 0 := by simpa [Dbl.nonPos] using hn
        exact Or.inr ⟨rfl, not_le.mp this⟩

/-- A pitch scale as it may come from the caller: its value, if it is finite and above 0, is a good one (others are replaced). -/
def Dbl.meets (Q : Rat → Prop) (x : Dbl) : Prop := ∀ v, x = .fin v → 0 < v → Q v

omit [Zero α] [Add α] [Sub α] in
theorem Bound.calculateHop (h1 : Q 1) {s : State α σ ρ} (h : Bound i j E Q G R p s) (t : Dbl) {x : Dbl} (hx : x.meets Q) : Bound i j E Q G R p (calculateHop p env s t x) := by
  refine h.congr rfl ?_
  show Q (fixRatios t x).2
  rcases fixRatios_scale t x with e | ⟨e, e'⟩
  · rw [e]; exact h1
  · exact hx _ e e'

omit [Zero α] [Add α] [Sub α] in
theorem Bound.same {s : State α σ ρ} (h : Bound i j E Q G R p s) : (Dbl.fin s.pitchScale).meets Q := by
  intro v hv _
  cases hv
  exact h.pitch

omit [Zero α] [Add α] [Sub α] in
theorem Bound.ensureInbuf {s : State α σ ρ} (h : Bound i j E Q G R p s) (n : Nat) : Bound i j E Q G R p (ensureInbuf s n) := by
  unfold R3.ensureInbuf
  split
  · exact h
  · exact ⟨by simp [h.count], h.inbuf.resized _, h.outbuf, h.dsp, h.resampler, h.pitch⟩

omit [Zero α] [Add α] [Sub α] in
theorem Bound.ensureOutbuf {s : State α σ ρ} (h : Bound i j E Q G R p s) (n : Nat) : Bound i j E Q G R p (ensureOutbuf s n) := by
  unfold R3.ensureOutbuf
  split
  · exact h
  · exact ⟨h.count, h.inbuf, h.outbuf.resized _, h.dsp, h.resampler, h.pitch⟩

theorem Ties.window (hcl : Ties p env i j E X Q G R) {s : State α σ ρ} (h : Bound i j E Q G R p s) :
    (s.inbuf.map (sourceWindow p)).length = p.channels ∧ (s.inbuf.map (sourceWindow p))[i]? = ((s.inbuf.map (sourceWindow p))[j]?).map (List.map E) := by
  refine ⟨by rw [List.length_map, h.count], ?_⟩
  have := h.inbuf
  unfold TiedIn at this
  rw [List.getElem?_map, List.getElem?_map, this, Option.map_map, Option.map_map]
  congr 1
  funext q
  simp only [Function.comp, sourceWindow, Fifo.peek, Fifo.readSpace, under, List.length_map, List.map_append, List.map_take, List.map_replicate, hcl.zero]

theorem Ties.after (hcl : Ties p env i j E X Q G R) {s : State α σ ρ} (h : Bound i j E Q G R p s) {final : Bool} {a b c d : Nat} {mix : List (Frame α)} (hm : TiedOf i j E mix) :
    (∀ r, (resampleAfter p env s final a b c d mix).1 = some r → R r) ∧ TiedOf i j E (resampleAfter p env s final a b c d mix).2 := by
  unfold resampleAfter
  split
  · rename_i r hr _
    obtain ⟨h1, h2⟩ := hcl.resample p.hopBufferSize (final && decide (c < a) && decide (d ≤ b)) h.pitch (h.resampler r hr) hm
    exact ⟨fun r' e => Option.some.inj e ▸ h1, TiedOf.take h2 _⟩
  · exact ⟨h.resampler, hm⟩

theorem Ties.round (hcl : Ties p env i j E X Q G R) {final : Bool} {inhop outhop : Nat} {s s' : State α σ ρ} (h : Bound i j E Q G R p s) (f : RoundFacts p env final inhop outhop s s') :
    Bound i j E Q G R p s' := by
  obtain ⟨w1, w2⟩ := hcl.window h
  obtain ⟨d1, d2⟩ := hcl.dsp (hopOf s inhop outhop) h.dsp w1 w2
  have hm : TiedOf i j E (mixOf p env s inhop outhop) := by
    intro x hx
    unfold mixOf at hx
    obtain ⟨k, hk, rfl⟩ := List.mem_map.mp hx
    exact d2 k
  obtain ⟨r1, r2⟩ := hcl.after h (final := final) (a := inhop) (b := outhop) (c := (in0 s).readSpace) (d := fillAfter p s.accumulatorFill outhop ((in0 s).readSpace == 0)) hm
  refine ⟨?_, ?_, ?_, ?_, ?_, ?_⟩
  · rw [f.inbuf, List.length_map]; exact h.count
  · rw [f.inbuf]; exact h.inbuf.skip _
  · rw [f.outbuf]
    exact ((h.ensureOutbuf outhop).outbuf.writeAll (TiedOf.take r2 _)).skip _
  · rw [f.dsp]; exact d1
  · rw [f.resampler]; exact r1
  · rw [f.kept.pitchScale]; exact h.pitch

theorem Ties.consume (hcl : Ties p env i j E X Q G R) {final : Bool} {s s' : State α σ ρ} (h : Bound i j E Q G R p s) (hr : consume p env final s = some s') : Bound i j E Q G R p s' :=
  (consume_induct (fun t => Bound i j E Q G R p t) (fun _ _ ht _ f => hcl.round ht f) (h.congr rfl h.pitch) hr).1

theorem Ties.prepare (hcl : Ties p env i j E X Q G R) {s : State α σ ρ} {b b' : List (Frame α)} (h : ∀ x ∈ b, X x) (hp : prepareInput p env s b = some b') : TiedOf i j E b' := by
  have hx := hcl.coded
  unfold prepareInput at hp
  split at hp
  · rename_i hm
    split at hp
    · cases hp
    · cases hp
      intro x hx'
      obtain ⟨f, hf, rfl⟩ := List.mem_map.mp hx'
      have := hx f (h f hf)
      rwa [if_pos hm] at this
  · rename_i hm
    cases hp
    intro x hx'
    have := hx x (h x hx')
    rwa [if_neg hm] at this

theorem Ties.takeIn (hcl : Ties p env i j E X Q G R) {before final : Bool} {s : State α σ ρ} (h : Bound i j E Q G R p s) {rest : List (Frame α)} (hrest : ∀ x ∈ rest, X x) {r : State α σ ρ × Nat}
    (hr : takeIn p env before final s rest = some r) : Bound i j E Q G R p r.1 := by
  have len : ∀ (bufs : List (Fifo α)) (b : List (Frame α)), (writeAll bufs b).length = bufs.length := by intro bufs b; unfold writeAll; rw [List.length_mapIdx]
  unfold R3.takeIn at hr
  split at hr
  · rename_i q hq
    obtain ⟨b, hb, hr⟩ := Option.bind_eq_some_iff.mp hr
    cases hr
    have vb := hcl.prepare (fun x hx => hrest x (List.mem_of_mem_take hx)) hb
    obtain ⟨r1, r2⟩ := hcl.resample (min (in0 s).writeSpace p.hopBufferSize) (final && decide (resampleInputFor p s rest.length ≥ rest.length)) h.pitch (h.resampler q hq) vb
    exact ⟨(len _ _).trans h.count, h.inbuf.writeAll (TiedOf.take r2 _), h.outbuf, h.dsp, fun r' e => Option.some.inj e ▸ r1, h.pitch⟩
  · obtain ⟨b, hb, hr⟩ := Option.bind_eq_some_iff.mp hr
    cases hr
    exact ⟨(len _ _).trans h.count, h.inbuf.writeAll (hcl.prepare (fun x hx => hrest x (List.mem_of_mem_take hx)) hb), h.outbuf, h.dsp, h.resampler, h.pitch⟩

theorem Ties.processRound (hcl : Ties p env i j E X Q G R) {before final : Bool} {s : State α σ ρ} (h : Bound i j E Q G R p s) {rest : List (Frame α)} (hrest : ∀ x ∈ rest, X x)
    {r : State α σ ρ × List (Frame α)} (hr : processRound p env before final s rest = some r) : Bound i j E Q G R p r.1 ∧ ∀ x ∈ r.2, X x := by
  unfold R3.processRound at hr
  obtain ⟨s1, h1, hr⟩ := Option.bind_eq_some_iff.mp hr
  obtain ⟨⟨s2, k⟩, h2, hr⟩ := Option.bind_eq_some_iff.mp hr
  obtain ⟨s3, h3, hr⟩ := Option.bind_eq_some_iff.mp hr
  cases hr
  have u1 : Bound i j E Q G R p s1 := by
    unfold roomy at h1
    split at h1
    · exact hcl.consume h h1
    · cases h1; exact h
  exact ⟨hcl.consume (hcl.takeIn (u1.ensureInbuf rest.length) hrest h2) h3, fun x hx => hrest x (List.mem_of_mem_drop hx)⟩

theorem Ties.processLoop (hcl : Ties p env i j E X Q G R) {before final : Bool} : ∀ (fuel : Nat) (s : State α σ ρ) (rest : List (Frame α)) (s' : State α σ ρ), Bound i j E Q G R p s → (∀ x ∈ rest, X x) →
    processLoop p env before final fuel s rest = some s' → Bound i j E Q G R p s' := by
  intro fuel
  induction fuel with
  | zero =>
    intro s rest s' h _ hr
    unfold R3.processLoop at hr
    split at hr
    · cases hr; exact h
    · cases hr
  | succ fuel ih =>
    intro s rest s' h hrest hr
    unfold R3.processLoop at hr
    split at hr
    · cases hr; exact h
    · obtain ⟨⟨s1, rest1⟩, h1, h2⟩ := Option.bind_eq_some_iff.mp hr
      obtain ⟨a, b⟩ := hcl.processRound h hrest h1
      exact ih s1 rest1 s' a b h2

omit [Zero α] [Add α] [Sub α] in
theorem Bound.updateRatioFromMap (h1 : Q 1) {s : State α σ ρ} (h : Bound i j E Q G R p s) : Bound i j E Q G R p (updateRatioFromMap p env s) := by
  have hc : ∀ t, Bound i j E Q G R p (R3.calculateHop p env s t (.fin s.pitchScale)) := fun t => h.calculateHop h1 t h.same
  unfold R3.updateRatioFromMap
  split
  · exact h
  · split
    · rename_i key target _ _ _
      exact (hc (Dbl.quotient target key)).congr rfl (hc _).pitch
    · split
      · exact h
      · rename_i i0 _
        split
        · exact (hc (segmentRatio s i0)).congr rfl (hc _).pitch
        · exact h

theorem Ties.padStart (hcl : Ties p env i j E X Q G R) {s : State α σ ρ} (h : Bound i j E Q G R p s) : Bound i j E Q G R p (padStart p env s) := by
  unfold R3.padStart
  split
  · have h1 : Bound i j E Q G R p { s with resampler := if s.pitchScale ≠ 1 ∧ s.resampler.isNone then some env.rsInit else s.resampler } := by
      refine ⟨h.count, h.inbuf, h.outbuf, h.dsp, ?_, h.pitch⟩
      intro r hr
      simp only at hr
      split at hr
      · exact Option.some.inj hr ▸ hcl.rsInit
      · exact h.resampler r hr
    have h2 := h1.ensureInbuf (p.windowSourceSize / 2)
    refine ⟨?_, ?_, h2.outbuf, h2.dsp, h2.resampler, h2.pitch⟩
    · show (List.map _ _).length = _
      rw [List.length_map]
      exact h2.count
    · refine h2.inbuf.map _ ?_
      intro q
      simp only [Fifo.zero, Fifo.write, under, Fifo.writeSpace, List.length_map, List.map_append, List.map_take, List.map_replicate, hcl.zero]
  · exact h

theorem Ties.process (hcl : Ties p env i j E X Q G R) {s s' : State α σ ρ} (h : Bound i j E Q G R p s) {input : List (Frame α)} (hin : ∀ x ∈ input, X x) {final : Bool}
    (hr : process p env s input final = some s') : Bound i j E Q G R p s' := by
  unfold R3.process at hr
  split at hr
  · cases hr; exact h
  · rw [Option.map_eq_some_iff] at hr
    obtain ⟨s1, h1, rfl⟩ := hr
    have hp : Bound i j E Q G R p (prologue p env s) := by
      unfold prologue
      split
      · exact h
      · refine hcl.padStart (Bound.updateRatioFromMap hcl.one ?_)
        exact h.congr rfl h.pitch
    unfold processInput at h1
    have : Bound i j E Q G R p s1 := by
      split at h1
      · split at h1
        · exact hcl.consume hp h1
        · cases h1; exact hp
      · exact hcl.processLoop _ _ _ _ hp (fun x hx => hin x (List.mem_of_mem_take hx)) h1
    exact this.congr rfl this.pitch

/-- What is delivered by a call: nothing, or what comes of data that are tied, of the same length, decoded. -/
def Issued (p : Params) (i j : Nat) (E : α → α) (o : List (List α)) : Prop :=
  o = [] ∨ ∃ (raw : List (List α)) (got : Nat), raw.length = p.channels ∧ (∀ l ∈ raw, l.length = got) ∧ raw[i]? = (raw[j]?).map (List.map E) ∧ o = if p.useMidSide then decode got raw else raw

/-- The conditions on a call: its audio, and the pitch it asks for. -/
def Call.ties (X : Frame α → Prop) (Q : Rat → Prop) : Call α → Prop
  | .process x _ => ∀ f ∈ x, X f
  | .setPitchScale x => x.meets Q
  | _ => True

theorem Ties.call (hcl : Ties p env i j E X Q G R) (hc : 0 < p.channels) {s : State α σ ρ} (hi : Inv p env s) (h : Bound i j E Q G R p s) {c : Call α} (hx : c.ties X Q) {r : State α σ ρ × List (List α)}
    (hr : call p env s c = some r) : Bound i j E Q G R p r.1 ∧ Issued p i j E r.2 := by
  cases c with
  | setTimeRatio x =>
    cases hr
    refine ⟨?_, Or.inl rfl⟩
    unfold R3.setTimeRatio
    split
    · exact h
    · split
      · exact h
      · exact h.calculateHop hcl.one _ h.same
  | setPitchScale x =>
    cases hr
    refine ⟨?_, Or.inl rfl⟩
    unfold R3.setPitchScale
    split
    · exact h
    · split
      · exact h
      · exact h.calculateHop hcl.one _ hx
  | setFormantScale x =>
    cases hr
    refine ⟨?_, Or.inl rfl⟩
    unfold R3.setFormantScale
    split
    · exact h
    · exact h.congr rfl h.pitch
  | setKeyFrameMap x =>
    cases hr
    refine ⟨?_, Or.inl rfl⟩
    unfold R3.setKeyFrameMap
    split
    · exact h
    · split
      · exact h
      · exact h.congr rfl h.pitch
  | setExpectedInputDuration x => cases hr; exact ⟨h.congr rfl h.pitch, Or.inl rfl⟩
  | setMaxProcessSize x => cases hr; exact ⟨(h.ensureInbuf _).ensureOutbuf _, Or.inl rfl⟩
  | study x =>
    cases hr
    refine ⟨?_, Or.inl rfl⟩
    unfold R3.study
    split
    · exact h
    · split
      · exact h
      · exact h.congr rfl h.pitch
  | process x f =>
    simp only [R3.call] at hr
    rw [Option.map_eq_some_iff] at hr
    obtain ⟨s1, h1, rfl⟩ := hr
    exact ⟨hcl.process h hx h1, Or.inl rfl⟩
  | retrieve n =>
    cases hr
    obtain ⟨icap, ocap, a, m, hb, _⟩ := hi.bufs
    obtain ⟨r1, r2, r3⟩ := readChannels_uniform hb.outU n
    refine ⟨⟨h.count, ?_, ?_, h.dsp, h.resampler, h.pitch⟩, Or.inr ⟨(readChannels s.outbuf n).2.1, min n m, ?_, ?_, ?_, ?_⟩⟩
    · exact h.inbuf
    · show TiedIn i j E (readChannels s.outbuf n).1
      rw [r1]; exact h.outbuf.skip _
    · rw [r2, List.length_map, hb.outU.1]
    · rw [r2]
      intro l hl
      obtain ⟨q, hq, rfl⟩ := List.mem_map.mp hl
      rw [Fifo.peek, List.length_take, (hb.outU.2 q hq).2]
    · have := h.outbuf
      unfold TiedIn at this
      rw [r2, List.getElem?_map, List.getElem?_map, this, Option.map_map, Option.map_map]
      congr 1
      funext q
      simp only [Function.comp, Fifo.peek, under, List.map_take]
    · show (retrieve p s n).2.1 = _
      unfold retrieve
      simp only [r3 hc]
  | reset =>
    cases hr
    refine ⟨?_, Or.inl rfl⟩
    unfold R3.reset
    refine Bound.calculateHop hcl.one ?_ _ h.same
    refine ⟨by simp [h.count], h.inbuf.reset, h.outbuf.reset, hcl.reset h.dsp, ?_, h.pitch⟩
    intro r hr
    simp only [Option.map_eq_some_iff] at hr
    obtain ⟨r', h', rfl⟩ := hr
    exact hcl.rsReset (h.resampler r' h')

theorem Ties.create (hcl : Ties p env i j E X Q G R) (hi : i < p.channels) (hj : j < p.channels) (t : Dbl) {x : Dbl} (hx : x.meets Q) : Bound i j E Q G R p (create p env t x) := by
  unfold R3.create
  refine Bound.calculateHop hcl.one ?_ _ hx
  have hnew : TiedIn i j E (List.replicate p.channels (⟨p.ringBufferSize, []⟩ : Fifo α)) := by
    unfold TiedIn
    rw [List.getElem?_replicate, List.getElem?_replicate, if_pos hi, if_pos hj]
    rfl
  refine ⟨by simp, hnew, hnew, hcl.init, ?_, hcl.one⟩
  intro r hr
  simp only at hr
  split at hr
  · exact Option.some.inj hr ▸ hcl.rsInit
  · cases hr

theorem Ties.run (hcl : Ties p env i j E X Q G R) (hc : 0 < p.channels) : ∀ (cs : List (Call α)) (s : State α σ ρ) (r : State α σ ρ × List (List (List α))), Inv p env s → Bound i j E Q G R p s →
    (∀ c ∈ cs, c.ties X Q) → run p env s cs = some r → Bound i j E Q G R p r.1 ∧ ∀ o ∈ r.2, Issued p i j E o := by
  intro cs
  induction cs with
  | nil => intro s r _ h _ hr; cases hr; exact ⟨h, by intro o ho; cases ho⟩
  | cons c cs ih =>
    intro s r hi h hg hr
    obtain ⟨a, b, ha, hb, rfl⟩ := run_cons hr
    obtain ⟨a1, a2⟩ := hcl.call hc hi h (hg c (by simp)) ha
    obtain ⟨b1, b2⟩ := ih a.1 b (call_inv hc hi ha) a1 (fun c hc => hg c (by simp [hc])) hb
    refine ⟨b1, ?_⟩
    intro o ho
    rcases List.mem_cons.mp ho with rfl | ho
    · exact a2
    · exact b2 o ho

end Verif.R3
