import Verif.R3Lemmas
/-!
# What holds of all values, states of the spectral part and states of the resampler stays true through any history of the finer engine
-/
namespace Verif.R3

variable {α σ ρ : Type} [Zero α] [Add α] [Sub α]

/-- Properties of values, of the state of the spectral part and of that of the resampler that everything keeps. -/
structure Closed (p : Params) (env : Env α σ ρ) (V : α → Prop) (G : σ → Prop) (R : ρ → Prop) : Prop where
  zero : V 0
  add : ∀ {a b}, V a → V b → V (a + b)
  sub : ∀ {a b}, V a → V b → V (a - b)
  halve : ∀ {a}, V a → V (env.halve a)
  init : G env.dspInit
  reset : ∀ {s}, G s → G (env.dspReset s)
  dsp : ∀ {s} (hop : Hop) {w : List (List α)}, G s → w.length = p.channels → (∀ x ∈ w, ∀ a ∈ x, V a) →
    G (env.dsp s hop w).1 ∧ ∀ c < p.channels, ∀ i < hop.outhop, V ((env.dsp s hop w).2 c i)
  rsInit : R env.rsInit
  rsReset : ∀ {r}, R r → R (env.rsReset r)
  resample : ∀ {r} (n : Nat) {b : List (Frame α)} (q : Rat) (f : Bool), R r → (∀ x ∈ b, ∀ c < p.channels, V (x c)) →
    R (env.resample r n b q f).1 ∧ ∀ x ∈ (env.resample r n b q f).2, ∀ c < p.channels, V (x c)

/-- All values in the buffers of `k` channels. -/
def AllIn (V : α → Prop) (k : Nat) (bufs : List (Fifo α)) : Prop := bufs.length = k ∧ ∀ q ∈ bufs, ∀ a ∈ q.data, V a

/-- All values in a block. -/
def AllOf (V : α → Prop) (k : Nat) (block : List (Frame α)) : Prop := ∀ x ∈ block, ∀ c < k, V (x c)

omit [Zero α] [Add α] [Sub α] in
theorem AllIn.map {V : α → Prop} {k : Nat} {bufs : List (Fifo α)} (h : AllIn V k bufs) (g : Fifo α → Fifo α) (hg : ∀ q, (∀ a ∈ q.data, V a) → ∀ a ∈ (g q).data, V a) :
    AllIn V k (bufs.map g) := by
  refine ⟨by rw [List.length_map, h.1], ?_⟩
  intro q hq
  obtain ⟨q', h', rfl⟩ := List.mem_map.mp hq
  exact hg q' (h.2 q' h')

omit [Zero α] [Add α] [Sub α] in
theorem AllIn.writeAll {V : α → Prop} {k : Nat} {bufs : List (Fifo α)} (h : AllIn V k bufs) {block : List (Frame α)} (hb : AllOf V k block) : AllIn V k (writeAll bufs block) := by
  refine ⟨by unfold R3.writeAll; rw [List.length_mapIdx, h.1], ?_⟩
  intro q hq a ha
  unfold R3.writeAll at hq
  obtain ⟨i, hi, rfl⟩ := List.mem_mapIdx.mp hq
  rcases List.mem_append.mp ha with ha | ha
  · exact h.2 _ (List.getElem_mem hi) a ha
  · obtain ⟨f, hf, rfl⟩ := List.mem_map.mp (List.mem_of_mem_take ha)
    exact hb f hf i (by rw [← h.1]; exact hi)

omit [Zero α] [Add α] [Sub α] in
theorem AllIn.resized {V : α → Prop} {k : Nat} {bufs : List (Fifo α)} (h : AllIn V k bufs) (n : Nat) : AllIn V k (bufs.map fun q => q.resized n) :=
  h.map _ fun _ hq a ha => hq a (List.mem_of_mem_take ha)

omit [Zero α] [Add α] [Sub α] in
theorem AllIn.skip {V : α → Prop} {k : Nat} {bufs : List (Fifo α)} (h : AllIn V k bufs) (n : Nat) : AllIn V k (bufs.map fun q => q.skip n) :=
  h.map _ fun _ hq a ha => hq a (List.mem_of_mem_drop ha)

omit [Zero α] [Add α] [Sub α] in
theorem AllOf.take {V : α → Prop} {k : Nat} {b : List (Frame α)} (h : AllOf V k b) (n : Nat) : AllOf V k (b.take n) := fun x hx => h x (List.mem_of_mem_take hx)

omit [Zero α] [Add α] [Sub α] in
theorem AllOf.drop {V : α → Prop} {k : Nat} {b : List (Frame α)} (h : AllOf V k b) (n : Nat) : AllOf V k (b.drop n) := fun x hx => h x (List.mem_of_mem_drop hx)

/-- What is kept. -/
structure Holds (p : Params) (V : α → Prop) (G : σ → Prop) (R : ρ → Prop) (s : State α σ ρ) : Prop where
  inbuf : AllIn V p.channels s.inbuf
  outbuf : AllIn V p.channels s.outbuf
  dsp : G s.dsp
  resampler : ∀ r, s.resampler = some r → R r

/-- The members that matter for that. -/
def parts (s : State α σ ρ) : List (Fifo α) × List (Fifo α) × σ × Option ρ := (s.inbuf, s.outbuf, s.dsp, s.resampler)

variable {p : Params} {env : Env α σ ρ} {V : α → Prop} {G : σ → Prop} {R : ρ → Prop}

omit [Zero α] [Add α] [Sub α] in
theorem Holds.congr {s s' : State α σ ρ} (h : Holds p V G R s) (e : parts s' = parts s) : Holds p V G R s' := by
  simp only [parts, Prod.mk.injEq] at e
  obtain ⟨a, b, c, d⟩ := e
  exact ⟨a ▸ h.inbuf, b ▸ h.outbuf, c ▸ h.dsp, d ▸ h.resampler⟩

omit [Zero α] [Add α] [Sub α] in
theorem Holds.calculateHop {s : State α σ ρ} (h : Holds p V G R s) (t q : Dbl) : Holds p V G R (calculateHop p env s t q) := h.congr rfl

omit [Zero α] [Add α] [Sub α] in
theorem Holds.ensureInbuf {s : State α σ ρ} (h : Holds p V G R s) (n : Nat) : Holds p V G R (ensureInbuf s n) := by
  unfold R3.ensureInbuf
  split
  · exact h
  · exact ⟨h.inbuf.resized _, h.outbuf, h.dsp, h.resampler⟩

omit [Zero α] [Add α] [Sub α] in
theorem Holds.ensureOutbuf {s : State α σ ρ} (h : Holds p V G R s) (n : Nat) : Holds p V G R (ensureOutbuf s n) := by
  unfold R3.ensureOutbuf
  split
  · exact h
  · exact ⟨h.inbuf, h.outbuf.resized _, h.dsp, h.resampler⟩

theorem Closed.window (hcl : Closed p env V G R) {s : State α σ ρ} (h : Holds p V G R s) :
    (s.inbuf.map (sourceWindow p)).length = p.channels ∧ ∀ x ∈ s.inbuf.map (sourceWindow p), ∀ a ∈ x, V a := by
  refine ⟨by rw [List.length_map, h.inbuf.1], ?_⟩
  intro x hx a ha
  obtain ⟨q, hq, rfl⟩ := List.mem_map.mp hx
  rcases List.mem_append.mp ha with ha | ha
  · exact h.inbuf.2 q hq a (List.mem_of_mem_take ha)
  · rw [(List.mem_replicate.mp ha).2]; exact hcl.zero

theorem Closed.after (hcl : Closed p env V G R) {s : State α σ ρ} (h : Holds p V G R s) {final : Bool} {a b c d : Nat} {mix : List (Frame α)} (hm : AllOf V p.channels mix) :
    (∀ r, (resampleAfter p env s final a b c d mix).1 = some r → R r) ∧ AllOf V p.channels (resampleAfter p env s final a b c d mix).2 := by
  unfold resampleAfter
  split
  · rename_i r hr _
    obtain ⟨h1, h2⟩ := hcl.resample p.hopBufferSize (1 / s.pitchScale) (final && decide (c < a) && decide (d ≤ b)) (h.resampler r hr) hm
    exact ⟨fun r' e => Option.some.inj e ▸ h1, AllOf.take h2 _⟩
  · exact ⟨h.resampler, hm⟩

theorem Closed.round (hcl : Closed p env V G R) {final : Bool} {inhop outhop : Nat} {s s' : State α σ ρ} (h : Holds p V G R s) (f : RoundFacts p env final inhop outhop s s') : Holds p V G R s' := by
  obtain ⟨w1, w2⟩ := hcl.window h
  obtain ⟨d1, d2⟩ := hcl.dsp (hopOf s inhop outhop) h.dsp w1 w2
  have hm : AllOf V p.channels (mixOf p env s inhop outhop) := by
    intro x hx c hc
    unfold mixOf at hx
    obtain ⟨i, hi, rfl⟩ := List.mem_map.mp hx
    exact d2 c hc i (List.mem_range.mp hi)
  obtain ⟨r1, r2⟩ := hcl.after h (final := final) (a := inhop) (b := outhop) (c := (in0 s).readSpace) (d := fillAfter p s.accumulatorFill outhop ((in0 s).readSpace == 0)) hm
  refine ⟨?_, ?_, ?_, ?_⟩
  · rw [f.inbuf]; exact h.inbuf.skip _
  · rw [f.outbuf]
    exact ((h.ensureOutbuf outhop).outbuf.writeAll (AllOf.take r2 _)).skip _
  · rw [f.dsp]; exact d1
  · rw [f.resampler]; exact r1

theorem Closed.consume (hcl : Closed p env V G R) {final : Bool} {s s' : State α σ ρ} (h : Holds p V G R s) (hr : consume p env final s = some s') : Holds p V G R s' :=
  (consume_induct (fun t => Holds p V G R t) (fun _ _ ht _ f => hcl.round ht f) (h.congr rfl) hr).1

theorem Closed.prepare (hcl : Closed p env V G R) {s : State α σ ρ} {b b' : List (Frame α)} (h : AllOf V p.channels b) (hp : prepareInput p env s b = some b') : AllOf V p.channels b' := by
  unfold prepareInput at hp
  split at hp
  · rename_i hm
    have h2 : p.channels = 2 := by
      simp only [Params.useMidSide, Bool.and_eq_true, beq_iff_eq] at hm
      exact hm.1
    split at hp
    · cases hp
    · cases hp
      intro x hx c hc
      obtain ⟨f, hf, rfl⟩ := List.mem_map.mp hx
      have f0 := h f hf 0 (by omega)
      have f1 := h f hf 1 (by omega)
      unfold encode
      split
      · exact hcl.halve (hcl.add f0 f1)
      · split
        · exact hcl.halve (hcl.sub f0 f1)
        · exact h f hf c hc
  · cases hp; exact h

theorem Closed.takeIn (hcl : Closed p env V G R) {before final : Bool} {s : State α σ ρ} (h : Holds p V G R s) {rest : List (Frame α)} (hrest : AllOf V p.channels rest) {r : State α σ ρ × Nat}
    (hr : takeIn p env before final s rest = some r) : Holds p V G R r.1 := by
  unfold R3.takeIn at hr
  split at hr
  · rename_i q hq
    obtain ⟨b, hb, hr⟩ := Option.bind_eq_some_iff.mp hr
    cases hr
    have vb := hcl.prepare (hrest.take _) hb
    obtain ⟨r1, r2⟩ := hcl.resample (min (in0 s).writeSpace p.hopBufferSize) (1 / s.pitchScale) (final && decide (resampleInputFor p s rest.length ≥ rest.length)) (h.resampler q hq) vb
    exact ⟨h.inbuf.writeAll (AllOf.take r2 _), h.outbuf, h.dsp, fun r' e => Option.some.inj e ▸ r1⟩
  · obtain ⟨b, hb, hr⟩ := Option.bind_eq_some_iff.mp hr
    cases hr
    exact ⟨h.inbuf.writeAll (hcl.prepare (hrest.take _) hb), h.outbuf, h.dsp, h.resampler⟩

theorem Closed.processRound (hcl : Closed p env V G R) {before final : Bool} {s : State α σ ρ} (h : Holds p V G R s) {rest : List (Frame α)} (hrest : AllOf V p.channels rest)
    {r : State α σ ρ × List (Frame α)} (hr : processRound p env before final s rest = some r) : Holds p V G R r.1 ∧ AllOf V p.channels r.2 := by
  unfold R3.processRound at hr
  obtain ⟨s1, h1, hr⟩ := Option.bind_eq_some_iff.mp hr
  obtain ⟨⟨s2, k⟩, h2, hr⟩ := Option.bind_eq_some_iff.mp hr
  obtain ⟨s3, h3, hr⟩ := Option.bind_eq_some_iff.mp hr
  cases hr
  have u1 : Holds p V G R s1 := by
    unfold roomy at h1
    split at h1
    · exact hcl.consume h h1
    · cases h1; exact h
  exact ⟨hcl.consume (hcl.takeIn (u1.ensureInbuf rest.length) hrest h2) h3, hrest.drop k⟩

theorem Closed.processLoop (hcl : Closed p env V G R) {before final : Bool} : ∀ (fuel : Nat) (s : State α σ ρ) (rest : List (Frame α)) (s' : State α σ ρ), Holds p V G R s → AllOf V p.channels rest →
    processLoop p env before final fuel s rest = some s' → Holds p V G R s' := by
  intro fuel
  induction fuel with
  | zero =>
    intro s rest s' h _ hr
    unfold R3.processLoop at hr
    split at hr
    · cases hr; exact h
    · cases hr
  | succ fuel ih =>
    intro s rest s' h hrest hr
    unfold R3.processLoop at hr
    split at hr
    · cases hr; exact h
    · obtain ⟨⟨s1, rest1⟩, h1, h2⟩ := Option.bind_eq_some_iff.mp hr
      obtain ⟨a, b⟩ := hcl.processRound h hrest h1
      exact ih s1 rest1 s' a b h2

omit [Zero α] [Add α] [Sub α] in
theorem Holds.updateRatioFromMap {s : State α σ ρ} (h : Holds p V G R s) : Holds p V G R (updateRatioFromMap p env s) := by
  unfold R3.updateRatioFromMap
  split
  · exact h
  · split
    · exact h.congr rfl
    · split
      · exact h
      · split
        · exact h.congr rfl
        · exact h

theorem Closed.padStart (hcl : Closed p env V G R) {s : State α σ ρ} (h : Holds p V G R s) : Holds p V G R (padStart p env s) := by
  unfold R3.padStart
  split
  · have h1 : Holds p V G R { s with resampler := if s.pitchScale ≠ 1 ∧ s.resampler.isNone then some env.rsInit else s.resampler } := by
      refine ⟨h.inbuf, h.outbuf, h.dsp, ?_⟩
      intro r hr
      simp only at hr
      split at hr
      · exact Option.some.inj hr ▸ hcl.rsInit
      · exact h.resampler r hr
    have h2 := h1.ensureInbuf (p.windowSourceSize / 2)
    refine ⟨?_, h2.outbuf, h2.dsp, h2.resampler⟩
    refine h2.inbuf.map _ ?_
    intro q hq a ha
    rcases List.mem_append.mp ha with ha | ha
    · exact hq a ha
    · rw [(List.mem_replicate.mp (List.mem_of_mem_take ha)).2]; exact hcl.zero
  · exact h

theorem Closed.process (hcl : Closed p env V G R) {s s' : State α σ ρ} (h : Holds p V G R s) {input : List (Frame α)} (hin : AllOf V p.channels input) {final : Bool}
    (hr : process p env s input final = some s') : Holds p V G R s' := by
  unfold R3.process at hr
  split at hr
  · cases hr; exact h
  · rw [Option.map_eq_some_iff] at hr
    obtain ⟨s1, h1, rfl⟩ := hr
    have hp : Holds p V G R (prologue p env s) := by
      unfold prologue
      split
      · exact h
      · refine hcl.padStart (Holds.updateRatioFromMap ?_)
        exact h.congr rfl
    unfold processInput at h1
    have : Holds p V G R s1 := by
      split at h1
      · split at h1
        · exact hcl.consume hp h1
        · cases h1; exact hp
      · exact hcl.processLoop _ _ _ _ hp (hin.take _) h1
    exact this.congr rfl

omit [Zero α] [Add α] [Sub α] in
theorem readChannels_all {k : Nat} : ∀ (bufs : List (Fifo α)) (got : Nat), AllIn V k bufs → AllIn V k (readChannels bufs got).1 ∧ (∀ l ∈ (readChannels bufs got).2.1, ∀ a ∈ l, V a) := by
  intro bufs
  induction bufs generalizing k with
  | nil => intro got h; exact ⟨h, by intro l hl; cases hl⟩
  | cons q qs ih =>
    intro got h
    obtain ⟨a, b⟩ := ih (k := qs.length) (if (q.peek got).length < got then (q.peek got).length else got) ⟨rfl, fun q' hq' => h.2 q' (List.mem_cons_of_mem _ hq')⟩
    have hq := h.2 q (by simp)
    unfold readChannels
    refine ⟨⟨?_, ?_⟩, ?_⟩
    · rw [← h.1]
      simp only [List.length_cons, a.1]
    · intro q' hq'
      rcases List.mem_cons.mp hq' with rfl | hq'
      · intro x hx; exact hq x (List.mem_of_mem_drop hx)
      · exact a.2 q' hq'
    · intro l hl
      rcases List.mem_cons.mp hl with rfl | hl
      · intro x hx; exact hq x (List.mem_of_mem_take hx)
      · exact b l hl

omit [Zero α] [Add α] [Sub α] in
theorem zipWith_all {f : α → α → α} (hf : ∀ {a b}, V a → V b → V (f a b)) {l m : List α} (hl : ∀ a ∈ l, V a) (hm : ∀ a ∈ m, V a) : ∀ a ∈ List.zipWith f l m, V a := by
  intro a ha
  rw [List.mem_iff_getElem] at ha
  obtain ⟨i, hi, rfl⟩ := ha
  rw [List.getElem_zipWith]
  exact hf (hl _ (List.getElem_mem _)) (hm _ (List.getElem_mem _))

theorem Closed.decode (hcl : Closed p env V G R) (got : Nat) {o : List (List α)} (h : ∀ l ∈ o, ∀ a ∈ l, V a) : ∀ l ∈ decode got o, ∀ a ∈ l, V a := by
  match o with
  | [] => intro l hl; cases hl
  | [m] => exact h
  | m :: s :: rest =>
    have hm := h m (by simp)
    have hs := h s (by simp)
    intro l hl
    rcases List.mem_cons.mp hl with rfl | hl
    · intro a ha
      rcases List.mem_append.mp ha with ha | ha
      · exact zipWith_all hcl.add (fun a ha => hm a (List.mem_of_mem_take ha)) (fun a ha => hs a (List.mem_of_mem_take ha)) a ha
      · exact hm a (List.mem_of_mem_drop ha)
    · rcases List.mem_cons.mp hl with rfl | hl
      · intro a ha
        rcases List.mem_append.mp ha with ha | ha
        · exact zipWith_all hcl.sub (fun a ha => hm a (List.mem_of_mem_take ha)) (fun a ha => hs a (List.mem_of_mem_take ha)) a ha
        · exact hs a (List.mem_of_mem_drop ha)
      · exact h l (by simp [hl])

/-- The audio of a call. -/
def Call.gives (V : α → Prop) (k : Nat) : Call α → Prop
  | .process x _ => AllOf V k x
  | _ => True

theorem Closed.call (hcl : Closed p env V G R) {s : State α σ ρ} (h : Holds p V G R s) {c : Call α} (hc : c.gives V p.channels) {r : State α σ ρ × List (List α)}
    (hr : call p env s c = some r) : Holds p V G R r.1 ∧ ∀ l ∈ r.2, ∀ a ∈ l, V a := by
  have none : ∀ l ∈ ([] : List (List α)), ∀ a ∈ l, V a := by intro l hl; cases hl
  cases c with
  | setTimeRatio x =>
    cases hr
    refine ⟨?_, none⟩
    unfold R3.setTimeRatio
    split
    · exact h
    · split
      · exact h
      · exact h.congr rfl
  | setPitchScale x =>
    cases hr
    refine ⟨?_, none⟩
    unfold R3.setPitchScale
    split
    · exact h
    · split
      · exact h
      · exact h.congr rfl
  | setFormantScale x =>
    cases hr
    refine ⟨?_, none⟩
    unfold R3.setFormantScale
    split
    · exact h
    · exact h.congr rfl
  | setKeyFrameMap x =>
    cases hr
    refine ⟨?_, none⟩
    unfold R3.setKeyFrameMap
    split
    · exact h
    · split
      · exact h
      · exact h.congr rfl
  | setExpectedInputDuration x => cases hr; exact ⟨h.congr rfl, none⟩
  | setMaxProcessSize x => cases hr; exact ⟨(h.ensureInbuf _).ensureOutbuf _, none⟩
  | study x =>
    cases hr
    refine ⟨?_, none⟩
    unfold R3.study
    split
    · exact h
    · split
      · exact h
      · exact h.congr rfl
  | process x f =>
    simp only [R3.call] at hr
    rw [Option.map_eq_some_iff] at hr
    obtain ⟨s1, h1, rfl⟩ := hr
    exact ⟨hcl.process h hc h1, none⟩
  | retrieve n =>
    cases hr
    obtain ⟨a, b⟩ := readChannels_all s.outbuf n h.outbuf
    refine ⟨⟨h.inbuf, a, h.dsp, h.resampler⟩, ?_⟩
    unfold retrieve
    simp only
    split
    · exact hcl.decode _ b
    · exact b
  | reset =>
    cases hr
    refine ⟨?_, none⟩
    unfold R3.reset
    refine Holds.calculateHop ?_ _ _
    have hempty : ∀ q : Fifo α, (∀ a ∈ q.data, V a) → ∀ a ∈ q.reset.data, V a := by intro q _ a ha; cases ha
    refine ⟨h.inbuf.map _ hempty, h.outbuf.map _ hempty, hcl.reset h.dsp, ?_⟩
    intro r hr
    simp only [Option.map_eq_some_iff] at hr
    obtain ⟨r', h', rfl⟩ := hr
    exact hcl.rsReset (h.resampler r' h')

theorem Closed.create (hcl : Closed p env V G R) (t q : Dbl) : Holds p V G R (create p env t q) := by
  unfold R3.create
  refine Holds.calculateHop ?_ _ _
  have hnew : AllIn V p.channels (List.replicate p.channels (⟨p.ringBufferSize, []⟩ : Fifo α)) := by
    refine ⟨by simp, ?_⟩
    intro q hq a ha
    rw [(List.mem_replicate.mp hq).2] at ha
    cases ha
  refine ⟨hnew, hnew, hcl.init, ?_⟩
  intro r hr
  simp only at hr
  split at hr
  · exact Option.some.inj hr ▸ hcl.rsInit
  · cases hr

theorem Closed.run (hcl : Closed p env V G R) : ∀ (cs : List (Call α)) (s : State α σ ρ) (r : State α σ ρ × List (List (List α))), Holds p V G R s → (∀ c ∈ cs, c.gives V p.channels) →
    run p env s cs = some r → Holds p V G R r.1 ∧ ∀ o ∈ r.2, ∀ l ∈ o, ∀ a ∈ l, V a := by
  intro cs
  induction cs with
  | nil => intro s r h _ hr; cases hr; exact ⟨h, by intro o ho; cases ho⟩
  | cons c cs ih =>
    intro s r h hg hr
    obtain ⟨a, ha, hr⟩ := Option.bind_eq_some_iff.mp hr
    obtain ⟨b, hb, hr⟩ := Option.bind_eq_some_iff.mp hr
    cases hr
    obtain ⟨a1, a2⟩ := hcl.call h (hg c (by simp)) ha
    obtain ⟨b1, b2⟩ := ih a.1 b a1 (fun c hc => hg c (by simp [hc])) hb
    refine ⟨b1, ?_⟩
    intro o ho
    rcases List.mem_cons.mp ho with rfl | ho
    · exact a2
    · exact b2 o ho

end Verif.R3
