import Verif.R3Defined
/-!
# What the analysis of the R3 engine gets to see: the second part of C28
-/
namespace Verif.R3
open Verif.Round Verif.StretchCalc

variable {α σ ρ : Type}

/-! ## The contents of the buffers of the channels -/

/-- What the buffer of a channel holds. -/
def dataAt (bufs : List (Fifo α)) (c : Nat) : List α := ((bufs.map Fifo.data)[c]?).getD []

theorem dataAt_of_lt {bufs : List (Fifo α)} {c : Nat} (h : c < bufs.length) : dataAt bufs c = bufs[c].data := by
  unfold dataAt
  rw [List.getElem?_map, List.getElem?_eq_getElem h]
  rfl

theorem dataAt_skip (bufs : List (Fifo α)) (c k : Nat) : dataAt (bufs.map fun q => q.skip k) c = (dataAt bufs c).drop k := by
  unfold dataAt
  simp only [List.map_map, List.getElem?_map]
  cases bufs[c]? with
  | none => simp
  | some q => rfl

theorem dataAt_congr {bufs bufs' : List (Fifo α)} (h : bufs'.map Fifo.data = bufs.map Fifo.data) (c : Nat) : dataAt bufs' c = dataAt bufs c := by
  unfold dataAt
  rw [h]

theorem dataAt_length {n : Nat} {bufs : List (Fifo α)} {cap m c : Nat} (h : Uniform n bufs cap m) (hc : c < n) : (dataAt bufs c).length = m := by
  rw [dataAt_of_lt (by rw [h.1]; exact hc)]
  exact (h.2 _ (List.getElem_mem _)).2

/-- Writing where there is room. -/
theorem dataAt_writeAll {n : Nat} {bufs : List (Fifo α)} {cap m c : Nat} (h : Uniform n bufs cap m) (hc : c < n) (block : List (Frame α))
    (hroom : m + block.length ≤ cap) : dataAt (writeAll bufs block) c = dataAt bufs c ++ block.map fun f => f c := by
  have hl : c < bufs.length := by rw [h.1]; exact hc
  have hl' : c < (writeAll bufs block).length := by simpa [writeAll] using hl
  rw [dataAt_of_lt hl, dataAt_of_lt hl']
  simp only [writeAll, List.getElem_mapIdx, Fifo.write, Fifo.writeSpace]
  obtain ⟨h1, h2⟩ := h.2 bufs[c] (List.getElem_mem hl)
  rw [List.take_of_length_le]
  rw [List.length_map, h1, h2]
  omega

/-- Writing zeros where there is room. -/
theorem dataAt_zero [Zero α] {n : Nat} {bufs : List (Fifo α)} {cap m c : Nat} (h : Uniform n bufs cap m) (hc : c < n) (k : Nat)
    (hroom : m + k ≤ cap) : dataAt (bufs.map fun q => q.zero k) c = dataAt bufs c ++ List.replicate k 0 := by
  have hl : c < bufs.length := by rw [h.1]; exact hc
  rw [dataAt_of_lt hl, dataAt_of_lt (by simpa using hl)]
  simp only [List.getElem_map, Fifo.zero, Fifo.write, Fifo.writeSpace]
  obtain ⟨h1, h2⟩ := h.2 bufs[c] (List.getElem_mem hl)
  rw [List.take_of_length_le]
  rw [List.length_replicate, h1, h2]
  omega

/-- The first `n` of a list, with zeros to make up for what is missing. -/
def padded [Zero α] (n : Nat) (l : List α) : List α := l.take n ++ List.replicate (n - l.length) 0

theorem windows_eq [Zero α] (p : Params) {n : Nat} {bufs : List (Fifo α)} (h : bufs.length = n) :
    bufs.map (sourceWindow p) = (List.range n).map fun c => padded p.windowSourceSize (dataAt bufs c) := by
  apply List.ext_getElem
  · simp [h]
  · intro i h1 h2
    simp only [List.length_map] at h1
    simp only [List.getElem_map, List.getElem_range]
    rw [dataAt_of_lt h1]
    rfl

/-! ## An observer -/

/-- What is observed of a round: the arguments of the spectral processing, the windows it gets and what comes out. -/
structure Entry (α : Type) where
  hop : Hop
  windows : List (List α)
  out : List (Frame α)

/-- The same engine with an observer within the spectral processing, who writes down what they see since creation or
the last reset. -/
def recording (env : Env α σ ρ) : Env α (σ × List (Entry α)) ρ where
  dspInit := (env.dspInit, [])
  dspReset := fun s => (env.dspReset s.1, [])
  dsp := fun s hop w =>
    ((((env.dsp s.1 hop w).1, s.2 ++ [⟨hop, w, (List.range hop.outhop).map fun i c => (env.dsp s.1 hop w).2 c i⟩])), (env.dsp s.1 hop w).2)
  rsInit := env.rsInit
  rsReset := env.rsReset
  resample := env.resample
  effective := env.effective
  curve := env.curve
  halve := env.halve

/-- How far the input has been advanced. -/
def advanced (log : List (Entry α)) : Nat := (log.map fun e => e.hop.inhop).sum

theorem advanced_append (log : List (Entry α)) (e : Entry α) : advanced (log ++ [e]) = advanced log + e.hop.inhop := by
  simp [advanced]

/-! ## The invariant -/

variable [Zero α]

/-- The frames `fed` have been given to the engine, and the windows seen so far have been cut from them one hop after the other. -/
structure Stream (p : Params) (s : State α (σ × List (Entry α)) ρ) (fed : List (Frame α)) : Prop where
  waiting : ∀ c < p.channels, dataAt s.inbuf c = (fed.map fun f => f c).drop (advanced s.dsp.2)
  consumed : s.consumedInputDuration = min fed.length (advanced s.dsp.2)
  seen : ∀ k e, s.dsp.2[k]? = some e → e.windows = (List.range p.channels).map fun c =>
    padded p.windowSourceSize ((fed.map fun f => f c).drop (advanced (s.dsp.2.take k)))
  hops : ∀ e ∈ s.dsp.2, 1 ≤ e.hop.inhop ∧ e.hop.inhop ≤ p.windowSourceSize

/-- All windows so far lie within what has been given. -/
structure Inside (p : Params) (s : State α (σ × List (Entry α)) ρ) (fed : List (Frame α)) : Prop where
  total : advanced s.dsp.2 ≤ fed.length
  each : ∀ k < s.dsp.2.length, advanced (s.dsp.2.take k) + p.windowSourceSize ≤ fed.length

theorem Stream.congr {p : Params} {s s' : State α (σ × List (Entry α)) ρ} {fed : List (Frame α)} (h : Stream p s fed)
    (h1 : s'.inbuf.map Fifo.data = s.inbuf.map Fifo.data) (h2 : s'.dsp = s.dsp) (h3 : s'.consumedInputDuration = s.consumedInputDuration) :
    Stream p s' fed :=
  ⟨fun c hc => by rw [dataAt_congr h1, h2]; exact h.waiting c hc, by rw [h2, h3]; exact h.consumed, by rw [h2]; exact h.seen, by rw [h2]; exact h.hops⟩

omit [Zero α] in
theorem Inside.congr {p : Params} {s s' : State α (σ × List (Entry α)) ρ} {fed : List (Frame α)} (h : Inside p s fed) (h2 : s'.dsp = s.dsp) :
    Inside p s' fed :=
  ⟨by rw [h2]; exact h.total, by rw [h2]; exact h.each⟩

theorem padded_append {n : Nat} {l m : List α} (h : n ≤ l.length) : padded n (l ++ m) = padded n l := by
  unfold padded
  rw [List.take_append_of_le_length h, List.length_append]
  congr 2
  omega

omit [Zero α] in
theorem advanced_take_le (log : List (Entry α)) (k : Nat) : advanced (log.take k) ≤ advanced log := by
  unfold advanced
  conv_rhs => rw [← List.take_append_drop k log]
  rw [List.map_append, List.sum_append]
  omega

/-- More input. -/
theorem Stream.feed {p : Params} {s s' : State α (σ × List (Entry α)) ρ} {fed block : List (Frame α)} (h : Stream p s fed) (hi : Inside p s fed)
    (h1 : ∀ c < p.channels, dataAt s'.inbuf c = dataAt s.inbuf c ++ block.map fun f => f c) (h2 : s'.dsp = s.dsp)
    (h3 : s'.consumedInputDuration = s.consumedInputDuration) : Stream p s' (fed ++ block) ∧ Inside p s' (fed ++ block) := by
  refine ⟨⟨?_, ?_, ?_, by rw [h2]; exact h.hops⟩, ?_, ?_⟩
  · intro c hc
    rw [h1 c hc, h.waiting c hc, h2, List.map_append, List.drop_append_of_le_length (by simpa using hi.total)]
  · rw [h2, h3, h.consumed, List.length_append]
    have := hi.total
    omega
  · rw [h2]
    intro k e he
    have hk : k < s.dsp.2.length := by
      by_contra hx
      rw [List.getElem?_eq_none (by omega)] at he
      cases he
    have hin := hi.each k hk
    rw [h.seen k e he]
    apply List.map_congr_left
    intro c _
    rw [List.map_append, List.drop_append_of_le_length (by rw [List.length_map]; omega), padded_append]
    rw [List.length_drop, List.length_map]
    omega
  · rw [h2, List.length_append]
    have := hi.total
    omega
  · rw [h2, List.length_append]
    intro k hk
    have := hi.each k hk
    omega

omit [Zero α] in
theorem maxInhop_le (p : Params) : p.maxInhop ≤ p.windowSourceSize := by
  obtain ⟨_, _, _, _, z5, _, z7⟩ := sizes_eq p
  rw [z5, z7]
  split <;> omega

/-- A round of `consume`. -/
theorem RoundFacts.stream {p : Params} (hc : 0 < p.channels) {env : Env α σ ρ} {final : Bool} {inhop outhop : Nat}
    {s s' : State α (σ × List (Entry α)) ρ} (f : RoundFacts p (recording env) final inhop outhop s s') {icap ocap n m : Nat} (hb : Bufs p s icap ocap n m)
    (hi1 : 1 ≤ inhop) (hi2 : inhop ≤ p.windowSourceSize) {fed : List (Frame α)} (h : Stream p s fed) :
    Stream p s' fed ∧ (p.windowSourceSize ≤ n → Inside p s fed → Inside p s' fed) := by
  have hn : (in0 s).readSpace = n := (in0_eq hc hb.inU).2.1
  have hlog : s'.dsp.2 = s.dsp.2 ++ [⟨hopOf s inhop outhop, s.inbuf.map (sourceWindow p), mixOf p (recording env) s inhop outhop⟩] := by
    rw [f.dsp]; rfl
  have hnl : n = fed.length - advanced s.dsp.2 := by
    have h1 := dataAt_length hb.inU hc
    rw [h.waiting 0 hc, List.length_drop, List.length_map] at h1
    exact h1.symm
  have hadv : advanced s'.dsp.2 = advanced s.dsp.2 + inhop := by
    rw [hlog, advanced_append]; rfl
  refine ⟨⟨?_, ?_, ?_, ?_⟩, ?_⟩
  · intro c hcc
    rw [f.inbuf, dataAt_skip, h.waiting c hcc, hadv, List.drop_drop, hn]
    rcases Nat.le_total inhop n with e | e
    · rw [Nat.min_eq_left e]
    · rw [Nat.min_eq_right e, List.drop_eq_nil_of_le (by rw [List.length_map]; omega), List.drop_eq_nil_of_le (by rw [List.length_map]; omega)]
  · rw [f.consumed, h.consumed, hn, hadv]
    omega
  · intro k e he
    rw [hlog] at he ⊢
    rcases Nat.lt_or_ge k s.dsp.2.length with hk | hk
    · rw [List.getElem?_append_left hk] at he
      rw [h.seen k e he, List.take_append_of_le_length (by omega)]
    · rw [List.getElem?_append_right hk] at he
      have hk0 : k - s.dsp.2.length = 0 := by
        by_contra hx
        rw [List.getElem?_eq_none (by simp; omega)] at he
        cases he
      rw [hk0] at he
      cases he
      have hke : k = s.dsp.2.length := by omega
      rw [hke, List.take_left']
      · rw [windows_eq p hb.inU.1]
        apply List.map_congr_left
        intro c hcr
        rw [h.waiting c (List.mem_range.mp hcr)]
      · rfl
  · rw [hlog]
    intro e he
    rcases List.mem_append.mp he with he | he
    · exact h.hops e he
    · rw [List.mem_singleton.mp he]
      exact ⟨hi1, hi2⟩
  · intro hw hin
    have ht := hin.total
    refine ⟨by rw [hadv]; omega, ?_⟩
    intro k hk
    rw [hlog] at hk ⊢
    rw [List.length_append, List.length_singleton] at hk
    rcases Nat.lt_or_ge k s.dsp.2.length with hk' | hk'
    · rw [List.take_append_of_le_length (by omega)]
      exact hin.each k hk'
    · have hke : k = s.dsp.2.length := by omega
      rw [hke, List.take_left']
      · omega
      · rfl

/-- `consume`. -/
theorem consume_stream {p : Params} (hc : 0 < p.channels) {env : Env α σ ρ} {final : Bool} {s s' : State α (σ × List (Entry α)) ρ}
    (hh : Hops p (recording env) s) {icap ocap n m : Nat} (hb : Bufs p s icap ocap n m) {fed : List (Frame α)} (h : Stream p s fed)
    (hin : Inside p s fed) (hs : consume p (recording env) final s = some s') :
    Stream p s' fed ∧ (final = false → Inside p s' fed) ∧ (final = true → fed.length ≤ advanced s'.dsp.2) := by
  have hi1 : 1 ≤ s.inhop := hh.inhop_pos
  have hi2 : s.inhop ≤ p.windowSourceSize := by
    rw [hh.inhop]; exact (inhopFor_bounds p _ _).2.trans (maxInhop_le p)
  obtain ⟨⟨⟨oc, n', m', hb'⟩, h1, h2⟩, hst⟩ := consume_induct
    (fun t => (∃ ocap' n' m', Bufs p t icap ocap' n' m') ∧ Stream p t fed ∧ (final = false → Inside p t fed))
    (by
      rintro t t' ⟨⟨oc, n', m', bt⟩, st, it⟩ hns f
      obtain ⟨oc', m'', _, bt'⟩ := f.bufs hc bt
      obtain ⟨a, b⟩ := f.stream hc bt hi1 hi2 st
      refine ⟨⟨_, _, _, bt'⟩, a, ?_⟩
      intro hf
      refine b ?_ (it hf)
      rw [stops_iff, (in0_eq hc bt.inU).2.1] at hns
      by_contra hx
      exact hns ⟨by omega, by intro hf'; rw [hf] at hf'; cases hf'⟩)
    ⟨⟨ocap, n, m, ⟨hb.1, hb.2, hb.3, hb.4, hb.5, hb.6, hb.7⟩⟩, h.congr rfl rfl rfl, fun _ => hin.congr rfl⟩ hs
  refine ⟨h1, h2, ?_⟩
  intro hf
  rw [stops_iff] at hst
  have h0 := (hst.2 hf).1
  rw [(in0_eq hc hb'.inU).2.1] at h0
  have hl := dataAt_length hb'.inU hc
  rw [h1.waiting 0 hc, List.length_drop, List.length_map] at hl
  omega

/-! ## `process` -/

variable [Add α] [Sub α]

/-- A frame as it is put in the input buffers. -/
def coded (p : Params) (halve : α → α) (f : Frame α) : Frame α := if p.useMidSide then encode halve f else f

omit [Zero α] in
theorem coded_map (p : Params) (halve : α → α) (block : List (Frame α)) :
    (if p.useMidSide then block.map (encode halve) else block) = block.map (coded p halve) := by
  unfold coded
  split <;> simp_all

omit [Add α] [Sub α] in
theorem roomy_stream {p : Params} (hc : 0 < p.channels) {env : Env α σ ρ} {s a : State α (σ × List (Entry α)) ρ}
    (hh : Hops p (recording env) s) {icap ocap n m : Nat} (hb : Bufs p s icap ocap n m) {fed : List (Frame α)} (h : Stream p s fed)
    (hin : Inside p s fed) (ha : roomy p (recording env) s = some a) :
    Stream p a fed ∧ Inside p a fed ∧ Kept s a ∧ ∃ ocap' n' m', Bufs p a icap ocap' n' m' := by
  unfold roomy at ha
  split at ha
  · obtain ⟨a1, a2, _⟩ := consume_stream hc hh hb h hin ha
    obtain ⟨oc, n', m', _, _, hb', _⟩ := consume_bufs hc ha hb
    exact ⟨a1, a2 rfl, consume_kept ha, _, _, _, hb'⟩
  · cases ha
    exact ⟨h, hin, Kept.refl _, _, _, _, hb⟩

/-- All of the input in one round, when it is not resampled. -/
theorem processRound_stream {p : Params} (hc : 0 < p.channels) {env : Env α σ ρ} {final : Bool} {s : State α (σ × List (Entry α)) ρ}
    {rest : List (Frame α)} {r : State α (σ × List (Entry α)) ρ × List (Frame α)} (hh : Hops p (recording env) s) {icap ocap n m : Nat}
    (hb : Bufs p s icap ocap n m) {fed : List (Frame α)} (h : Stream p s fed) (hin : Inside p s fed)
    (hr : processRound p (recording env) false final s rest = some r) :
    r.2 = [] ∧ Stream p r.1 (fed ++ rest.map (coded p env.halve)) ∧ (final = false → Inside p r.1 (fed ++ rest.map (coded p env.halve))) ∧
      (final = true → (fed ++ rest.map (coded p env.halve)).length ≤ advanced r.1.dsp.2) := by
  obtain ⟨a, b, k, h1, h2, h3, h4⟩ := processRound_split hr
  obtain ⟨sa, ia, ka, oc, n1, m1, ba⟩ := roomy_stream hc hh hb h hin h1
  obtain ⟨ic', i1, i2, be, ke⟩ := ensureInbuf_bufs hc ba rest.length
  have ed := ensureInbuf_data hc ba rest.length
  have eo := ensureInbuf_other a rest.length
  have hw := (in0_eq hc be.inU).2.2
  rw [takeIn_plain (by rw [be.mix]; omega) (by rw [hw]; omega)] at h2
  have hbk := Option.some.inj h2
  rw [Prod.mk.injEq] at hbk
  obtain ⟨hbe, rfl⟩ := hbk
  rw [coded_map] at hbe
  have f := takeIn_facts (takeIn_plain (p := p) (env := recording env) (final := final) (s := ensureInbuf a rest.length) (rest := rest) (by rw [be.mix]; omega) (by rw [hw]; omega))
  obtain ⟨n2, bb⟩ := f.bufs be
  rw [coded_map] at bb
  simp only at bb
  have st : Stream p b (fed ++ rest.map (coded p env.halve)) ∧ Inside p b (fed ++ rest.map (coded p env.halve)) := by
    rw [← hbe]
    refine Stream.feed sa ia ?_ eo.2.2.2.2.2.2.2.2.2 eo.2.2.2.2.2.2.2.1
    intro c hcc
    simp only
    rw [dataAt_writeAll be.inU hcc _ (by rw [List.length_map]; exact i2), dataAt_congr ed]
    rfl
  have kb : Kept s b := by
    rw [← hbe]
    exact (ka.trans ke).trans ⟨rfl, rfl, rfl, rfl, rfl, rfl, rfl, rfl, rfl, rfl, rfl, rfl⟩
  have hbb : Bufs p b ic' oc n2 m1 := by rw [← hbe]; exact bb
  have e : (final && decide (rest.length ≥ rest.length)) = final := by simp
  rw [e] at h3
  obtain ⟨c1, c2, c3⟩ := consume_stream hc (kb.hops hh) hbb st.1 st.2 h3
  refine ⟨by rw [h4, List.drop_length], c1, c2, c3⟩

theorem processInput_stream {p : Params} (hc : 0 < p.channels) {env : Env α σ ρ} {final : Bool} {s s' : State α (σ × List (Entry α)) ρ}
    {input : List (Frame α)} (hh : Hops p (recording env) s) {icap ocap n m : Nat}
    (hb : Bufs p s icap ocap n m) {fed : List (Frame α)} (h : Stream p s fed) (hin : Inside p s fed) (hpre : resamplingBefore p s = false)
    (hs : processInput p (recording env) s input final = some s') :
    Stream p s' (fed ++ input.map (coded p env.halve)) ∧ (final = false → Inside p s' (fed ++ input.map (coded p env.halve))) ∧
      (final = true → (fed ++ input.map (coded p env.halve)).length ≤ advanced s'.dsp.2) := by
  unfold processInput at hs
  split at hs
  · rename_i hl
    rw [List.length_eq_zero_iff.mp hl, List.map_nil, List.append_nil]
    split at hs
    · rename_i hf
      subst hf
      exact consume_stream hc hh hb h hin hs
    · rename_i hf
      cases hs
      exact ⟨h, fun _ => hin, fun hf' => absurd hf' hf⟩
  · rename_i hl
    rw [hpre] at hs
    obtain ⟨k, hk⟩ := Nat.exists_eq_succ_of_ne_zero hl
    rw [hk] at hs
    unfold processLoop at hs
    rw [if_neg hl] at hs
    cases hr : processRound p (recording env) false final s input with
    | none => rw [hr] at hs; cases hs
    | some r =>
      rw [hr] at hs
      obtain ⟨r1, r2, r3, r4⟩ := processRound_stream hc hh hb h hin hr
      have : processLoop p (recording env) false final k r.1 r.2 = some r.1 := by
        rw [r1]
        cases k <;> rfl
      simp only [Option.bind_some] at hs
      rw [this] at hs
      cases hs
      exact ⟨r2, r3, r4⟩

/-! ## Histories -/

/-- What has been given to the engine since creation or the last reset, by the calls alone: before the first block, offline, half a
window of silence; then the blocks, each cut off at the greatest size allowed; nothing after a final block. -/
def feedFor (p : Params) (halve : α → α) (ph : Phase) (fed : List (Frame α)) : Call α → List (Frame α)
  | .reset => []
  | .process x _ =>
    if ph = .ended then fed
    else fed ++ ((if p.realTime = false ∧ (ph = .fresh ∨ ph = .studied) then List.replicate (p.windowSourceSize / 2) (fun _ => 0 : Frame α) else []) ++
      (x.take 524288).map (coded p halve))
  | _ => fed

def feedStep (p : Params) (halve : α → α) (st : Phase × List (Frame α)) (c : Call α) : Phase × List (Frame α) :=
  (phaseAfter p.realTime st.1 c, feedFor p halve st.1 st.2 c)

def given (p : Params) (halve : α → α) (cs : List (Call α)) : List (Frame α) := (cs.foldl (feedStep p halve) (.fresh, [])).2

/-- The invariant over histories. -/
structure StreamInv (p : Params) (s : State α (σ × List (Entry α)) ρ) (st : Phase × List (Frame α)) : Prop where
  mode : s.mode = st.1.mode
  stream : Stream p s st.2
  inside : st.1 ≠ .ended → Inside p s st.2
  all : st.1 = .ended → st.2.length ≤ advanced s.dsp.2
  idle : st.1 = .fresh ∨ st.1 = .studied → st.2 = [] ∧ s.dsp.2 = []

omit [Add α] [Sub α] in
theorem StreamInv.congr {p : Params} {s s' : State α (σ × List (Entry α)) ρ} {st st' : Phase × List (Frame α)} (h : StreamInv p s st)
    (h1 : s'.inbuf.map Fifo.data = s.inbuf.map Fifo.data) (h2 : s'.dsp = s.dsp) (h3 : s'.consumedInputDuration = s.consumedInputDuration)
    (h4 : s'.mode = st'.1.mode) (h5 : st'.2 = st.2) (h6 : st'.1 = .ended ↔ st.1 = .ended)
    (h7 : st'.1 = .fresh ∨ st'.1 = .studied → st.1 = .fresh ∨ st.1 = .studied) : StreamInv p s' st' := by
  refine ⟨h4, by rw [h5]; exact h.stream.congr h1 h2 h3, ?_, ?_, ?_⟩
  · intro hx; rw [h5]; exact (h.inside (fun hy => hx (h6.mpr hy))).congr h2
  · intro hx; rw [h5, h2]; exact h.all (h6.mp hx)
  · intro hx; rw [h5, h2]; exact h.idle (h7 hx)

omit [Zero α] [Add α] [Sub α] in
theorem offline_before (p : Params) (h : p.realTime = false) (s : State α σ ρ) : resamplingBefore p s = false := by
  unfold resamplingBefore areWeResampling
  rw [h]
  cases s.resampler.isSome <;> simp

omit [Add α] [Sub α] in
/-- What comes before the first block. -/
theorem prologue_stream {p : Params} (hc : 0 < p.channels) {env : Env α σ ρ} {s : State α (σ × List (Entry α)) ρ} (hi : Inv p (recording env) s)
    {ph : Phase} (hne : ph ≠ .ended) {fed : List (Frame α)} (hs : StreamInv p s (ph, fed)) :
    Stream p (prologue p (recording env) s) (fed ++ (if p.realTime = false ∧ (ph = .fresh ∨ ph = .studied) then List.replicate (p.windowSourceSize / 2) (fun _ => 0 : Frame α) else [])) ∧
    Inside p (prologue p (recording env) s) (fed ++ (if p.realTime = false ∧ (ph = .fresh ∨ ph = .studied) then List.replicate (p.windowSourceSize / 2) (fun _ => 0 : Frame α) else [])) := by
  obtain ⟨ic, oc, n, m, hb, h1, h2, h3⟩ := hi.bufs
  have hin := hs.inside hne
  cases hrt : p.realTime with
  | true =>
    have e : prologue p (recording env) s = s := by unfold prologue; rw [if_pos hrt]
    rw [e]
    simp only [Bool.true_eq_false, false_and, if_false, List.append_nil]
    exact ⟨hs.stream, hin⟩
  | false =>
    unfold prologue
    rw [hrt]
    simp only [Bool.false_eq_true, if_false, true_and]
    obtain ⟨u1, u2, u3, u4, u5, u6, _⟩ := updateRatioFromMap_facts p (recording env) (s := { s with totalTargetDuration := targetFor s }) (hi.hops.congr rfl rfl rfl rfl)
    have ud : (updateRatioFromMap p (recording env) { s with totalTargetDuration := targetFor s }).dsp = s.dsp ∧
        (updateRatioFromMap p (recording env) { s with totalTargetDuration := targetFor s }).consumedInputDuration = s.consumedInputDuration := by
      unfold updateRatioFromMap
      split
      · exact ⟨rfl, rfl⟩
      · split
        · exact ⟨rfl, rfl⟩
        · split
          · exact ⟨rfl, rfl⟩
          · split <;> exact ⟨rfl, rfl⟩
    have ub : Bufs p (updateRatioFromMap p (recording env) { s with totalTargetDuration := targetFor s }) ic oc n m := hb.congr u2 u3 u4
    generalize updateRatioFromMap p (recording env) { s with totalTargetDuration := targetFor s } = u at *
    have su : Stream p u fed := hs.stream.congr (by rw [u2]) ud.1 ud.2
    have iu : Inside p u fed := hin.congr ud.1
    have hmode : (u.mode = .justCreated ∨ u.mode = .studying) ↔ (ph = .fresh ∨ ph = .studied) := by
      rw [u5]
      simp only [hs.mode]
      cases ph <;> simp [Phase.mode]
    unfold padStart
    by_cases hm : ph = .fresh ∨ ph = .studied
    · rw [if_pos (hmode.mpr hm), if_pos hm]
      simp only
      have ub' : Bufs p { u with resampler := if u.pitchScale ≠ 1 ∧ u.resampler.isNone then some (recording env).rsInit else u.resampler } ic oc n m := ub.congr rfl rfl rfl
      obtain ⟨ic', i1, i2, be, _⟩ := ensureInbuf_bufs hc ub' (p.windowSourceSize / 2)
      have ed := ensureInbuf_data hc ub' (p.windowSourceSize / 2)
      have eo := ensureInbuf_other { u with resampler := if u.pitchScale ≠ 1 ∧ u.resampler.isNone then some (recording env).rsInit else u.resampler } (p.windowSourceSize / 2)
      refine Stream.feed su iu ?_ eo.2.2.2.2.2.2.2.2.2 eo.2.2.2.2.2.2.2.1
      intro c hcc
      simp only
      rw [dataAt_zero be.inU hcc _ i2, dataAt_congr ed]
      simp
    · rw [if_neg (fun hx => hm (hmode.mp hx)), if_neg hm, List.append_nil]
      exact ⟨su, iu⟩

omit [Add α] [Sub α] in
theorem create_streamInv (p : Params) (env : Env α σ ρ) (t ps : Dbl) : StreamInv p (create p (recording env) t ps) (.fresh, []) := by
  refine ⟨rfl, ⟨?_, rfl, ?_, ?_⟩, ?_, ?_, ?_⟩
  · intro c hc
    have hl : c < (create p (recording env) t ps).inbuf.length := by
      show c < (List.replicate p.channels _).length
      simpa using hc
    rw [dataAt_of_lt hl]
    show ((List.replicate p.channels (⟨p.ringBufferSize, []⟩ : Fifo α))[c]'(by simpa using hc)).data = _
    rw [List.getElem_replicate]
    simp
  · intro k e he
    have : (create p (recording env) t ps).dsp.2 = [] := rfl
    rw [this] at he
    cases he
  · intro e he
    have : (create p (recording env) t ps).dsp.2 = [] := rfl
    rw [this] at he
    cases he
  · intro _
    exact ⟨by show advanced [] ≤ 0; simp [advanced], fun k hk => absurd hk (by show ¬ k < ([] : List (Entry α)).length; simp)⟩
  · intro h; cases h
  · intro _; exact ⟨rfl, rfl⟩

theorem call_streamInv {p : Params} (hc : 0 < p.channels) {env : Env α σ ρ} {s : State α (σ × List (Entry α)) ρ} (hi : Inv p (recording env) s)
    {st : Phase × List (Frame α)} (hs : StreamInv p s st) (hpre : resamplingBefore p s = false) {c : Call α}
    {r : State α (σ × List (Entry α)) ρ × List (List α)} (h : call p (recording env) s c = some r) : StreamInv p r.1 (feedStep p env.halve st c) := by
  have hmode := call_mode hs.mode h
  have same : ∀ s' : State α (σ × List (Entry α)) ρ, s'.inbuf.map Fifo.data = s.inbuf.map Fifo.data → s'.dsp = s.dsp →
      s'.consumedInputDuration = s.consumedInputDuration → s'.mode = st.1.mode → StreamInv p s' st := by
    intro s' h1 h2 h3 h4
    exact hs.congr h1 h2 h3 h4 rfl Iff.rfl id
  cases c with
  | setTimeRatio x =>
    cases h
    show StreamInv p (setTimeRatio p (recording env) s x) st
    unfold setTimeRatio
    split
    · exact hs
    · split
      · exact hs
      · exact same _ rfl rfl rfl hs.mode
  | setPitchScale x =>
    cases h
    show StreamInv p (setPitchScale p (recording env) s x) st
    unfold setPitchScale
    split
    · exact hs
    · split
      · exact hs
      · exact same _ rfl rfl rfl hs.mode
  | setFormantScale x =>
    cases h
    show StreamInv p (setFormantScale p s x) st
    unfold setFormantScale
    split
    · exact hs
    · exact same _ rfl rfl rfl hs.mode
  | setKeyFrameMap x =>
    cases h
    show StreamInv p (setKeyFrameMap p s x) st
    unfold setKeyFrameMap
    split
    · exact hs
    · split
      · exact hs
      · exact same _ rfl rfl rfl hs.mode
  | setExpectedInputDuration x => cases h; exact same _ rfl rfl rfl hs.mode
  | setMaxProcessSize x =>
    cases h
    show StreamInv p (setMaxProcessSize s x) st
    unfold setMaxProcessSize
    simp only
    generalize (if x > overallMaxProcessSize then overallMaxProcessSize else x) = k
    obtain ⟨ic, oc, n, m, hb, _, _, _⟩ := hi.bufs
    have e1 := ensureInbuf_other s (k * 2)
    have e2 := ensureOutbuf_other (ensureInbuf s (k * 2)) (k * 8)
    refine same _ ?_ ?_ ?_ ?_
    · rw [e2.1]; exact ensureInbuf_data hc hb _
    · exact e2.2.2.2.2.2.2.2.2.2.trans e1.2.2.2.2.2.2.2.2.2
    · exact e2.2.2.2.2.2.2.2.1.trans e1.2.2.2.2.2.2.2.1
    · exact (((ensureInbuf_kept s (k * 2)).trans (ensureOutbuf_kept _ (k * 8))).mode).trans hs.mode
  | study x =>
    cases h
    refine hs.congr ?_ ?_ ?_ hmode rfl ?_ ?_
    · show (study p s x).inbuf.map _ = _
      unfold study
      split
      · rfl
      · split <;> rfl
    · show (study p s x).dsp = _
      unfold study
      split
      · rfl
      · split <;> rfl
    · show (study p s x).consumedInputDuration = _
      unfold study
      split
      · rfl
      · split <;> rfl
    · show (if p.realTime = false ∧ st.1 = .fresh then Phase.studied else st.1) = .ended ↔ _
      split
      · rename_i hx; rw [hx.2]; simp
      · exact Iff.rfl
    · show (if p.realTime = false ∧ st.1 = .fresh then Phase.studied else st.1) = .fresh ∨ (if p.realTime = false ∧ st.1 = .fresh then Phase.studied else st.1) = .studied → _
      split
      · rename_i hx; intro _; left; exact hx.2
      · exact id
  | process x f =>
    obtain ⟨ph, fed⟩ := st
    have h' := h
    unfold call at h
    rw [Option.map_eq_some_iff] at h
    obtain ⟨t, ht, rfl⟩ := h
    by_cases hend : ph = .ended
    · have hm : s.mode = .finished := by rw [hs.mode, hend]; rfl
      have e : process p (recording env) s x f = some s := by unfold process; rw [if_pos hm]
      rw [e] at ht
      cases ht
      have e2 : feedStep p env.halve (ph, fed) (.process x f) = (ph, fed) := by
        unfold feedStep phaseAfter feedFor
        simp [hend]
      rw [e2]
      exact hs
    · have hm : s.mode ≠ .finished := by
        rw [hs.mode]
        cases ph <;> simp_all [Phase.mode]
      unfold process at ht
      rw [if_neg hm, Option.map_eq_some_iff] at ht
      obtain ⟨u, hu, rfl⟩ := ht
      obtain ⟨ic, oc, n, m, hb, h1, h2, h3⟩ := hi.bufs
      obtain ⟨q1, ⟨ic', n', q2, q3⟩, q4, _⟩ := prologue_facts hc hi.hops hb h1 (fun hm => (h2 hm).1)
      obtain ⟨p1, p2⟩ := prologue_stream hc hi hend hs
      have hpre' : resamplingBefore p (prologue p (recording env) s) = false := by
        cases hrt : p.realTime with
        | false => exact offline_before p hrt _
        | true =>
          have e : prologue p (recording env) s = s := by unfold prologue; rw [if_pos hrt]
          rw [e]; exact hpre
      obtain ⟨v1, v2, v3⟩ := processInput_stream hc q1 q2 p1 p2 hpre' hu
      have e2 : feedStep p env.halve (ph, fed) (.process x f) = ((if f then .ended else .running),
          fed ++ (if p.realTime = false ∧ (ph = .fresh ∨ ph = .studied) then List.replicate (p.windowSourceSize / 2) (fun _ => 0 : Frame α) else []) ++
            (x.take overallMaxProcessSize).map (coded p env.halve)) := by
        unfold feedStep phaseAfter feedFor
        simp only [hend, if_false, false_or, List.append_assoc]
        rfl
      rw [e2]
      refine ⟨?_, v1.congr rfl rfl rfl, ?_, ?_, ?_⟩
      · cases f <;> rfl
      · intro hx
        cases f with
        | false => exact (v2 rfl).congr rfl
        | true => exact absurd rfl hx
      · intro hx
        cases f with
        | false => cases hx
        | true => exact v3 rfl
      · intro hx
        cases f <;> simp at hx
  | retrieve k => cases h; exact same _ rfl rfl rfl hs.mode
  | reset =>
    cases h
    obtain ⟨ic, oc, n, m, hb, _, _, _⟩ := hi.bufs
    have hlog : (reset p (recording env) s).dsp.2 = [] := rfl
    refine ⟨rfl, ⟨?_, rfl, ?_, ?_⟩, ?_, ?_, ?_⟩
    · intro c hcc
      have hu : Uniform p.channels (reset p (recording env) s).inbuf ic 0 := hb.inU.reset
      have := dataAt_length hu hcc
      show dataAt (reset p (recording env) s).inbuf c = _
      rw [List.length_eq_zero_iff.mp this]
      simp [feedStep, feedFor]
    · intro k e he
      have he' : (reset p (recording env) s).dsp.2[k]? = some e := he
      rw [hlog] at he'
      cases he'
    · intro e he
      have he' : e ∈ (reset p (recording env) s).dsp.2 := he
      rw [hlog] at he'
      cases he'
    · intro _
      exact ⟨by show advanced [] ≤ _; simp [advanced], fun k hk => absurd hk (by show ¬ k < ([] : List (Entry α)).length; simp)⟩
    · intro hx; cases hx
    · intro _; exact ⟨rfl, rfl⟩

/-- There is no resampling of the input at any point of a history. -/
def NeverBefore (p : Params) (env : Env α σ ρ) (s : State α σ ρ) (cs : List (Call α)) : Prop :=
  ∀ pre post r, cs = pre ++ post → run p env s pre = some r → resamplingBefore p r.1 = false

theorem run_streamInv {p : Params} (hc : 0 < p.channels) {env : Env α σ ρ} : ∀ (cs : List (Call α)) (s : State α (σ × List (Entry α)) ρ)
    (st : Phase × List (Frame α)) (r : State α (σ × List (Entry α)) ρ × List (List (List α))), Inv p (recording env) s → StreamInv p s st →
      NeverBefore p (recording env) s cs → run p (recording env) s cs = some r → StreamInv p r.1 (cs.foldl (feedStep p env.halve) st) := by
  intro cs
  induction cs with
  | nil => intro s st r _ hs _ h; cases h; exact hs
  | cons c cs ih =>
    intro s st r hi hs hn h
    obtain ⟨a, b, ha, hb, rfl⟩ := run_cons h
    refine ih a.1 _ b (call_inv hc hi ha) (call_streamInv hc hi hs (hn [] (c :: cs) (s, []) rfl rfl) ha) ?_ hb
    intro pre post r' hp hr'
    refine hn (c :: pre) post (r'.1, a.2 :: r'.2) (by rw [hp]; rfl) ?_
    unfold run
    simp only [Option.bind_eq_bind, Option.pure_def, ha, Option.bind_some, hr']

/-- Offline, or with the option for high consistency, the input is never resampled. -/
theorem neverBefore (p : Params) (h : p.realTime = false ∨ p.highConsistency = true) (env : Env α σ ρ) (s : State α σ ρ) (cs : List (Call α)) :
    NeverBefore p env s cs := by
  intro pre post r _ _
  rcases h with h | h
  · exact offline_before p h r.1
  · unfold resamplingBefore areWeResampling
    rw [h]
    cases r.1.resampler.isSome <;> cases p.realTime <;> simp

/-- **C28**, the second part.  After any history in which the input is not resampled, the windows that the analysis has seen were
cut from the frames given to the engine, each one hop after the last; a hop is at least 1 and at most the window, so no
frame is passed over; what follows the last window is still waiting, and is less than a window; and after a final block all has been seen.
`given` is made up of the blocks in the order of the calls, so that no frame is lost or repeated. -/
theorem C28_stream {p : Params} (hc : 0 < p.channels) (env : Env α σ ρ) (t ps : Dbl) (cs : List (Call α))
    {r : State α (σ × List (Entry α)) ρ × List (List (List α))} (h : run p (recording env) (create p (recording env) t ps) cs = some r)
    (hpre : NeverBefore p (recording env) (create p (recording env) t ps) cs) :
    let log := r.1.dsp.2
    let fed := given p env.halve cs
    (∀ k e, log[k]? = some e → e.windows = (List.range p.channels).map fun c =>
      padded p.windowSourceSize ((fed.map fun f => f c).drop ((log.take k).map fun e => e.hop.inhop).sum)) ∧
    (∀ e ∈ log, 1 ≤ e.hop.inhop ∧ e.hop.inhop ≤ p.windowSourceSize) ∧
    fed.length < (log.map fun e => e.hop.inhop).sum + p.windowSourceSize ∧
    (phase p.realTime cs = .ended → fed.length ≤ (log.map fun e => e.hop.inhop).sum) ∧
    (phase p.realTime cs ≠ .ended → ∀ k < log.length, ((log.take k).map fun e => e.hop.inhop).sum + p.windowSourceSize ≤ fed.length) := by
  have hi := run_inv hc cs _ _ (create_inv p (recording env) t ps) h
  have hs := run_streamInv hc cs _ _ r (create_inv p (recording env) t ps) (create_streamInv p env t ps) hpre h
  have hph : (cs.foldl (feedStep p env.halve) (.fresh, [])).1 = phase p.realTime cs := by
    unfold phase
    have : ∀ (cs : List (Call α)) (st : Phase × List (Frame α)), (cs.foldl (feedStep p env.halve) st).1 = cs.foldl (phaseAfter p.realTime) st.1 := by
      intro cs
      induction cs with
      | nil => intro st; rfl
      | cons c cs ih => intro st; exact ih _
    exact this cs _
  refine ⟨hs.stream.seen, hs.stream.hops, ?_, ?_, ?_⟩
  · obtain ⟨ic, oc, n, m, hb, hn, _, _⟩ := hi.bufs
    have hl := dataAt_length hb.inU hc
    rw [hs.stream.waiting 0 hc, List.length_drop, List.length_map] at hl
    show (given p env.halve cs).length < advanced r.1.dsp.2 + _
    unfold given
    omega
  · intro hx; exact hs.all (hph.trans hx)
  · intro hx; exact (hs.inside (by rw [hph]; exact hx)).each

/-- Two blocks and then the end, offline: the pad and the input, 544 + 900 frames, are seen through windows 80 apart; the ninth
begins at 8 * 80 - 544. -/
def Ex.seen : Option (Nat × Nat × List (Nat × Rat × Rat)) :=
  (run (Ex.small false) (recording Ex.env) (create (Ex.small false) (recording Ex.env) (.fin 1) (.fin 1))
    [.study 900, .process (Ex.block 600) false, .process (Ex.block 300) true]).map fun r =>
      (r.1.dsp.2.length, (r.1.dsp.2.map fun e => e.hop.inhop).sum, ((r.1.dsp.2.map fun e => e.windows).getD 8 []).map fun w => (w.length, w.getD 0 0, w.getD 600 0))

example : Ex.seen = some (32, 2560, [(1088, 96, 96), (1088, 97, 97)]) := by decide +kernel

end Verif.R3
