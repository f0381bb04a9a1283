import Verif.R3Output
/-!
# What the R3 engine delivers: C34, C55, C56
-/
namespace Verif.R3
open Verif.Round Verif.StretchCalc

variable {α σ ρ : Type}

/-- All that has been synthesised, in order. -/
def produced (log : List (Entry α)) : List (Frame α) := (log.map Entry.out).flatten

theorem produced_append (log : List (Entry α)) (e : Entry α) : produced (log ++ [e]) = produced log ++ e.out := by
  simp [produced]

/-- At most `T`, unless that is 0. -/
def cut {β : Type} (T : Nat) (l : List β) : List β := if T = 0 then l else l.take T

/-- A frame as it is delivered. -/
def delivered [Add α] [Sub α] (p : Params) (f : Frame α) : Frame α :=
  if p.useMidSide then fun c => if c = 0 then f 0 + f 1 else if c = 1 then f 0 - f 1 else f c else f

/-- The frames `pend` wait in the buffers; with those gone before they are all that has been synthesised, but for the first
`skip` frames, cut off at `T`. -/
structure Out (p : Params) (s : State α (σ × List (Entry α)) ρ) (skip T : Nat) (gone pend : List (Frame α)) : Prop where
  data : ∀ c < p.channels, dataAt s.outbuf c = pend.map fun f => f c
  left : s.startSkip = skip - (produced s.dsp.2).length
  all : gone ++ pend = cut T ((produced s.dsp.2).drop skip)
  total : s.totalOutputDuration = (gone ++ pend).length

theorem Out.congr {p : Params} {s s' : State α (σ × List (Entry α)) ρ} {skip T : Nat} {gone pend : List (Frame α)} (h : Out p s skip T gone pend)
    (h1 : s'.outbuf.map Fifo.data = s.outbuf.map Fifo.data) (h2 : s'.dsp = s.dsp) (h3 : s'.startSkip = s.startSkip)
    (h4 : s'.totalOutputDuration = s.totalOutputDuration) : Out p s' skip T gone pend :=
  ⟨fun c hc => by rw [dataAt_congr h1]; exact h.data c hc, by rw [h2, h3]; exact h.left, by rw [h2]; exact h.all, by rw [h4]; exact h.total⟩

theorem cut_append {β : Type} (T : Nat) (a b : List β) : cut T (a ++ b) = cut T a ++ (if T = 0 then b else b.take (T - a.length)) := by
  unfold cut
  split
  · rfl
  · rw [List.take_append]

theorem cut_length {β : Type} (T : Nat) (a : List β) : (cut T a).length = if T = 0 then a.length else min T a.length := by
  unfold cut
  split
  · rfl
  · simp

section
variable [Zero α]

/-- A round of `consume` without resampling. -/
theorem RoundFacts.out {p : Params} (hc : 0 < p.channels) {env : Env α σ ρ} {final : Bool} {inhop outhop : Nat}
    {s s' : State α (σ × List (Entry α)) ρ} (f : RoundFacts p (recording env) final inhop outhop s s') {icap ocap n m : Nat} (hb : Bufs p s icap ocap n m)
    (hna : resamplingAfter p s = false) {skip T : Nat} (hT : s.totalTargetDuration = T) (hrt : p.realTime = true → T = 0)
    (hlong : T = 0 ∨ outhop ≤ T) {gone pend : List (Frame α)} (h : Out p s skip T gone pend) (hg : 0 < s.startSkip → gone = []) :
    (∃ pend', Out p s' skip T gone pend') ∧ (0 < s'.startSkip → gone = []) := by
  have hlog : s'.dsp.2 = s.dsp.2 ++ [⟨hopOf s inhop outhop, s.inbuf.map (sourceWindow p), mixOf p (recording env) s inhop outhop⟩] := by
    rw [f.dsp]; rfl
  have hout : (outOf p (recording env) final s inhop outhop).2 = mixOf p (recording env) s inhop outhop := by
    unfold outOf resampleAfter
    split
    · rename_i hx; rw [hna] at hx; cases hx
    · rfl
  have hlen : (mixOf p (recording env) s inhop outhop).length = outhop := by simp [mixOf]
  have hprod : produced s'.dsp.2 = produced s.dsp.2 ++ mixOf p (recording env) s inhop outhop := by
    rw [hlog, produced_append]
  obtain ⟨oc, o1, o2, ob, _⟩ := ensureOutbuf_bufs hc hb outhop
  have od := ensureOutbuf_data hc hb outhop
  have hm : m = pend.length := by
    have := dataAt_length hb.outU hc
    rw [h.data 0 hc, List.length_map] at this
    exact this.symm
  have hfo := f.outbuf
  have hsk := f.startSkip
  have htot := f.total
  rw [hout, hlen] at hfo hsk htot
  have hwc : writeCountFor p s outhop = if T = 0 then outhop else min outhop (T - s.totalOutputDuration) := by
    unfold writeCountFor
    rw [hT]
    cases hr : p.realTime with
    | true =>
      rw [if_neg (by simp), if_pos (hrt hr)]
    | false =>
      by_cases h0 : T = 0
      · rw [if_neg (by simp [h0]), if_pos h0]
      · rw [if_neg h0]
        by_cases h1 : s.totalOutputDuration + outhop > T
        · rw [if_pos (by simp; omega)]; omega
        · rw [if_neg (by simp; omega)]; omega
  have hwl : (List.take (writeCountFor p s outhop) (mixOf p (recording env) s inhop outhop)).length = writeCountFor p s outhop := by
    rw [List.length_take, hlen, hwc]
    split <;> omega
  have hwle : writeCountFor p s outhop ≤ outhop := by
    rw [hwc]; split <;> omega
  have hw := ob.outU.writeAll (List.take (writeCountFor p s outhop) (mixOf p (recording env) s inhop outhop))
  have hm1 := (hw.head hc).2
  rw [hwl] at hm1
  simp only [Fifo.readSpace] at hsk htot
  rw [hm1] at hsk htot
  have hdat : ∀ c < p.channels, dataAt s'.outbuf c =
      ((pend ++ List.take (writeCountFor p s outhop) (mixOf p (recording env) s inhop outhop)).drop (s.startSkip - s'.startSkip)).map fun f => f c := by
    intro c hcc
    rw [hfo, dataAt_skip, dataAt_writeAll ob.outU hcc _ (by rw [hwl]; omega), dataAt_congr od, h.data c hcc, ← List.map_append, List.map_drop]
  generalize hMix : mixOf p (recording env) s inhop outhop = mix at *
  generalize hR : produced s.dsp.2 = R at *
  have hleft := h.left
  have hall := h.all
  rw [hR] at hleft hall
  by_cases hk : 0 < s.startSkip
  · have hg0 := hg hk
    subst hg0
    have hd : R.drop skip = [] := List.drop_eq_nil_of_le (by omega)
    rw [hd] at hall
    have hp0 : pend = [] := by
      have : (cut T ([] : List (Frame α))) = [] := by unfold cut; split <;> simp
      rw [this] at hall
      simpa using hall
    subst hp0
    have ht0 : s.totalOutputDuration = 0 := by rw [h.total]; rfl
    have hwc' : writeCountFor p s outhop = outhop := by
      rw [hwc, ht0]
      split
      · rfl
      · rcases hlong with h | h
        · contradiction
        · omega
    rw [if_pos hk] at htot
    rw [hwc'] at hdat htot hsk
    rw [List.take_of_length_le (by omega), List.nil_append] at hdat
    simp only [List.length_nil] at hm
    have hcut : cut T (mix.drop (s.startSkip - s'.startSkip)) = mix.drop (s.startSkip - s'.startSkip) := by
      unfold cut
      split
      · rfl
      · rw [List.take_of_length_le]
        rw [List.length_drop]
        rcases hlong with h | h <;> omega
    refine ⟨⟨mix.drop (s.startSkip - s'.startSkip), hdat, ?_, ?_, ?_⟩, fun _ => rfl⟩
    · rw [hprod, List.length_append, hlen]; omega
    · rw [hprod, List.nil_append, List.drop_append, hd, List.nil_append]
      by_cases hx : s'.startSkip = 0
      · rw [← hcut]
        congr 2
        omega
      · rw [List.drop_eq_nil_of_le (as := mix) (by omega), List.drop_eq_nil_of_le (as := mix) (by omega)]
        unfold cut; split <;> simp
    · rw [htot, List.nil_append, List.length_drop, hlen]; omega
  · rw [if_neg hk] at htot
    have hs0 : s'.startSkip = 0 := by omega
    have e0 : s.startSkip - s'.startSkip = 0 := by omega
    rw [e0] at hdat
    simp only [List.drop_zero] at hdat
    have htl : s.totalOutputDuration = (cut T (R.drop skip)).length := by rw [h.total, hall]
    refine ⟨⟨pend ++ List.take (writeCountFor p s outhop) mix, hdat, ?_, ?_, ?_⟩, fun hx => by omega⟩
    · rw [hprod, List.length_append]; omega
    · rw [hprod, List.drop_append_of_le_length (by omega), cut_append, ← List.append_assoc, hall]
      congr 1
      rw [hwc, htl, cut_length]
      split
      · rw [List.take_of_length_le (by omega)]
      · rw [List.take_eq_take_iff]
        omega
    · rw [htot, h.total, ← List.append_assoc, List.length_append (bs := List.take _ _), hwl]

omit [Zero α] in
theorem Kept.after {p : Params} {s s' : State α σ ρ} (k : Kept s s') : resamplingAfter p s' = resamplingAfter p s := by
  unfold resamplingAfter
  rw [k.haveResampler, k.pitchScale]

/-- What is known of the output in a state. -/
structure OutK (p : Params) (s : State α (σ × List (Entry α)) ρ) (skip T : Nat) (gone : List (Frame α)) : Prop where
  target : s.totalTargetDuration = T
  out : ∃ pend, Out p s skip T gone pend
  skipping : 0 < s.startSkip → gone = []

omit [Zero α] in
theorem OutK.congr {p : Params} {s s' : State α (σ × List (Entry α)) ρ} {skip T : Nat} {gone : List (Frame α)} (h : OutK p s skip T gone)
    (h1 : s'.outbuf.map Fifo.data = s.outbuf.map Fifo.data) (h2 : s'.dsp = s.dsp) (h3 : s'.startSkip = s.startSkip)
    (h4 : s'.totalOutputDuration = s.totalOutputDuration) (h5 : s'.totalTargetDuration = s.totalTargetDuration) : OutK p s' skip T gone := by
  obtain ⟨a, ⟨pend, b⟩, c⟩ := h
  exact ⟨h5.trans a, ⟨pend, b.congr h1 h2 h3 h4⟩, by rw [h3]; exact c⟩

theorem consume_out {p : Params} (hc : 0 < p.channels) {env : Env α σ ρ} {final : Bool} {s s' : State α (σ × List (Entry α)) ρ}
    (h : consume p (recording env) final s = some s') {icap ocap n m : Nat} (hb : Bufs p s icap ocap n m) (hna : resamplingAfter p s = false)
    {skip T : Nat} (hrt : p.realTime = true → T = 0) (hlong : T = 0 ∨ p.longestFftSize ≤ T) {gone : List (Frame α)} (ho : OutK p s skip T gone) :
    OutK p s' skip T gone := by
  refine (consume_induct (fun t => (∃ ocap' n' m', Bufs p t icap ocap' n' m') ∧ resamplingAfter p t = false ∧ OutK p t skip T gone) ?_
    ⟨⟨ocap, n, m, hb.congr rfl rfl rfl⟩, hna, ho.congr rfl rfl rfl rfl rfl⟩ h).1.2.2
  rintro t t' ⟨⟨oc, n', m', bt⟩, nt, ⟨a, ⟨pend, b⟩, c⟩⟩ _ f
  obtain ⟨oc', m'', _, bt'⟩ := f.bufs hc bt
  have hl := f.outhop_le
  obtain ⟨x, y⟩ := f.out hc bt nt a hrt (by omega) b c
  exact ⟨⟨_, _, _, bt'⟩, f.kept.after.trans nt, ⟨f.kept.totalTargetDuration.trans a, x, y⟩⟩

variable [Add α] [Sub α]

theorem processRound_out {p : Params} (hc : 0 < p.channels) {env : Env α σ ρ} {before final : Bool} {s : State α (σ × List (Entry α)) ρ} {rest : List (Frame α)}
    {r : State α (σ × List (Entry α)) ρ × List (Frame α)} (h : processRound p (recording env) before final s rest = some r) {icap ocap n m : Nat}
    (hb : Bufs p s icap ocap n m) (hna : resamplingAfter p s = false)
    {skip T : Nat} (hrt : p.realTime = true → T = 0) (hlong : T = 0 ∨ p.longestFftSize ≤ T) {gone : List (Frame α)} (ho : OutK p s skip T gone) :
    OutK p r.1 skip T gone := by
  obtain ⟨a, b, k, h1, h2, h3, h4⟩ := processRound_split h
  have ha : (∃ ocap' n' m', Bufs p a icap ocap' n' m') ∧ Kept s a ∧ OutK p a skip T gone := by
    unfold roomy at h1
    split at h1
    · obtain ⟨oc, n', m', _, _, hb', _⟩ := consume_bufs hc h1 hb
      exact ⟨⟨_, _, _, hb'⟩, consume_kept h1, consume_out hc h1 hb hna hrt hlong ho⟩
    · cases h1; exact ⟨⟨_, _, _, hb⟩, Kept.refl _, ho⟩
  obtain ⟨⟨oc, n, m, ba⟩, ka, oa⟩ := ha
  obtain ⟨ic', i1, i2, be, ke⟩ := ensureInbuf_bufs hc ba rest.length
  have eo := ensureInbuf_other a rest.length
  have f := takeIn_facts h2
  obtain ⟨n2, bb⟩ := f.bufs be
  refine consume_out hc h3 bb (((ka.trans ke).trans f.kept).after.trans hna) hrt hlong (oa.congr ?_ ?_ ?_ ?_ ?_)
  · rw [f.outbuf, eo.1]
  · exact f.dsp.trans eo.2.2.2.2.2.2.2.2.2
  · exact f.startSkip.trans eo.2.2.2.2.2.2.1
  · exact f.total.trans eo.2.2.2.2.2.2.2.2.1
  · exact f.kept.totalTargetDuration.trans ke.totalTargetDuration

theorem processInput_out {p : Params} (hc : 0 < p.channels) {env : Env α σ ρ} {final : Bool} {s s' : State α (σ × List (Entry α)) ρ} {input : List (Frame α)}
    (h : processInput p (recording env) s input final = some s') {icap ocap n m : Nat}
    (hb : Bufs p s icap ocap n m) (hna : resamplingAfter p s = false)
    {skip T : Nat} (hrt : p.realTime = true → T = 0) (hlong : T = 0 ∨ p.longestFftSize ≤ T) {gone : List (Frame α)} (ho : OutK p s skip T gone) :
    OutK p s' skip T gone := by
  unfold processInput at h
  split at h
  · split at h
    · exact consume_out hc h hb hna hrt hlong ho
    · cases h; exact ho
  · refine (processLoop_induct (fun t _ => (∃ icap' ocap' n' m', Bufs p t icap' ocap' n' m') ∧ resamplingAfter p t = false ∧ OutK p t skip T gone)
      ?_ _ _ _ _ ⟨⟨_, _, _, _, hb⟩, hna, ho⟩ h).2.2
    rintro t rest r ⟨⟨_, _, _, _, bt⟩, nt, ot⟩ hl hr
    obtain ⟨k, ⟨ic, oc, n', m', b', _⟩, _⟩ := processRound_bufs hc hr hl bt
    exact ⟨⟨_, _, _, _, b'⟩, k.after.trans nt, processRound_out hc hr bt nt hrt hlong ot⟩

/-! ## `process` -/

/-- The number of frames left out at the start. -/
def leftOut (p : Params) : Nat := if p.realTime then 0 else p.windowSourceSize / 2

omit [Add α] [Sub α] in
/-- The first block: nothing has been synthesised before. -/
theorem prologue_out_first {p : Params} (hc : 0 < p.channels) {env : Env α σ ρ} {s : State α (σ × List (Entry α)) ρ} (hi : Inv p (recording env) s)
    (hm : s.mode = .justCreated ∨ s.mode = .studying) (hlog : s.dsp.2 = []) (hrt : p.realTime = false)
    (hna : resamplingAfter p (prologue p (recording env) s) = false) :
    OutK p (prologue p (recording env) s) (leftOut p) (targetFor s) [] := by
  obtain ⟨ic, oc, n, m, hb, b1, b2, b3⟩ := hi.bufs
  obtain ⟨q1, ⟨ic', n', q2, q3⟩, q4, q5, q6⟩ := prologue_facts hc hi.hops hb b1 (fun hm => (b2 hm).1)
  have hT := (prologue_account hc hi (gone := 0) (fun _ => rfl) (by intro h; rcases hm with e | e <;> rw [e] at h <;> cases h)
    (by rcases hm with e | e <;> rw [e] <;> simp)).2 hrt
  have hid := hi.idle hm
  obtain ⟨_, hm0⟩ := b2 hm
  subst hm0
  have hrest : (prologue p (recording env) s).startSkip = p.windowSourceSize / 2 ∧ (prologue p (recording env) s).dsp = s.dsp ∧
      (prologue p (recording env) s).totalOutputDuration = s.totalOutputDuration := by
    unfold prologue at hna ⊢
    rw [hrt] at hna ⊢
    simp only [Bool.false_eq_true, if_false] at hna ⊢
    obtain ⟨u1, u2, u3, u4, u5, u6, u7, u8, u9, u10, u11, _⟩ := updateRatioFromMap_facts p (recording env) (s := { s with totalTargetDuration := targetFor s }) (hi.hops.congr rfl rfl rfl rfl)
    generalize updateRatioFromMap p (recording env) { s with totalTargetDuration := targetFor s } = u at *
    unfold padStart at hna ⊢
    rw [if_pos (by rw [u5]; exact hm)] at hna ⊢
    simp only at hna ⊢
    have ke := ensureInbuf_kept { u with resampler := if u.pitchScale ≠ 1 ∧ u.resampler.isNone then some (recording env).rsInit else u.resampler } (p.windowSourceSize / 2)
    have eo := ensureInbuf_other { u with resampler := if u.pitchScale ≠ 1 ∧ u.resampler.isNone then some (recording env).rsInit else u.resampler } (p.windowSourceSize / 2)
    have hps : u.pitchScale = 1 := by
      by_contra hx
      have hs : (ensureInbuf { u with resampler := if u.pitchScale ≠ 1 ∧ u.resampler.isNone then some (recording env).rsInit else u.resampler } (p.windowSourceSize / 2)).resampler.isSome = true := by
        rw [ke.haveResampler]
        simp only
        split
        · rfl
        · rename_i hy
          cases hu : u.resampler with
          | some _ => rfl
          | none => exact absurd ⟨hx, by rw [hu]; rfl⟩ hy
      unfold resamplingAfter areWeResampling at hna
      simp only at hna
      rw [hs, hrt, ke.pitchScale] at hna
      simp [hx] at hna
    refine ⟨?_, ?_, ?_⟩
    · rw [ke.pitchScale]
      simp only [hps, div_one]
      have : roundAway ((p.windowSourceSize / 2 : Nat) : Rat) = ((p.windowSourceSize / 2 : Nat) : Int) := by
        have := roundAway_int ((p.windowSourceSize / 2 : Nat) : Int)
        simpa only [Int.cast_natCast] using this
      rw [this]
      rfl
    · exact eo.2.2.2.2.2.2.2.2.2.trans u11
    · exact eo.2.2.2.2.2.2.2.2.1.trans u8
  obtain ⟨r1, r2, r3⟩ := hrest
  have hprod : produced (prologue p (recording env) s).dsp.2 = [] := by rw [r2, hlog]; rfl
  refine ⟨hT, ⟨[], ?_, ?_, ?_, ?_⟩, fun _ => rfl⟩
  · intro c hcc
    have := dataAt_length q2.outU hcc
    rw [List.length_eq_zero_iff.mp this]
    rfl
  · rw [hprod, r1]; unfold leftOut; rw [hrt]; simp
  · rw [hprod]; unfold cut; split <;> simp
  · rw [r3, hid.total]; rfl

omit [Add α] [Sub α] in
/-- A later block, or any in real time. -/
theorem prologue_out_later {p : Params} {env : Env α σ ρ} {s : State α (σ × List (Entry α)) ρ} (hi : Inv p (recording env) s)
    (hm : p.realTime = true ∨ s.mode = .processing) {skip T : Nat} {gone : List (Frame α)} (ho : OutK p s skip T gone) :
    OutK p (prologue p (recording env) s) skip T gone := by
  unfold prologue
  split
  · exact ho
  · rename_i hrt
    have hp : s.mode = .processing := hm.resolve_left hrt
    obtain ⟨u1, u2, u3, u4, u5, u6, u7, u8, u9, u10, u11, _⟩ := updateRatioFromMap_facts p (recording env) (s := { s with totalTargetDuration := targetFor s }) (hi.hops.congr rfl rfl rfl rfl)
    unfold padStart
    rw [u5, if_neg (by rw [hp]; simp)]
    refine ho.congr (by rw [u3]) u11 u9 u8 ?_
    rw [u7]
    simp only [targetFor, hp]
    simp

/-! ## Histories -/

/-- There is no resampling of the output at any point of a history. -/
def NeverAfter (p : Params) (env : Env α σ ρ) (s : State α σ ρ) (cs : List (Call α)) : Prop :=
  ∀ pre post r, cs = pre ++ post → run p env s pre = some r → resamplingAfter p r.1 = false

theorem NeverAfter.tail {p : Params} {env : Env α σ ρ} {s : State α σ ρ} {c : Call α} {cs : List (Call α)} (h : NeverAfter p env s (c :: cs))
    {a : State α σ ρ × List (List α)} (ha : call p env s c = some a) : NeverAfter p env a.1 cs := by
  intro pre post r' hp hr'
  refine h (c :: pre) post (r'.1, a.2 :: r'.2) (by rw [hp]; rfl) ?_
  unfold run
  simp only [Option.bind_eq_bind, Option.pure_def, ha, Option.bind_some, hr']

theorem NeverAfter.head {p : Params} {env : Env α σ ρ} {s : State α σ ρ} {c : Call α} {cs : List (Call α)} (h : NeverAfter p env s (c :: cs))
    {a : State α σ ρ × List (List α)} (ha : call p env s c = some a) : resamplingAfter p a.1 = false :=
  h.tail ha [] cs (a.1, []) rfl rfl

/-- The first block, from the beginning of `process` to its end. -/
theorem process_out_first {p : Params} (hc : 0 < p.channels) {env : Env α σ ρ} {s s' : State α (σ × List (Entry α)) ρ} {input : List (Frame α)} {final : Bool}
    (hi : Inv p (recording env) s) (hm : s.mode = .justCreated ∨ s.mode = .studying) (hlog : s.dsp.2 = []) (hrt : p.realTime = false)
    (h : process p (recording env) s input final = some s') (hna : resamplingAfter p s' = false)
    (hlong : targetFor s = 0 ∨ p.longestFftSize ≤ targetFor s) : OutK p s' (leftOut p) (targetFor s) [] := by
  unfold process at h
  rw [if_neg (by rcases hm with e | e <;> rw [e] <;> simp), Option.map_eq_some_iff] at h
  obtain ⟨t, ht, rfl⟩ := h
  obtain ⟨ic, oc, n, m, hb, b1, b2, b3⟩ := hi.bufs
  obtain ⟨q1, ⟨ic', n', q2, q3⟩, q4, q5, q6⟩ := prologue_facts hc hi.hops hb b1 (fun hm => (b2 hm).1)
  obtain ⟨k, _⟩ := processInput_bufs hc ht q2 q3
  have hna' : resamplingAfter p (prologue p (recording env) s) = false := k.after.symm.trans hna
  exact (processInput_out hc ht q2 hna' (by rw [hrt]; intro h; cases h) hlong (prologue_out_first hc hi hm hlog hrt hna')).congr rfl rfl rfl rfl rfl

/-- A later block, or any in real time. -/
theorem process_out_later {p : Params} (hc : 0 < p.channels) {env : Env α σ ρ} {s s' : State α (σ × List (Entry α)) ρ} {input : List (Frame α)} {final : Bool}
    (hi : Inv p (recording env) s) (hm : p.realTime = true ∨ s.mode = .processing ∨ s.mode = .finished)
    (h : process p (recording env) s input final = some s') (hna : resamplingAfter p s' = false)
    {skip T : Nat} (hrt : p.realTime = true → T = 0) (hlong : T = 0 ∨ p.longestFftSize ≤ T) {gone : List (Frame α)} (ho : OutK p s skip T gone) :
    OutK p s' skip T gone := by
  unfold process at h
  split at h
  · cases h; exact ho
  · rename_i hf
    rw [Option.map_eq_some_iff] at h
    obtain ⟨t, ht, rfl⟩ := h
    obtain ⟨ic, oc, n, m, hb, b1, b2, b3⟩ := hi.bufs
    obtain ⟨q1, ⟨ic', n', q2, q3⟩, q4, q5, q6⟩ := prologue_facts hc hi.hops hb b1 (fun hm => (b2 hm).1)
    obtain ⟨k, _⟩ := processInput_bufs hc ht q2 q3
    have hna' : resamplingAfter p (prologue p (recording env) s) = false := k.after.symm.trans hna
    exact (processInput_out hc ht q2 hna' hrt hlong (prologue_out_later hi (hm.imp_right fun h => h.resolve_right hf) ho)).congr rfl rfl rfl rfl rfl

omit [Zero α] in
/-- What is put in the arrays is what was waiting. -/
theorem retrieve_frames {p : Params} (hc : 0 < p.channels) {env : Env α σ ρ} {s : State α σ ρ} (hi : Inv p env s) {pend : List (Frame α)}
    (hd : ∀ c < p.channels, dataAt s.outbuf c = pend.map fun f => f c) (k c : Nat) (hcc : c < p.channels) :
    ((retrieve p s k).2.1[c]?).getD [] = (pend.take k).map fun f => delivered p f c := by
  obtain ⟨ic, oc, n, m, hb, _, _, _⟩ := hi.bufs
  have hav : (available s).toNat = m := by
    rw [available_eq hc hb.outU]
    split
    · omega
    · simp
  have hlen : pend.length = m := by
    rw [← dataAt_length hb.outU hc, hd 0 hc, List.length_map]
  obtain ⟨_, _, _, _, f5⟩ := retrieve_facts hc hi k
  have hl : s.outbuf.length = p.channels := hb.outU.1
  have hpk : ∀ c < p.channels, ((s.outbuf.map fun q => q.peek k)[c]?) = some ((pend.take k).map fun f => f c) := by
    intro c hcc
    have h1 := hd c hcc
    rw [dataAt_of_lt (by omega)] at h1
    rw [List.getElem?_map, List.getElem?_eq_getElem (by omega), Option.map_some, Fifo.peek, h1, List.map_take]
  rw [f5, hav]
  unfold delivered
  split
  · rename_i hms
    have h2 : p.channels = 2 := by
      unfold Params.useMidSide at hms
      simp only [Bool.and_eq_true, beq_iff_eq] at hms
      exact hms.1
    have e : (s.outbuf.map fun q => q.peek k) = [(pend.take k).map fun f => f 0, (pend.take k).map fun f => f 1] := by
      apply List.ext_getElem?
      intro i
      by_cases h0 : i = 0
      · subst h0; rw [hpk 0 (by omega)]; rfl
      · by_cases h1 : i = 1
        · subst h1; rw [hpk 1 (by omega)]; rfl
        · rw [List.getElem?_eq_none (by simp; omega), List.getElem?_eq_none (by simp; omega)]
    rw [e]
    simp only [decode]
    have t0 : ((pend.take k).map fun f => f 0).take (min k m) = (pend.take k).map fun f => f 0 := List.take_of_length_le (by simp [hlen])
    have t1 : ((pend.take k).map fun f => f 1).take (min k m) = (pend.take k).map fun f => f 1 := List.take_of_length_le (by simp [hlen])
    have d0 : ((pend.take k).map fun f => f 0).drop (min k m) = [] := List.drop_eq_nil_of_le (by simp [hlen])
    have d1 : ((pend.take k).map fun f => f 1).drop (min k m) = [] := List.drop_eq_nil_of_le (by simp [hlen])
    rw [t0, t1, d0, d1, List.append_nil, List.append_nil, List.zipWith_map, List.zipWith_map, List.zipWith_self, List.zipWith_self]
    rcases (show c = 0 ∨ c = 1 by omega) with rfl | rfl
    · simp
    · simp
  · rw [hpk c hcc]
    rfl

/-- A call other than a reset. -/
theorem call_out {p : Params} (hc : 0 < p.channels) {env : Env α σ ρ} {s : State α (σ × List (Entry α)) ρ} (hi : Inv p (recording env) s)
    (hm : p.realTime = true ∨ s.mode = .processing ∨ s.mode = .finished) {c : Call α} (hne : c ≠ .reset)
    {r : State α (σ × List (Entry α)) ρ × List (List α)} (h : call p (recording env) s c = some r) (hna : resamplingAfter p r.1 = false)
    {skip T : Nat} (hrt : p.realTime = true → T = 0) (hlong : T = 0 ∨ p.longestFftSize ≤ T) {gone : List (Frame α)} (ho : OutK p s skip T gone) :
    ∃ more, OutK p r.1 skip T (gone ++ more) ∧ ∀ ch < p.channels, (r.2[ch]?).getD [] = more.map fun f => delivered p f ch := by
  cases c with
  | setTimeRatio x =>
    cases h
    refine ⟨[], ?_, fun _ _ => rfl⟩
    rw [List.append_nil]
    refine ho.congr ?_ ?_ ?_ ?_ ?_ <;>
    · show _ = _
      unfold setTimeRatio
      split
      · rfl
      · split <;> rfl
  | setPitchScale x =>
    cases h
    refine ⟨[], ?_, fun _ _ => rfl⟩
    rw [List.append_nil]
    refine ho.congr ?_ ?_ ?_ ?_ ?_ <;>
    · show _ = _
      unfold setPitchScale
      split
      · rfl
      · split <;> rfl
  | setFormantScale x =>
    cases h
    refine ⟨[], ?_, fun _ _ => rfl⟩
    rw [List.append_nil]
    refine ho.congr ?_ ?_ ?_ ?_ ?_ <;>
    · show _ = _
      unfold setFormantScale
      split <;> rfl
  | setKeyFrameMap x =>
    cases h
    refine ⟨[], ?_, fun _ _ => rfl⟩
    rw [List.append_nil]
    refine ho.congr ?_ ?_ ?_ ?_ ?_ <;>
    · show _ = _
      unfold setKeyFrameMap
      split
      · rfl
      · split <;> rfl
  | setExpectedInputDuration x =>
    cases h
    exact ⟨[], by rw [List.append_nil]; exact ho.congr rfl rfl rfl rfl rfl, fun _ _ => rfl⟩
  | setMaxProcessSize x =>
    cases h
    refine ⟨[], ?_, fun _ _ => rfl⟩
    rw [List.append_nil]
    show OutK p (setMaxProcessSize s x) skip T gone
    unfold setMaxProcessSize
    simp only
    generalize (if x > overallMaxProcessSize then overallMaxProcessSize else x) = k
    have e1 := ensureInbuf_other s (k * 2)
    have e2 := ensureOutbuf_other (ensureInbuf s (k * 2)) (k * 8)
    have k1 := ensureInbuf_kept s (k * 2)
    have k2 := ensureOutbuf_kept (ensureInbuf s (k * 2)) (k * 8)
    refine ho.congr ?_ ?_ ?_ ?_ (k1.trans k2).totalTargetDuration
    · obtain ⟨ic, oc, n, m, hb, _⟩ := hi.bufs
      obtain ⟨ic', _, _, b1, _⟩ := ensureInbuf_bufs hc hb (k * 2)
      rw [ensureOutbuf_data hc b1, e1.1]
    · exact e2.2.2.2.2.2.2.2.2.2.trans e1.2.2.2.2.2.2.2.2.2
    · exact e2.2.2.2.2.2.2.1.trans e1.2.2.2.2.2.2.1
    · exact e2.2.2.2.2.2.2.2.2.1.trans e1.2.2.2.2.2.2.2.2.1
  | study x =>
    cases h
    refine ⟨[], ?_, fun _ _ => rfl⟩
    rw [List.append_nil]
    refine ho.congr ?_ ?_ ?_ ?_ ?_ <;>
    · show _ = _
      unfold study
      split
      · rfl
      · split <;> rfl
  | process x f =>
    unfold call at h
    rw [Option.map_eq_some_iff] at h
    obtain ⟨t, ht, rfl⟩ := h
    exact ⟨[], by rw [List.append_nil]; exact process_out_later hc hi hm ht hna hrt hlong ho, fun _ _ => rfl⟩
  | retrieve k =>
    cases h
    obtain ⟨a, ⟨pend, b⟩, d⟩ := ho
    obtain ⟨_, _, _, f4, _⟩ := retrieve_facts hc hi k
    refine ⟨pend.take k, ?_, fun ch hch => retrieve_frames hc hi b.data k ch hch⟩
    simp only
    rw [f4]
    refine ⟨a, ⟨pend.drop k, ?_, b.left, ?_, ?_⟩, ?_⟩
    · intro ch hch
      show dataAt (s.outbuf.map fun q => q.skip k) ch = _
      rw [dataAt_skip, b.data ch hch, List.map_drop]
    · rw [List.append_assoc, List.take_append_drop]; exact b.all
    · rw [List.append_assoc, List.take_append_drop]; exact b.total
    · intro hx
      have hx' : 0 < s.startSkip := hx
      have hp : pend = [] := by
        have h1 := b.all
        have h2 := b.left
        rw [List.drop_eq_nil_of_le (by omega)] at h1
        have h3 : cut T ([] : List (Frame α)) = [] := by unfold cut; split <;> simp
        rw [h3] at h1
        exact (List.append_eq_nil_iff.mp h1).2
      rw [d hx', hp, List.take_nil, List.append_nil]
  | reset => exact absurd rfl hne

theorem run_out {p : Params} (hc : 0 < p.channels) {env : Env α σ ρ} {skip T : Nat} (hrt : p.realTime = true → T = 0)
    (hlong : T = 0 ∨ p.longestFftSize ≤ T) :
    ∀ (cs : List (Call α)) (s : State α (σ × List (Entry α)) ρ) (r : State α (σ × List (Entry α)) ρ × List (List (List α))) (gone : List (Frame α)),
      Inv p (recording env) s → (p.realTime = true ∨ s.mode = .processing ∨ s.mode = .finished) → OutK p s skip T gone → noReset cs →
      NeverAfter p (recording env) s cs → run p (recording env) s cs = some r →
      ∃ more, OutK p r.1 skip T (gone ++ more) ∧ ∀ ch < p.channels, channelOut r.2 ch = more.map fun f => delivered p f ch := by
  intro cs
  induction cs with
  | nil => intro s r gone _ _ ho _ _ h; cases h; exact ⟨[], by rw [List.append_nil]; exact ho, fun _ _ => rfl⟩
  | cons c cs ih =>
    intro s r gone hi hm ho hn hna h
    obtain ⟨a, b, h1, h2, rfl⟩ := run_cons h
    have hne : c ≠ .reset := by
      intro e
      have := hn c (by simp)
      rw [e] at this
      exact this
    obtain ⟨more, x1, x2⟩ := call_out hc hi hm hne h1 (hna.head h1) hrt hlong ho
    have hm' : p.realTime = true ∨ a.1.mode = .processing ∨ a.1.mode = .finished := by
      refine hm.imp_right fun hm => ?_
      obtain ⟨ph, e, hph⟩ : ∃ ph : Phase, s.mode = ph.mode ∧ (ph = .running ∨ ph = .ended) := by
        rcases hm with hm | hm
        · exact ⟨.running, hm, Or.inl rfl⟩
        · exact ⟨.ended, hm, Or.inr rfl⟩
      rw [call_mode e h1]
      rcases running_on (rt := p.realTime) hph hne with e | e <;> rw [e]
      · exact Or.inl rfl
      · exact Or.inr rfl
    obtain ⟨rest, y1, y2⟩ := ih a.1 b _ (call_inv hc hi h1) hm' x1 (fun d hd => hn d (by simp [hd])) (hna.tail h1) h2
    refine ⟨more ++ rest, by rw [← List.append_assoc]; exact y1, ?_⟩
    intro ch hch
    have e : channelOut (a.2 :: b.2) ch = (a.2[ch]?).getD [] ++ channelOut b.2 ch := by
      unfold channelOut
      rw [List.map_cons, List.flatten_cons]
    rw [List.map_append, e, x2 ch hch, y2 ch hch]

/-- Before the first block nothing has been synthesised. -/
theorem call_silent {p : Params} {env : Env α σ ρ} {s : State α (σ × List (Entry α)) ρ}
    (hs : s.mode = .justCreated ∨ s.mode = .studying → s.dsp.2 = []) {c : Call α}
    {r : State α (σ × List (Entry α)) ρ × List (List α)} (h : call p (recording env) s c = some r) :
    r.1.mode = .justCreated ∨ r.1.mode = .studying → r.1.dsp.2 = [] := by
  have key : ∀ {t : State α (σ × List (Entry α)) ρ}, t.mode = s.mode → t.dsp = s.dsp → (t.mode = .justCreated ∨ t.mode = .studying → t.dsp.2 = []) := by
    intro t e1 e2
    rw [e1, e2]
    exact hs
  cases c with
  | setTimeRatio x =>
    cases h
    refine key ?_ ?_ <;>
    · show _ = _
      unfold setTimeRatio
      split
      · rfl
      · split <;> rfl
  | setPitchScale x =>
    cases h
    refine key ?_ ?_ <;>
    · show _ = _
      unfold setPitchScale
      split
      · rfl
      · split <;> rfl
  | setFormantScale x =>
    cases h
    refine key ?_ ?_ <;>
    · show _ = _
      unfold setFormantScale
      split <;> rfl
  | setKeyFrameMap x =>
    cases h
    refine key ?_ ?_ <;>
    · show _ = _
      unfold setKeyFrameMap
      split
      · rfl
      · split <;> rfl
  | setExpectedInputDuration x => cases h; exact key rfl rfl
  | setMaxProcessSize x =>
    cases h
    show (setMaxProcessSize s x).mode = _ ∨ (setMaxProcessSize s x).mode = _ → _
    unfold setMaxProcessSize
    simp only
    generalize (if x > overallMaxProcessSize then overallMaxProcessSize else x) = k
    have e1 := ensureInbuf_other s (k * 2)
    have e2 := ensureOutbuf_other (ensureInbuf s (k * 2)) (k * 8)
    have k1 := ensureInbuf_kept s (k * 2)
    have k2 := ensureOutbuf_kept (ensureInbuf s (k * 2)) (k * 8)
    exact key (k1.trans k2).mode (e2.2.2.2.2.2.2.2.2.2.trans e1.2.2.2.2.2.2.2.2.2)
  | study x =>
    cases h
    show (study p s x).mode = _ ∨ (study p s x).mode = _ → (study p s x).dsp.2 = _
    unfold study
    split
    · exact hs
    · split
      · exact hs
      · rename_i hx
        intro _
        exact hs (by revert hx; cases s.mode <;> simp)
  | process x f =>
    unfold call at h
    rw [Option.map_eq_some_iff] at h
    obtain ⟨t, ht, rfl⟩ := h
    have := process_mode ht
    intro hx
    rw [show t.mode = _ from this] at hx
    split at hx <;> simp at hx
  | retrieve k => cases h; exact key rfl rfl
  | reset => cases h; intro _; rfl

theorem run_silent {p : Params} {env : Env α σ ρ} : ∀ (cs : List (Call α)) (s : State α (σ × List (Entry α)) ρ)
    (r : State α (σ × List (Entry α)) ρ × List (List (List α))), (s.mode = .justCreated ∨ s.mode = .studying → s.dsp.2 = []) →
      run p (recording env) s cs = some r → (r.1.mode = .justCreated ∨ r.1.mode = .studying → r.1.dsp.2 = []) := by
  intro cs
  induction cs with
  | nil => intro s r hs h; cases h; exact hs
  | cons c cs ih =>
    intro s r hs h
    obtain ⟨a, b, h1, h2, rfl⟩ := run_cons h
    exact ih a.1 b (call_silent hs h1) h2

/-! ## C55 and C56 -/

/-- All that comes out of the spectral processing between creation, or the last reset, and the end of a history. -/
def synthesised (p : Params) (env : Env α σ ρ) (t ps : Dbl) (cs : List (Call α)) : List (Frame α) :=
  ((run p (recording env) (create p (recording env) t ps) cs).map fun r => produced r.1.dsp.2).getD []

theorem NeverAfter.observed {p : Params} {env : Env α σ ρ} {s : State α (σ × List (Entry α)) ρ} {cs : List (Call α)}
    (h : NeverAfter p env (forget s) cs) : NeverAfter p (recording env) s cs := by
  intro pre post r hp hr
  have e := forget_run p env pre s
  rw [hr] at e
  exact h pre post _ hp e.symm

/-- From a state before the first block: the history observed. -/
theorem observed_from {p : Params} {env : Env α σ ρ} {t ps : Dbl} {pre post : List (Call α)} {a r : State α σ ρ × List (List (List α))}
    (h1 : run p env (create p env t ps) pre = some a) (h2 : run p env a.1 post = some r) :
    ∃ a' r', run p (recording env) (create p (recording env) t ps) pre = some a' ∧ run p (recording env) a'.1 post = some r' ∧
      forget a'.1 = a.1 ∧ forget r'.1 = r.1 ∧ r'.2 = r.2 ∧ synthesised p env t ps (pre ++ post) = produced r'.1.dsp.2 := by
  obtain ⟨a', ha, e1, e2⟩ := Verif.R3.observed h1
  have e := forget_run p env post a'.1
  rw [e1, h2, Option.map_eq_some_iff] at e
  obtain ⟨r', h3, h4⟩ := e
  rw [Prod.mk.injEq] at h4
  refine ⟨a', r', ha, h3, e1, h4.1, h4.2, ?_⟩
  unfold synthesised
  rw [(run_append pre post _ _).mpr ⟨a', r', ha, h3, rfl⟩]
  rfl

/-- **C55.**  In real time, when the output is not resampled: what has been retrieved since creation or the last reset, and what is
still available, are together all that has been synthesised, once and in order, however the caller has processed, retrieved
and changed the settings. -/
theorem C55 {p : Params} (hc : 0 < p.channels) (hrt : p.realTime = true) (env : Env α σ ρ) (t ps : Dbl)
    (pre post : List (Call α)) {a r : State α σ ρ × List (List (List α))}
    (h1 : run p env (create p env t ps) pre = some a) (hph : phase p.realTime pre = .fresh)
    (h2 : run p env a.1 post = some r) (hn : noReset post) (hna : NeverAfter p env a.1 post) :
    ∃ n, (∀ c < p.channels, channelOut r.2 c = ((synthesised p env t ps (pre ++ post)).take n).map fun f => delivered p f c) ∧
      n + (available r.1).toNat = (synthesised p env t ps (pre ++ post)).length := by
  obtain ⟨a', r', g1, g2, e1, e2, e3, e4⟩ := observed_from h1 h2
  have hi := run_inv hc pre _ _ (create_inv p (recording env) t ps) g1
  have hm : a'.1.mode = .justCreated ∨ a'.1.mode = .studying := by
    rw [reached_mode g1, hph]; exact Or.inl rfl
  have hlog := run_silent pre _ _ (fun _ => rfl) g1 hm
  have hid := hi.idle hm
  have ho : OutK p a'.1 0 0 [] := by
    obtain ⟨ic, oc, n, m, hb, _, b2, _⟩ := hi.bufs
    obtain ⟨_, hm0⟩ := b2 hm
    subst hm0
    refine ⟨hid.target, ⟨[], ?_, ?_, ?_, ?_⟩, fun _ => rfl⟩
    · intro c hcc
      rw [List.length_eq_zero_iff.mp (dataAt_length hb.outU hcc)]
      rfl
    · rw [hid.startSkip]; omega
    · rw [hlog]; rfl
    · rw [hid.total]; rfl
  obtain ⟨more, ⟨_, ⟨pend, o⟩, _⟩, hout⟩ := run_out hc (fun _ => rfl) (Or.inl rfl) post _ _ _ hi (Or.inl hrt) ho hn (NeverAfter.observed (by rw [e1]; exact hna)) g2
  have hi' := run_inv hc post _ _ hi g2
  obtain ⟨ic, oc, n, m, hb, _, _, _⟩ := hi'.bufs
  have hav : (available r.1).toNat = m := by
    rw [← e2]
    show (available r'.1).toNat = m
    rw [available_eq hc hb.outU]
    split
    · omega
    · simp
  have hall := o.all
  rw [show cut 0 ((produced r'.1.dsp.2).drop 0) = produced r'.1.dsp.2 from rfl, List.nil_append] at hall
  refine ⟨more.length, ?_, ?_⟩
  · intro c hcc
    rw [e4, ← hall, List.take_left', ← e3]
    · exact hout c hcc
    · rfl
  · rw [e4, ← hall, hav, List.length_append, ← dataAt_length hb.outU hc, o.data 0 hc, List.length_map]

/-- **C56**, as claimed: offline, when the output is not resampled, what is delivered is what has been synthesised without the
part that stands for the padding, up to the target, once and in order. -/
def C56_statement : Prop := ∀ (p : Params) (_ : 0 < p.channels) (_ : p.realTime = false) (env : Env Rat Unit Unit) (t ps : Dbl)
  (pre post : List (Call Rat)) (x : List (Frame Rat)) (f : Bool) (a r : State Rat Unit Unit × List (List (List Rat))),
  run p env (create p env t ps) pre = some a → phase p.realTime pre = .fresh ∨ phase p.realTime pre = .studied →
  run p env a.1 (.process x f :: post) = some r → noReset post → NeverAfter p env a.1 (.process x f :: post) →
  ∃ n, (∀ c < p.channels, channelOut r.2 c = ((cut (roundAway (knownDuration p.realTime pre * a.1.timeRatio)).toNat
      ((synthesised p env t ps (pre ++ .process x f :: post)).drop (p.windowSourceSize / 2))).take n).map fun g => delivered p g c) ∧
    n + (available r.1).toNat = (cut (roundAway (knownDuration p.realTime pre * a.1.timeRatio)).toNat
      ((synthesised p env t ps (pre ++ .process x f :: post)).drop (p.windowSourceSize / 2))).length

/-- **C56**, for targets no shorter than the longest transform, or none. -/
theorem C56_partial {p : Params} (hc : 0 < p.channels) (hrt : p.realTime = false) (env : Env α σ ρ) (t ps : Dbl)
    (pre post : List (Call α)) (x : List (Frame α)) (f : Bool) {a r : State α σ ρ × List (List (List α))}
    (h1 : run p env (create p env t ps) pre = some a) (hph : phase p.realTime pre = .fresh ∨ phase p.realTime pre = .studied)
    (h2 : run p env a.1 (.process x f :: post) = some r) (hn : noReset post) (hna : NeverAfter p env a.1 (.process x f :: post))
    (hlong : (roundAway (knownDuration p.realTime pre * a.1.timeRatio)).toNat = 0 ∨
      p.longestFftSize ≤ (roundAway (knownDuration p.realTime pre * a.1.timeRatio)).toNat) :
    ∃ n, (∀ c < p.channels, channelOut r.2 c = ((cut (roundAway (knownDuration p.realTime pre * a.1.timeRatio)).toNat
        ((synthesised p env t ps (pre ++ .process x f :: post)).drop (p.windowSourceSize / 2))).take n).map fun g => delivered p g c) ∧
      n + (available r.1).toNat = (cut (roundAway (knownDuration p.realTime pre * a.1.timeRatio)).toNat
        ((synthesised p env t ps (pre ++ .process x f :: post)).drop (p.windowSourceSize / 2))).length := by
  obtain ⟨a', r', g1, g2, e1, e2, e3, e4⟩ := observed_from h1 h2
  have ht : targetFor a'.1 = (roundAway (knownDuration p.realTime pre * a.1.timeRatio)).toNat := by
    rw [targetFor_known hc g1 hph, ← e1]
    rfl
  generalize (roundAway (knownDuration p.realTime pre * a.1.timeRatio)).toNat = T at *
  have hi := run_inv hc pre _ _ (create_inv p (recording env) t ps) g1
  have hm : a'.1.mode = .justCreated ∨ a'.1.mode = .studying := by
    rw [reached_mode g1]
    rcases hph with e | e <;> rw [e] <;> simp [Phase.mode]
  have hlog := run_silent pre _ _ (fun _ => rfl) g1 hm
  obtain ⟨b, d, h3, h4, rfl⟩ := run_cons g2
  have hna' : NeverAfter p (recording env) a'.1 (.process x f :: post) := NeverAfter.observed (by rw [e1]; exact hna)
  have hpost := hna'.tail h3
  have hb := hna'.head h3
  have hi' := call_inv hc hi h3
  unfold call at h3
  rw [Option.map_eq_some_iff] at h3
  obtain ⟨u, hu, rfl⟩ := h3
  have ho := process_out_first hc hi hm hlog hrt hu hb (by rw [ht]; exact hlong)
  rw [ht] at ho
  have hm' : u.mode = .processing ∨ u.mode = .finished := by
    rw [process_mode hu]
    split <;> simp
  obtain ⟨more, ⟨_, ⟨pend, o⟩, _⟩, hout⟩ := run_out hc (by rw [hrt]; intro h; cases h) hlong post _ _ _ hi' (Or.inr hm') ho hn hpost h4
  have hi'' := run_inv hc post _ _ hi' h4
  obtain ⟨ic, oc, n, m, hb, _, _, _⟩ := hi''.bufs
  have hav : (available r.1).toNat = m := by
    rw [← e2]
    show (available d.1).toNat = m
    rw [available_eq hc hb.outU]
    split
    · omega
    · simp
  have hall := o.all
  rw [List.nil_append] at hall
  have hl : leftOut p = p.windowSourceSize / 2 := by unfold leftOut; rw [hrt]; rfl
  rw [hl] at hall
  rw [e4]
  show ∃ n, (∀ c < p.channels, channelOut r.2 c = ((cut T ((produced d.1.dsp.2).drop (p.windowSourceSize / 2))).take n).map fun g => delivered p g c) ∧
    n + (available r.1).toNat = (cut T ((produced d.1.dsp.2).drop (p.windowSourceSize / 2))).length
  rw [← hall]
  refine ⟨more.length, ?_, ?_⟩
  · intro c hcc
    rw [List.take_left' rfl, ← hout c hcc, ← e3]
    unfold channelOut
    simp
  · rw [hav, List.length_append, ← dataAt_length hb.outU hc, o.data 0 hc, List.length_map]

/-! ## When the output is not resampled -/

omit [Zero α] [Add α] [Sub α] in
theorem fixRatios_one (t : Dbl) : (fixRatios t (.fin 1)).2 = 1 := by
  have h1 : (Dbl.fin 1).nonPos = false := by decide +kernel
  unfold fixRatios
  simp only [h1, Bool.false_eq_true, if_false]
  generalize (if t.nonPos = true then Dbl.fin 1 else t) = u
  split <;> rfl

omit [Zero α] [Add α] [Sub α] in
theorem updateRatioFromMap_one {p : Params} {env : Env α σ ρ} {s : State α σ ρ} (h : s.pitchScale = 1) :
    (updateRatioFromMap p env s).pitchScale = 1 := by
  unfold updateRatioFromMap
  split
  · exact h
  · split
    · show (fixRatios _ (.fin s.pitchScale)).2 = 1
      rw [h]; exact fixRatios_one _
    · split
      · exact h
      · split
        · show (fixRatios _ (.fin s.pitchScale)).2 = 1
          rw [h]; exact fixRatios_one _
        · exact h

omit [Add α] [Sub α] in
theorem prologue_one {p : Params} {env : Env α σ ρ} {s : State α σ ρ} (h : s.pitchScale = 1) : (prologue p env s).pitchScale = 1 := by
  unfold prologue
  split
  · exact h
  · have hu : (updateRatioFromMap p env { s with totalTargetDuration := targetFor s }).pitchScale = 1 := updateRatioFromMap_one h
    generalize updateRatioFromMap p env { s with totalTargetDuration := targetFor s } = u at *
    unfold padStart
    split
    · simp only
      rw [(ensureInbuf_kept _ _).pitchScale]
      exact hu
    · exact hu

/-- A call that does not ask for another pitch. -/
def Call.keepsPitch : Call α → Prop
  | .setPitchScale _ => False
  | _ => True

theorem call_one {p : Params} (hc : 0 < p.channels) {env : Env α σ ρ} {s : State α σ ρ} (hi : Inv p env s) (h : s.pitchScale = 1) {c : Call α}
    (hk : c.keepsPitch) {r : State α σ ρ × List (List α)} (hr : call p env s c = some r) : r.1.pitchScale = 1 := by
  cases c with
  | setTimeRatio x =>
    cases hr
    show (setTimeRatio p env s x).pitchScale = 1
    unfold setTimeRatio
    split
    · exact h
    · split
      · exact h
      · show (fixRatios _ (.fin s.pitchScale)).2 = 1
        rw [h]; exact fixRatios_one _
  | setPitchScale x => exact absurd hk (by simp [Call.keepsPitch])
  | setFormantScale x =>
    cases hr
    show (setFormantScale p s x).pitchScale = 1
    unfold setFormantScale
    split <;> exact h
  | setKeyFrameMap x =>
    cases hr
    show (setKeyFrameMap p s x).pitchScale = 1
    unfold setKeyFrameMap
    split
    · exact h
    · split <;> exact h
  | setExpectedInputDuration x => cases hr; exact h
  | setMaxProcessSize x =>
    cases hr
    show (setMaxProcessSize s x).pitchScale = 1
    unfold setMaxProcessSize
    simp only
    rw [(ensureOutbuf_kept _ _).pitchScale, (ensureInbuf_kept _ _).pitchScale]
    exact h
  | study x =>
    cases hr
    show (study p s x).pitchScale = 1
    unfold study
    split
    · exact h
    · split <;> exact h
  | process x f =>
    unfold call at hr
    rw [Option.map_eq_some_iff] at hr
    obtain ⟨t, ht, rfl⟩ := hr
    unfold process at ht
    split at ht
    · cases ht; exact h
    · rw [Option.map_eq_some_iff] at ht
      obtain ⟨u, hu, rfl⟩ := ht
      obtain ⟨ic, oc, n, m, hb, b1, b2, b3⟩ := hi.bufs
      obtain ⟨q1, ⟨ic', n', q2, q3⟩, _⟩ := prologue_facts hc hi.hops hb b1 (fun hm => (b2 hm).1)
      obtain ⟨k, _⟩ := processInput_bufs hc hu q2 q3
      exact k.pitchScale.trans (prologue_one h)
  | retrieve k => cases hr; exact h
  | reset =>
    cases hr
    show (fixRatios _ (.fin s.pitchScale)).2 = 1
    rw [h]; exact fixRatios_one _

omit [Zero α] [Add α] [Sub α] in
theorem not_after {p : Params} (hp : p.realTime = false ∨ p.highConsistency = false) {s : State α σ ρ} (h : s.pitchScale = 1) : resamplingAfter p s = false := by
  unfold resamplingAfter areWeResampling
  rw [h]
  rcases hp with hp | hp <;> rw [hp] <;> cases s.resampler.isSome <;> cases p.realTime <;> simp

/-- At the natural pitch the output is never resampled, but for real time with the option for high consistency. -/
theorem neverAfter {p : Params} (hc : 0 < p.channels) (hp : p.realTime = false ∨ p.highConsistency = false) {env : Env α σ ρ} :
    ∀ (cs : List (Call α)) (s : State α σ ρ), Inv p env s → s.pitchScale = 1 → (∀ c ∈ cs, c.keepsPitch) → NeverAfter p env s cs := by
  intro cs s hi h hk pre post r hcs hr
  subst hcs
  have key : ∀ (pre : List (Call α)) (s : State α σ ρ) (r : State α σ ρ × List (List (List α))), Inv p env s → s.pitchScale = 1 →
      (∀ c ∈ pre, c.keepsPitch) → run p env s pre = some r → r.1.pitchScale = 1 := by
    intro pre
    induction pre with
    | nil => intro s r _ h _ hr; cases hr; exact h
    | cons c cs ih =>
      intro s r hi h hk hr
      obtain ⟨a, b, h1, h2, rfl⟩ := run_cons hr
      exact ih a.1 b (call_inv hc hi h1) (call_one hc hi h (hk c (by simp)) h1) (fun d hd => hk d (by simp [hd])) h2
  exact not_after hp (key pre s r hi h (fun c hc => hk c (by simp [hc])) hr)

end

/-! ## Cases -/

namespace Ex
/-- Spectral processing that lets out the beginning of each window. -/
def echo : Env Rat Unit Unit where
  dspInit := ()
  dspReset := id
  dsp := fun s _ w => (s, fun c i => ((w[c]?).getD []).getD i 0)
  rsInit := ()
  rsReset := id
  resample := fun r space block _ _ => (r, block.take space)
  effective := fun _ x => x
  curve := fun _ => 256
  halve := fun x => x / 2

/-- How many frames have been synthesised, retrieved and are available. -/
def counts (rt : Bool) (t : Dbl) (pre post : List (Call Rat)) : Option (Nat × Nat × Int × Rat) :=
  (run (small rt) echo (create (small rt) echo t (.fin 1)) pre).bind fun a => (run (small rt) echo a.1 post).map fun r =>
    ((synthesised (small rt) echo t (.fin 1) (pre ++ post)).length, (channelOut r.2 1).length, available r.1, (channelOut r.2 1).getD 690 0)
end Ex

/-- In real time, a history with retrievals and changes of ratio between the blocks. -/
example : Ex.counts true (.fin 1) [] [.process (Ex.block 1200) false, .setTimeRatio (.fin (3 / 2)), .retrieve 70, .process (Ex.block 500) false, .retrieve 800] =
    some (880, 870, 10, 529) := by decide +kernel

/-- The hypothesis of C55 on resampling is met in that history. -/
example (post : List (Call Rat)) (h : ∀ c ∈ post, c.keepsPitch) :
    NeverAfter (Ex.small true) Ex.echo (create (Ex.small true) Ex.echo (.fin 1) (.fin 1)) post :=
  neverAfter (by decide) (Or.inr rfl) post _ (create_inv _ _ _ _) (by decide +kernel) h

/-- Offline, with the duration known: 544 frames are left out at the beginning and what is beyond the target at the end. -/
example : Ex.counts false (.fin (3 / 2)) [.study 1200] [.process (Ex.block 1200) true, .retrieve 700] = some (3680, 700, 1100, 286) ∧
    (Ex.small false).longestFftSize ≤ 1800 := by decide +kernel

/-- With 10 frames to come, 10 are written at once, and then they are taken to be padding: nothing is delivered. -/
theorem C56_violated : ¬ C56_statement := by
  intro h
  have key : (run (Ex.small false) Ex.env (create (Ex.small false) Ex.env (.fin 1) (.fin 1)) [.study 10]).isSome = true := by decide +kernel
  obtain ⟨a, ha⟩ := Option.isSome_iff_exists.mp key
  have key2 : (((run (Ex.small false) Ex.env (create (Ex.small false) Ex.env (.fin 1) (.fin 1)) [.study 10]).bind fun a =>
      (run (Ex.small false) Ex.env a.1 [.process (Ex.block 10) true, .retrieve 20]).map fun r =>
        ((channelOut r.2 0).length, (available r.1).toNat, (roundAway (10 * a.1.timeRatio)).toNat, a.1.pitchScale))) = some (0, 0, 10, 1) := by decide +kernel
  have key3 : (synthesised (Ex.small false) Ex.env (.fin 1) (.fin 1) [.study 10, .process (Ex.block 10) true, .retrieve 20]).length = 1600 := by
    decide +kernel
  rw [ha] at key2
  simp only [Option.bind_some, Option.map_eq_some_iff, Prod.mk.injEq] at key2
  obtain ⟨r, hr, e1, e2, e3, e4⟩ := key2
  obtain ⟨n, h1, h2⟩ := h (Ex.small false) (by decide) rfl Ex.env _ _ [.study 10] [.retrieve 20] _ _ a r ha (Or.inr rfl) hr
    (by intro c hc; rw [List.mem_singleton.mp hc]; trivial)
    (neverAfter (by decide) (Or.inl rfl) _ _ (run_inv (by decide) _ _ _ (create_inv _ _ _ _) ha) e4 (by intro c hc; simp at hc; rcases hc with rfl | rfl <;> trivial))
  have hk : knownDuration (Ex.small false).realTime ([.study 10] : List (Call Rat)) = 10 := rfl
  have h3 := congrArg List.length (h1 0 (by decide))
  rw [e1, List.length_map, List.length_take] at h3
  rw [hk] at h2 h3
  rw [show ((10 : Nat) : Rat) = 10 from rfl, e3] at h2 h3
  simp only [List.cons_append, List.nil_append] at h2 h3
  rw [cut_length, List.length_drop, key3, e2] at h2
  rw [cut_length, List.length_drop, key3] at h3
  have hw : (Ex.small false).windowSourceSize = 1088 := by decide +kernel
  rw [hw] at h2 h3
  simp at h2 h3
  omega

end Verif.R3
