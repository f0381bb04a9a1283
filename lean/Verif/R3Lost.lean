import Verif.R3Required
/-!
# Whether resampled output is lost: C58
-/
namespace Verif.R3
open Verif.Round Verif.StretchCalc

variable {α σ ρ : Type}

/-- The same engine with a resampler that writes down what it has returned since creation or the last reset. -/
def listening (env : Env α σ ρ) : Env α σ (ρ × List (Frame α)) where
  dspInit := env.dspInit
  dspReset := env.dspReset
  dsp := env.dsp
  rsInit := (env.rsInit, [])
  rsReset := fun r => (env.rsReset r.1, [])
  resample := fun r space block ratio final =>
    (((env.resample r.1 space block ratio final).1, r.2 ++ (env.resample r.1 space block ratio final).2.take space), (env.resample r.1 space block ratio final).2)
  effective := fun r x => env.effective r.1 x
  curve := env.curve
  halve := env.halve

/-- What the resampler has returned. -/
def returned (s : State α σ (ρ × List (Frame α))) : List (Frame α) := (s.resampler.map fun r => r.2).getD []

/-- **C58**, as claimed: in real time with the option for high consistency, where all output goes through the resampler, what has
been retrieved and what is still available are together as much as the resampler has returned. -/
def C58_statement : Prop := ∀ (p : Params) (_ : 0 < p.channels) (_ : p.realTime = true) (_ : p.highConsistency = true) (env : Env Rat Unit Unit) (t ps : Dbl)
  (pre post : List (Call Rat)) (a r : State Rat Unit (Unit × List (Frame Rat)) × List (List (List Rat))),
  run p (listening env) (create p (listening env) t ps) pre = some a → phase p.realTime pre = .fresh →
  run p (listening env) a.1 post = some r → noReset post →
  ∀ c < p.channels, (channelOut r.2 c).length + (available r.1).toNat = (returned r.1).length

section
variable [Zero α]

/-- What is waiting and what has gone are what the resampler has returned. -/
def Heard (s : State α σ (ρ × List (Frame α))) (gone : Nat) : Prop := s.resampler.isSome = true ∧ gone + (out0 s).readSpace = (returned s).length

omit [Zero α] in
theorem Heard.congr {s s' : State α σ (ρ × List (Frame α))} {gone : Nat} (h : Heard s gone) (h1 : (out0 s').readSpace = (out0 s).readSpace)
    (h2 : s'.resampler = s.resampler) : Heard s' gone := by
  unfold Heard returned at *
  rw [h1, h2]
  exact h

omit [Zero α] in
theorem after_always {p : Params} (hrt : p.realTime = true) (hh : p.highConsistency = true) {s : State α σ ρ} (h : s.resampler.isSome = true) :
    resamplingAfter p s = true := by
  unfold resamplingAfter areWeResampling
  simp [hrt, hh, h]

/-- What a round adds to the record, and to the output. -/
theorem RoundFacts.heard {p : Params} (hc : 0 < p.channels) (hrt : p.realTime = true) (hh : p.highConsistency = true) {env : Env α σ ρ} {final : Bool}
    {inhop outhop : Nat} {s s' : State α σ (ρ × List (Frame α))} (f : RoundFacts p (listening env) final inhop outhop s s') {icap ocap n m : Nat}
    (hb : Bufs p s icap ocap n m) (hp : Plain s) (hs : s.resampler.isSome = true) :
    ∃ k ocap', k = min (p.hopBufferSize) (env.resample (s.resampler.get hs).1 p.hopBufferSize (mixOf p (listening env) s inhop outhop) (1 / s.pitchScale)
        (final && decide ((in0 s).readSpace < inhop) && decide (fillAfter p s.accumulatorFill outhop ((in0 s).readSpace == 0) ≤ outhop))).2.length ∧
      (returned s').length = (returned s).length + k ∧ Bufs p s' icap ocap' (n - inhop) (m + min k (ocap' - m)) ∧ m + outhop ≤ ocap' ∧
      (outhop < ocap - m → ocap' = ocap) ∧ s'.resampler.isSome = true := by
  have haft := after_always hrt hh hs
  obtain ⟨x, hx⟩ := Option.isSome_iff_exists.mp hs
  have hget : s.resampler.get hs = x := by simp [hx]
  rw [hget]
  generalize hfin : (final && decide ((in0 s).readSpace < inhop) && decide (fillAfter p s.accumulatorFill outhop ((in0 s).readSpace == 0) ≤ outhop)) = fin
  have hout : outOf p (listening env) final s inhop outhop =
      (some ((env.resample x.1 p.hopBufferSize (mixOf p (listening env) s inhop outhop) (1 / s.pitchScale) fin).1,
          x.2 ++ (env.resample x.1 p.hopBufferSize (mixOf p (listening env) s inhop outhop) (1 / s.pitchScale) fin).2.take p.hopBufferSize),
        (env.resample x.1 p.hopBufferSize (mixOf p (listening env) s inhop outhop) (1 / s.pitchScale) fin).2.take p.hopBufferSize) := by
    unfold outOf resampleAfter
    rw [hx, haft]
    simp only
    rw [hfin]
    rfl
  generalize env.resample x.1 p.hopBufferSize (mixOf p (listening env) s inhop outhop) (1 / s.pitchScale) fin = y at *
  obtain ⟨oc, o1, o2, ob, _⟩ := ensureOutbuf_bufs hc hb outhop
  have hfo := f.outbuf
  have hrs := f.resampler
  rw [hout] at hfo hrs
  have hwc : ∀ k, writeCountFor p s k = k := by
    intro k
    unfold writeCountFor
    rw [hp.2, if_neg (by simp)]
  rw [hwc, List.take_length, hp.1, Nat.zero_sub, map_skip_zero] at hfo
  have hw := ob.outU.writeAll (y.2.take p.hopBufferSize)
  rw [List.length_take] at hw
  obtain ⟨oc', m', _, hb'⟩ := f.bufs hc hb
  refine ⟨min p.hopBufferSize y.2.length, oc, rfl, ?_, ?_, o2, ?_, by rw [hrs]; rfl⟩
  · unfold returned
    rw [hrs, hx]
    simp
  · have hol := ob.outLe
    have hoc := ob.outCap
    exact ⟨hb'.inU, by rw [hfo]; exact hw, hb'.inLe, by omega, hb'.inCap, hoc, hb'.mix⟩
  · intro hroom
    have hsame : ensureOutbuf s outhop = s := by
      unfold ensureOutbuf
      rw [if_pos (by rw [(out0_eq hc hb.outU).2.2]; exact hroom)]
    rw [hsame] at ob
    exact (ob.outU.head hc).1.symm.trans (hb.outU.head hc).1

/-- A resampler that never returns more than it is given. -/
def Shrinks (env : Env α σ ρ) : Prop := ∀ r space block ratio final, (env.resample r space block ratio final).2.length ≤ block.length

theorem consume_heard {p : Params} (hc : 0 < p.channels) (hrt : p.realTime = true) (hh : p.highConsistency = true) {env : Env α σ ρ} (hsh : Shrinks env)
    {final : Bool} {s s' : State α σ (ρ × List (Frame α))} (h : consume p (listening env) final s = some s') {icap ocap n m : Nat}
    (hb : Bufs p s icap ocap n m) (hp : Plain s) {gone : Nat} (hd : Heard s gone) : Heard s' gone := by
  refine (consume_induct (fun t => (∃ ocap n m, Bufs p t icap ocap n m) ∧ Plain t ∧ Heard t gone) ?_ ⟨⟨_, _, _, hb.congr rfl rfl rfl⟩, hp, hd⟩ h).1.2.2
  rintro t t' ⟨⟨oc, n', m', bt⟩, pt, ht⟩ _ f
  obtain ⟨k, oc', hk, h1, h2, h3, _, h5⟩ := f.heard hc hrt hh bt pt ht.1
  have hle := hsh (t.resampler.get ht.1).1 p.hopBufferSize (mixOf p (listening env) t s.inhop (outhopOf p (listening env) s)) (1 / t.pitchScale)
    (final && decide ((in0 t).readSpace < s.inhop) && decide (fillAfter p t.accumulatorFill (outhopOf p (listening env) s) ((in0 t).readSpace == 0) ≤ outhopOf p (listening env) s))
  have hlen : (mixOf p (listening env) t s.inhop (outhopOf p (listening env) s)).length = outhopOf p (listening env) s := by simp [mixOf]
  rw [hlen] at hle
  refine ⟨⟨_, _, _, h2⟩, f.plain pt, h5, ?_⟩
  have e1 := (out0_eq hc bt.outU).2.1
  have e2 := (out0_eq hc h2.outU).2.1
  have := ht.2
  omega

variable [Add α] [Sub α]

theorem call_heard {p : Params} (hc : 0 < p.channels) (hrt : p.realTime = true) (hh : p.highConsistency = true) {env : Env α σ ρ} (hsh : Shrinks env)
    {s : State α σ (ρ × List (Frame α))} (hi : Inv p (listening env) s) (hp : Plain s) {gone : Nat} (hd : Heard s gone) {c : Call α} (hne : c ≠ .reset)
    {r : State α σ (ρ × List (Frame α)) × List (List α)} (h : call p (listening env) s c = some r) (ch : Nat) (hch : ch < p.channels) :
    Heard r.1 (gone + ((r.2[ch]?).getD []).length) := by
  cases c with
  | setTimeRatio x =>
    cases h
    refine hd.congr ?_ ?_ <;>
    · show _ = _
      unfold setTimeRatio
      split
      · rfl
      · split <;> rfl
  | setPitchScale x =>
    cases h
    refine hd.congr ?_ ?_ <;>
    · show _ = _
      unfold setPitchScale
      split
      · rfl
      · split <;> rfl
  | setFormantScale x =>
    cases h
    refine hd.congr ?_ ?_ <;>
    · show _ = _
      unfold setFormantScale
      split <;> rfl
  | setKeyFrameMap x =>
    cases h
    refine hd.congr ?_ ?_ <;>
    · show _ = _
      unfold setKeyFrameMap
      rw [hrt]
      rfl
  | setExpectedInputDuration x => cases h; exact hd
  | setMaxProcessSize x =>
    cases h
    show Heard (setMaxProcessSize s x) _
    unfold setMaxProcessSize
    simp only
    generalize (if x > overallMaxProcessSize then overallMaxProcessSize else x) = k
    obtain ⟨ic, oc, n, m, hb, _⟩ := hi.bufs
    obtain ⟨ic', _, _, b1, _⟩ := ensureInbuf_bufs hc hb (k * 2)
    obtain ⟨oc', _, _, b2, _⟩ := ensureOutbuf_bufs hc b1 (k * 8)
    have e1 := ensureInbuf_other s (k * 2)
    have e2 := ensureOutbuf_other (ensureInbuf s (k * 2)) (k * 8)
    refine hd.congr ?_ (e2.2.2.2.1.trans e1.2.2.2.1)
    rw [(out0_eq hc b2.outU).2.1, (out0_eq hc hb.outU).2.1]
  | study x =>
    cases h
    show Heard (study p s x) _
    unfold study
    rw [hrt]
    exact hd
  | process x f =>
    unfold call at h
    rw [Option.map_eq_some_iff] at h
    obtain ⟨t, ht, rfl⟩ := h
    unfold process at ht
    split at ht
    · cases ht; exact hd
    · rw [Option.map_eq_some_iff] at ht
      obtain ⟨u, hu, rfl⟩ := ht
      have e : prologue p (listening env) s = s := by unfold prologue; rw [hrt]; rfl
      rw [e] at hu
      obtain ⟨ic, oc, n, m, hb, hn, _⟩ := hi.bufs
      have : Heard u gone := by
        by_cases hl : (x.take overallMaxProcessSize).length = 0
        · unfold processInput at hu
          rw [if_pos hl] at hu
          split at hu
          · exact consume_heard hc hrt hh hsh hu hb hp hd
          · cases hu; exact hd
        · obtain ⟨b, ic', b1, kb, b2, b3, b4, b5, _⟩ := processInput_plain hc hb hn (by
              unfold resamplingBefore areWeResampling
              rw [hrt, hh]
              cases s.resampler.isSome <;> simp) hl hu
          refine consume_heard hc hrt hh hsh b4 b1 (hp.congr b3 kb.totalTargetDuration) (hd.congr ?_ b5)
          unfold out0
          rw [b2]
      exact this
  | retrieve k =>
    cases h
    obtain ⟨f1, f2, f3, f4, _⟩ := retrieve_facts hc hi k
    obtain ⟨ic, oc, n, m, hb, _⟩ := hi.bufs
    have hav : (available s).toNat = m := by
      rw [available_eq hc hb.outU]
      split
      · omega
      · simp
    simp only
    have hl : (((retrieve p s k).2.1[ch]?).getD []).length = min k m := by
      rw [List.getElem?_eq_getElem (by rw [f2]; exact hch), Option.getD_some, f3 _ (List.getElem_mem _), hav]
    rw [hl, f4]
    have e1 := (out0_eq hc hb.outU).2.1
    have e2 : (out0 { s with outbuf := s.outbuf.map fun q => q.skip k }).readSpace = m - k :=
      (out0_eq hc (s := { s with outbuf := s.outbuf.map fun q => q.skip k }) (hb.outU.skip k)).2.1
    refine ⟨hd.1, ?_⟩
    rw [e2]
    have := hd.2
    show _ = (returned s).length
    omega
  | reset => exact absurd rfl hne

/-- **C58**, for resamplers that never return more than they are given (as is so when the pitch is raised). -/
theorem C58_partial {p : Params} (hc : 0 < p.channels) (hrt : p.realTime = true) (hh : p.highConsistency = true) (env : Env α σ ρ) (hsh : Shrinks env)
    (t ps : Dbl) (pre post : List (Call α)) {a r : State α σ (ρ × List (Frame α)) × List (List (List α))}
    (h1 : run p (listening env) (create p (listening env) t ps) pre = some a) (hph : phase p.realTime pre = .fresh)
    (h2 : run p (listening env) a.1 post = some r) (hn : noReset post) (c : Nat) (hcc : c < p.channels) :
    (channelOut r.2 c).length + (available r.1).toNat = (returned r.1).length := by
  have hi := run_inv hc pre _ _ (create_inv p (listening env) t ps) h1
  have hp := run_plain hrt pre _ _ ⟨rfl, rfl⟩ h1
  -- before the first block the record is empty
  have hsil : ∀ (cs : List (Call α)) (s : State α σ (ρ × List (Frame α))) (r : State α σ (ρ × List (Frame α)) × List (List (List α))),
      (s.resampler.isSome = true ∧ (s.mode = .justCreated → returned s = [])) → Inv p (listening env) s → Plain s → run p (listening env) s cs = some r →
      r.1.resampler.isSome = true ∧ (r.1.mode = .justCreated → returned r.1 = []) := by
    intro cs
    induction cs with
    | nil => intro s r hs _ _ h; cases h; exact hs
    | cons d cs ih =>
      intro s r hs hi hp h
      obtain ⟨x, b, h1, h2, rfl⟩ := run_cons h
      refine ih x.1 b ?_ (call_inv hc hi h1) (call_plain hrt hp h1) h2
      by_cases hd : d = .reset
      · subst hd
        cases h1
        refine ⟨?_, fun _ => ?_⟩
        · show (s.resampler.map (listening env).rsReset).isSome = true
          rw [Option.isSome_map]; exact hs.1
        · show ((s.resampler.map (listening env).rsReset).map fun r => r.2).getD [] = []
          cases s.resampler <;> rfl
      · have hkeep : ∀ {t : State α σ (ρ × List (Frame α))}, t.resampler = s.resampler → t.mode = s.mode →
            t.resampler.isSome = true ∧ (t.mode = .justCreated → returned t = []) := by
          intro t e1 e2
          unfold returned
          rw [e1, e2]
          exact hs
        cases d with
        | setTimeRatio x =>
          cases h1
          refine hkeep ?_ ?_ <;>
          · show _ = _
            unfold setTimeRatio
            split
            · rfl
            · split <;> rfl
        | setPitchScale x =>
          cases h1
          refine hkeep ?_ ?_ <;>
          · show _ = _
            unfold setPitchScale
            split
            · rfl
            · split <;> rfl
        | setFormantScale x =>
          cases h1
          refine hkeep ?_ ?_ <;>
          · show _ = _
            unfold setFormantScale
            split <;> rfl
        | setKeyFrameMap x =>
          cases h1
          refine hkeep ?_ ?_ <;>
          · show _ = _
            unfold setKeyFrameMap
            rw [hrt]
            rfl
        | setExpectedInputDuration x => cases h1; exact hkeep rfl rfl
        | setMaxProcessSize x =>
          cases h1
          show (setMaxProcessSize s x).resampler.isSome = true ∧ ((setMaxProcessSize s x).mode = _ → returned (setMaxProcessSize s x) = _)
          unfold setMaxProcessSize
          simp only
          generalize (if x > overallMaxProcessSize then overallMaxProcessSize else x) = k
          have e1 := ensureInbuf_other s (k * 2)
          have e2 := ensureOutbuf_other (ensureInbuf s (k * 2)) (k * 8)
          have k1 := ensureInbuf_kept s (k * 2)
          have k2 := ensureOutbuf_kept (ensureInbuf s (k * 2)) (k * 8)
          exact hkeep (e2.2.2.2.1.trans e1.2.2.2.1) (k1.trans k2).mode
        | study x =>
          cases h1
          show (study p s x).resampler.isSome = true ∧ ((study p s x).mode = _ → returned (study p s x) = _)
          unfold study
          rw [hrt]
          exact hs
        | process x f =>
          unfold call at h1
          rw [Option.map_eq_some_iff] at h1
          obtain ⟨t, ht, rfl⟩ := h1
          have hm := process_mode ht
          refine ⟨?_, fun hx => ?_⟩
          · have hd : Heard s ((returned s).length - (out0 s).readSpace) ∨ True := Or.inr trivial
            unfold process at ht
            split at ht
            · cases ht; exact hs.1
            · rw [Option.map_eq_some_iff] at ht
              obtain ⟨u, hu, rfl⟩ := ht
              have e : prologue p (listening env) s = s := by unfold prologue; rw [hrt]; rfl
              rw [e] at hu
              obtain ⟨ic, oc, n, m, hb, hn, _⟩ := hi.bufs
              obtain ⟨k, _⟩ := processInput_bufs hc hu hb hn
              exact k.haveResampler.trans hs.1
          · rw [show t.mode = _ from hm] at hx
            split at hx <;> simp at hx
        | retrieve k => cases h1; exact hkeep rfl rfl
        | reset => exact absurd rfl hd
  have hcs : (create p (listening env) t ps).resampler = some ((env.rsInit, []) : ρ × List (Frame α)) := by
    show (if p.realTime then some _ else none) = _
    rw [hrt]
    rfl
  obtain ⟨s1, s2⟩ := hsil pre _ a ⟨by rw [hcs]; rfl, fun _ => by unfold returned; rw [hcs]; rfl⟩ (create_inv p (listening env) t ps) ⟨rfl, rfl⟩ h1
  have hm : a.1.mode = .justCreated := by rw [reached_mode h1, hph]; rfl
  have hd : Heard a.1 0 := by
    obtain ⟨ic, oc, n, m, hb, _, b2, _⟩ := hi.bufs
    have hm0 := (b2 (Or.inl hm)).2
    refine ⟨s1, ?_⟩
    rw [s2 hm, (out0_eq hc hb.outU).2.1, hm0]
    rfl
  have key : ∀ (cs : List (Call α)) (s : State α σ (ρ × List (Frame α))) (r : State α σ (ρ × List (Frame α)) × List (List (List α))) (gone : Nat),
      Inv p (listening env) s → Plain s → Heard s gone → noReset cs → run p (listening env) s cs = some r →
      Heard r.1 (gone + (channelOut r.2 c).length) := by
    intro cs
    induction cs with
    | nil => intro s r gone _ _ hd _ h; cases h; exact hd
    | cons d cs ih =>
      intro s r gone hi hp hd hn h
      obtain ⟨x, b, h1, h2, rfl⟩ := run_cons h
      have hne : d ≠ .reset := by
        intro e
        have := hn d (by simp)
        rw [e] at this
        exact this
      have := ih x.1 b _ (call_inv hc hi h1) (call_plain hrt hp h1) (call_heard hc hrt hh hsh hi hp hd hne h1 c hcc) (fun d hd => hn d (by simp [hd])) h2
      have e : gone + (channelOut (x.2 :: b.2) c).length = gone + ((x.2[c]?).getD []).length + (channelOut b.2 c).length := by
        unfold channelOut
        rw [List.map_cons, List.flatten_cons, List.length_append, Nat.add_assoc]
      rw [e]
      exact this
  have hend := (key post a.1 r 0 hi hp hd hn h2).2
  have hi' := run_inv hc post _ _ hi h2
  obtain ⟨ic, oc, n, m, hb, _⟩ := hi'.bufs
  have hav : (available r.1).toNat = m := by
    rw [available_eq hc hb.outU]
    split
    · omega
    · simp
  rw [(out0_eq hc hb.outU).2.1] at hend
  omega

/-- A resampler that keeps half of the frames, as for a pitch an octave up. -/
def Ex.half : Env Rat Unit Unit where
  dspInit := ()
  dspReset := id
  dsp := fun s _ _ => (s, fun _ i => i)
  rsInit := ()
  rsReset := id
  resample := fun r space block _ _ => (r, (block.take ((block.length + 1) / 2)).take space)
  effective := fun _ x => x
  curve := fun _ => 256
  halve := fun x => x / 2

example : Shrinks Ex.half := by
  intro r space block ratio final
  show ((block.take ((block.length + 1) / 2)).take space).length ≤ block.length
  rw [List.length_take, List.length_take]
  omega

/-- Two blocks and a retrieval with it: 50 frames retrieved and 390 available of 440 returned. -/
example : (run { sampleRate := 8000, channels := 2, realTime := true, windowShort := true, highConsistency := true } (listening Ex.half)
    (create { sampleRate := 8000, channels := 2, realTime := true, windowShort := true, highConsistency := true } (listening Ex.half) (.fin 1) (.fin 2))
    [.process (Ex.block 600) false, .process (Ex.block 900) false, .retrieve 50]).map
    (fun r => ((channelOut r.2 1).length, available r.1, (returned r.1).length)) = some (50, 390, 440) := by decide +kernel

end

/-! ## The loss -/

namespace Ex
/-- A resampler that returns every frame four times, as for a pitch two octaves down. -/
def octaves : Env Rat Unit Unit where
  dspInit := ()
  dspReset := id
  dsp := fun s _ _ => (s, fun _ _ => 0)
  rsInit := ()
  rsReset := id
  resample := fun r space block _ _ => (r, (block.flatMap fun f => [f, f, f, f]).take space)
  effective := fun _ x => x
  curve := fun _ => 256
  halve := fun x => x / 2

def one : Params := { sampleRate := 8000, channels := 1, realTime := true, windowShort := true, highConsistency := true }

/-- The engine two octaves down and stretched by 40. -/
def start : State Rat Unit (Unit × List (Frame Rat)) := create one (listening octaves) (.fin 40) (.fin (1 / 4))

theorem start_facts : start.inhop = 8 ∧ outhopOf one (listening octaves) start = 80 ∧ one.hopBufferSize = 384 ∧ one.windowSourceSize = 1088 ∧
    start.timeRatio * start.pitchScale = 10 ∧ 10 ≤ one.minPreferredOuthop := by decide +kernel
end Ex

/-- One block of 1520 frames makes 55 rounds.  The resampler returns 320 frames in each; in the last one there is room for 128.  That is
more than the hop of 80 frames that room is made for, so the buffer is not enlarged, and 192 frames are lost. -/
theorem C58_violated : ¬ C58_statement := by
  intro h
  obtain ⟨e1, e2, e3, e4, e5, e6⟩ := Ex.start_facts
  have hi : Inv Ex.one (listening Ex.octaves) Ex.start := create_inv _ _ _ _
  have hp : prologue Ex.one (listening Ex.octaves) Ex.start = Ex.start := rfl
  have hfit : OuthopFits Ex.one (listening Ex.octaves) (prologue Ex.one (listening Ex.octaves) Ex.start) := by
    rw [hp]
    intro s' k
    refine outhopOf_le ?_ (k.hops hi.hops) ?_
    · intro r x hx
      show 3 / 4 * x ≤ x
      linarith
    · rw [k.timeRatio, k.pitchScale]
      rw [e5]
      have : ((10 : Nat) : Rat) ≤ (Ex.one.minPreferredOuthop : Rat) := by exact_mod_cast e6
      push_cast at this
      linarith
  obtain ⟨blk, hlen⟩ : ∃ blk : List (Frame Rat), blk.length = 1520 := ⟨List.replicate 1520 fun _ => 0, List.length_replicate⟩
  obtain ⟨r, hr⟩ := process_some (input := blk) (final := false) (by decide) hi hfit
  have hrun : run Ex.one (listening Ex.octaves) Ex.start [.process blk false] = some (r, [[]]) := by
    have hcall : call Ex.one (listening Ex.octaves) Ex.start (.process blk false) = some (r, []) := by
      show (process _ _ _ _ _).map _ = _
      rw [hr]
      rfl
    show (call Ex.one (listening Ex.octaves) Ex.start (.process blk false)).bind _ = _
    rw [hcall]
    rfl
  have key := h Ex.one (by decide) rfl rfl Ex.octaves (.fin 40) (.fin (1 / 4)) [] [.process blk false] (Ex.start, []) (r, [[]]) rfl rfl hrun
    (by intro c hc; rw [List.mem_singleton.mp hc]; trivial) 0 (by decide)
  have hc : 0 < Ex.one.channels := by decide
  -- the state before
  obtain ⟨ic, oc, n, m, hb, hn, b2, _⟩ := hi.bufs
  obtain ⟨hn0, hm0⟩ := b2 (Or.inl rfl)
  subst hn0 hm0
  have hoc : oc = 17408 := by
    rw [← (hb.outU.head hc).1]
    decide +kernel
  subst hoc
  -- what the call does
  unfold process at hr
  rw [if_neg (by decide), Option.map_eq_some_iff] at hr
  obtain ⟨u, hu, rfl⟩ := hr
  rw [hp, List.take_of_length_le (by rw [hlen]; decide)] at hu
  obtain ⟨b, ic', b1, kb, c2, b3, b4, b5, b6⟩ := processInput_plain hc hb hn rfl (by rw [hlen]; decide) hu
  have ho : outhopOf Ex.one (listening Ex.octaves) b = 80 := by
    rw [← e2]
    unfold outhopOf calculated
    rw [b5, b6, kb.timeRatio, kb.pitchScale, kb.inhop]
  have hih : b.inhop = 8 := kb.inhop.trans e1
  have hret : (returned b).length = 0 := by
    unfold returned
    rw [b5]
    rfl
  obtain ⟨⟨j, hj, bt, rt, _⟩, hst⟩ := consume_induct (fun t => ∃ j, j ≤ 55 ∧ Bufs Ex.one t ic' 17408 (1520 - 8 * j) (min 17408 (320 * j)) ∧
      (returned t).length = 320 * j ∧ t.resampler.isSome = true ∧ Plain t)
    (by
      rintro t t' ⟨j, hj, bt, rt, st, pt⟩ hs f
      rw [ho, hih] at f
      obtain ⟨k, oc', hk, h1, h2, _, h4, h5⟩ := f.heard hc rfl rfl bt pt st
      have hj' : j ≤ 54 := by
        by_contra hcon
        refine hs ?_
        unfold stops
        rw [(in0_eq hc bt.inU).2.1, e4]
        have : 1520 - 8 * j < 1088 := by omega
        simp [this]
      have hoc' := h4 (by omega)
      subst hoc'
      have hk' : k = 320 := by
        rw [hk, e3]
        show min 384 ((List.flatMap _ _).take _).length = 320
        rw [List.length_take, List.length_flatMap]
        have hmap : (mixOf Ex.one (listening Ex.octaves) t 8 80).map (fun f => [f, f, f, f].length) = List.replicate 80 4 := by
          rw [List.eq_replicate_iff]
          refine ⟨by simp [mixOf], fun x hx => ?_⟩
          obtain ⟨_, _, rfl⟩ := List.mem_map.mp hx
          rfl
        rw [hmap]
        decide
      subst hk'
      refine ⟨j + 1, by omega, ?_, by omega, h5, f.plain pt⟩
      have x1 : 1520 - 8 * (j + 1) = 1520 - 8 * j - 8 := by omega
      have x2 : min 17408 (320 * (j + 1)) = min 17408 (320 * j) + min 320 (17408 - min 17408 (320 * j)) := by omega
      rw [x1, x2]
      exact h2)
    ⟨0, by decide, by rw [hlen] at b1; exact b1.congr rfl rfl rfl, hret, by
      show b.resampler.isSome = true
      rw [b5]
      rfl, ⟨b3.trans rfl, kb.totalTargetDuration.trans rfl⟩⟩ b4
  have hj' : j = 55 := by
    unfold stops at hst
    rw [(in0_eq hc bt.inU).2.1, e4] at hst
    simp only [Bool.and_eq_true, decide_eq_true_eq] at hst
    omega
  subst hj'
  have e : (returned (α := Rat) (σ := Unit) (ρ := Unit) { u with mode := if false then .finished else .processing }).length = 320 * 55 := rt
  have hle : (available (α := Rat) (σ := Unit) (ρ := Unit × List (Frame Rat)) { u with mode := if false then .finished else .processing }).toNat ≤ 17408 := by
    rw [available_eq hc (s := { u with mode := if false then .finished else .processing }) bt.outU]
    split <;> omega
  have hz : (channelOut ([[]] : List (List (List Rat))) 0).length = 0 := rfl
  rw [hz] at key
  have key' : 0 + (available (α := Rat) (σ := Unit) (ρ := Unit × List (Frame Rat)) { u with mode := if false then .finished else .processing }).toNat = 320 * 55 :=
    key.trans e
  omega
end Verif.R3
