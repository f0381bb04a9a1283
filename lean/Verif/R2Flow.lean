import Verif.R2
/-!
# The faster engine offline: what it makes of its input

A description of the output of a channel that knows nothing of blocks and buffers: frames are taken from the whole of the input, one every
`increment` samples, each gives as many samples as the stretch profile says, and at the end what is left in the accumulator is given.
The engine is then shown to do that.
-/
namespace Verif.R2
open Verif.Round Verif.StretchCalc

variable {α σ ρ κ : Type}

/-- What matters for the sound to come: the spectral state, what is in the frame buffer, the fill of the accumulator, the number of the chunk. -/
structure Syn (α σ : Type) where
  spec : σ
  flt : Nat → α
  fill : Nat
  count : Nat

/-- The increments of the chunk of the given number: that in the profile, or the last one there is. -/
def pick (z : Sizes) (incs : List Int) (count : Nat) : Nat × Incs :=
  if incs.length = 0 then (count, ⟨z.increment, z.increment, false⟩)
  else
    let k := min count (incs.length - 1)
    (k, ⟨(incs.getD k 0).natAbs, (incs.getD (min (k + 1) (incs.length - 1)) 0).natAbs, decide (incs.getD k 0 < 0) || k == 0⟩)

/-- A frame analysed, and the output of its synthesis. -/
def frameStep (env : Env α σ ρ κ) (z : Sizes) (incs : List Int) (frame : List α) (x : Syn α σ) : Syn α σ × List α :=
  let a := env.analyse x.spec ((List.range z.window).map fun i => frame.getD i (x.flt i))
  let i := (pick z incs x.count).2
  let b := env.synthesise a.1 a.2 i.phase i.shift i.reset
  (⟨env.shift b.1 (max x.fill z.window) i.shift, b.2, max x.fill z.window - i.shift, (pick z incs x.count).1 + 1⟩,
    (List.range i.shift).map (env.emit b.1))

/-- How much is given of what is left in the accumulator. -/
def drainBy (z : Sizes) (incs : List Int) (x : Syn α σ) : Nat :=
  let s := (pick z incs x.count).2.shift
  min x.fill (if s = 0 then z.increment else s)

/-- Some of what is left given.  (What is in the frame buffer is analysed again, to no purpose.) -/
def drainStep (env : Env α σ ρ κ) (z : Sizes) (incs : List Int) (x : Syn α σ) : Syn α σ × List α :=
  let a := env.analyse x.spec ((List.range z.window).map x.flt)
  (⟨env.shift a.1 x.fill (drainBy z incs x), a.2, x.fill - drainBy z incs x, (pick z incs x.count).1 + 1⟩,
    (List.range (drainBy z incs x)).map (env.emit a.1))

/-- All that is left. -/
def drain (env : Env α σ ρ κ) (z : Sizes) (incs : List Int) : (fuel : Nat) → Syn α σ → List α
  | 0, _ => []
  | fuel + 1, x => if x.fill = 0 then [] else (drainStep env z incs x).2 ++ drain env z incs fuel (drainStep env z incs x).1

/-- After the frames before frame `j` of the (padded) input `X`: the state, and what has been given. -/
def synAt (env : Env α σ ρ κ) (z : Sizes) (incs : List Int) (x₀ : Syn α σ) (X : List α) : Nat → Syn α σ × List α
  | 0 => (x₀, [])
  | j + 1 =>
    let r := synAt env z incs x₀ X j
    let f := frameStep env z incs ((X.drop (j * z.increment)).take z.window) r.1
    (f.1, r.2 ++ f.2)

/-- The number of frames of an input of `n` samples. -/
def frames (z : Sizes) (n : Nat) : Nat := n / z.increment + 1

/-- All that is given for an input: that of its frames, with half a window of zeros before it, and what is left after them. -/
def emission [Zero α] (env : Env α σ ρ κ) (z : Sizes) (incs : List Int) (x₀ : Syn α σ) (input : List α) : List α :=
  let r := synAt env z incs x₀ (List.replicate (z.window / 2) 0 ++ input) (frames z input.length)
  r.2 ++ drain env z incs r.1.fill r.1

/-! ## A round of the engine -/

/-- The part of a channel that is in `Syn`. -/
def Chan.syn (cd : Chan α σ ρ) : Syn α σ := ⟨cd.spec, cd.fltbuf, cd.accumulatorFill, cd.chunkCount⟩

/-- What is to be written of an output, and by how much the count grows. -/
def trim (skip theoretical outCount : Nat) (out : List α) : List α × Nat :=
  if outCount > skip then
    if theoretical > 0 ∧ outCount - skip ≤ theoretical ∧ outCount - skip + out.length > theoretical
      then (out.take (theoretical - (outCount - skip)), theoretical - (outCount - skip)) else (out, out.length)
  else if outCount + out.length ≤ skip then ([], out.length)
  else (out.drop (skip - outCount), out.length)

theorem getIncrements_eq (z : Sizes) (incs : List Int) (cd : Chan α σ ρ) :
    (getIncrements z incs cd).1 = { cd with chunkCount := (pick z incs cd.chunkCount).1 } ∧
      (getIncrements z incs cd).2.1 = (pick z incs cd.chunkCount).2 := by
  unfold getIncrements pick
  split
  · exact ⟨rfl, rfl⟩
  · rename_i h
    have hk : (if cd.chunkCount ≥ incs.length then incs.length - 1 else cd.chunkCount) = min cd.chunkCount (incs.length - 1) := by
      split <;> omega
    simp only [hk]
    refine ⟨trivial, ?_⟩
    have hs : (if min cd.chunkCount (incs.length - 1) + 1 < incs.length then incs.getD (min cd.chunkCount (incs.length - 1) + 1) 0
        else incs.getD (min cd.chunkCount (incs.length - 1)) 0) = incs.getD (min (min cd.chunkCount (incs.length - 1) + 1) (incs.length - 1)) 0 := by
      split
      · congr 1; omega
      · congr 1; omega
    rw [hs]

/-- Enough room, and no more than it holds. -/
structure Room (z : Sizes) (q : Fifo α) : Prop where
  fits : q.data.length ≤ q.cap
  cap : z.window ≤ q.cap

theorem ensure_spec {z : Sizes} (hz : z.pitchScale = 1) {si : Nat} (hsi : si ≤ z.window) {cd : Chan α σ ρ} (h : Room z cd.outbuf) :
    ∃ q, ensureOutbuf z si cd = { cd with outbuf := q } ∧ q.data = cd.outbuf.data ∧ Room z q ∧ si ≤ q.writeSpace := by
  unfold ensureOutbuf
  simp only [hz, ne_eq, not_true_eq_false, if_false]
  have := h.fits
  have := h.cap
  split
  · rename_i hlt
    have e : (cd.outbuf.resized (cd.outbuf.cap * 2)).data = cd.outbuf.data := by
      unfold Fifo.resized
      exact List.take_of_length_le (by omega)
    refine ⟨_, rfl, e, ⟨?_, ?_⟩, ?_⟩
    · rw [e]; unfold Fifo.resized; simp only; omega
    · unfold Fifo.resized; simp only; omega
    · unfold Fifo.writeSpace; rw [e]; unfold Fifo.resized; simp only; omega
  · exact ⟨_, rfl, rfl, h, by omega⟩

theorem writeOutput_spec (skip T : Nat) (cd : Chan α σ ρ) (out : List α) (hr : out.length ≤ cd.outbuf.writeSpace) :
    ∃ q, writeOutput skip T cd out = { cd with outbuf := q, outCount := cd.outCount + (trim skip T cd.outCount out).2 } ∧
      q.cap = cd.outbuf.cap ∧ q.data = cd.outbuf.data ++ (trim skip T cd.outCount out).1 := by
  have hw : ∀ xs : List α, xs.length ≤ out.length → (cd.outbuf.write xs).cap = cd.outbuf.cap ∧ (cd.outbuf.write xs).data = cd.outbuf.data ++ xs := by
    intro xs hx
    refine ⟨rfl, ?_⟩
    unfold Fifo.write
    simp only
    rw [List.take_of_length_le (by omega)]
  unfold writeOutput trim
  split
  · simp only
    split
    · rename_i h
      obtain ⟨h1, h2⟩ := hw (out.take (T - (cd.outCount - skip))) (by simp)
      refine ⟨_, ?_, h1, h2⟩
      congr 2
      omega
    · obtain ⟨h1, h2⟩ := hw out (le_refl _)
      rw [List.take_length, Nat.min_eq_left hr]
      exact ⟨_, rfl, h1, h2⟩
  · split
    · exact ⟨cd.outbuf, rfl, rfl, by simp⟩
    · obtain ⟨h1, h2⟩ := hw (out.drop (skip - cd.outCount)) (by simp)
      exact ⟨_, rfl, h1, h2⟩

theorem trim_length (skip T o : Nat) (out : List α) : (trim skip T o out).1.length ≤ out.length := by
  unfold trim
  split
  · split
    · simp
    · exact le_refl _
  · split
    · simp
    · simp

/-- No resampling of the output. -/
structure Plain (p : Params) (z : Sizes) : Prop where
  offline : p.realTime = false
  pitch : z.pitchScale = 1
  consistency : p.highConsistency = false

theorem Plain.before {p : Params} {z : Sizes} (h : Plain p z) : resampleBefore p z.pitchScale = false := by
  unfold resampleBefore; simp [h.offline]

theorem resampled_plain {p : Params} {env : Env α σ ρ κ} {z : Sizes} (hp : Plain p z) (cd : Chan α σ ρ) (mix : List α) (last : Bool) :
    resampled p env z cd mix last = (cd, mix) := by
  unfold resampled
  rw [hp.pitch, hp.consistency]
  cases cd.resampler <;> simp

/-- What a chunk leaves of a channel: the new state of the synthesis, and what was written. -/
structure Wrote (skip T : Nat) (z : Sizes) (cd cd' : Chan α σ ρ) (out : List α) : Prop where
  outCount : cd'.outCount = cd.outCount + (trim skip T cd.outCount out).2
  outbuf : cd'.outbuf.data = cd.outbuf.data ++ (trim skip T cd.outCount out).1
  room : Room z cd'.outbuf
  inCount : cd'.inCount = cd.inCount
  inputSize : cd'.inputSize = cd.inputSize

theorem writeChunk_spec {p : Params} {env : Env α σ ρ κ} {z : Sizes} (hp : Plain p z) {si : Nat} {last : Bool} {cd : Chan α σ ρ} (hr : Room z cd.outbuf)
    (hsi : si ≤ cd.accumulatorFill) (hw : si ≤ z.window) :
    ∃ cd', writeChunk p env z si last (ensureOutbuf z si cd) = some cd' ∧
      Wrote (startSkip p z) (theoreticalOut z cd) z cd cd' ((List.range si).map (env.emit cd.spec)) ∧
      cd'.inbuf = cd.inbuf ∧ cd'.fltbuf = cd.fltbuf ∧ cd'.spec = env.shift cd.spec cd.accumulatorFill si ∧ cd'.accumulatorFill = cd.accumulatorFill - si ∧
      cd'.chunkCount = cd.chunkCount ∧ cd'.draining = cd.draining ∧
      cd'.outputComplete = (cd.outputComplete || (cd.draining && decide (cd.accumulatorFill = si))) := by
  obtain ⟨q, e, d1, d2, d3⟩ := ensure_spec hp.pitch hw hr
  rw [e]
  unfold writeChunk
  simp only [if_neg (not_lt.mpr hsi), resampled_plain hp]
  have ht : theoreticalOut z { cd with outbuf := q } = theoreticalOut z cd := rfl
  obtain ⟨q', f1, f2, f3⟩ := writeOutput_spec (startSkip p z) (theoreticalOut z cd) { cd with outbuf := q } ((List.range si).map (env.emit cd.spec))
    (by simp only [List.length_map, List.length_range]; exact d3)
  rw [ht, f1]
  have hroom : Room z q' := by
    refine ⟨?_, ?_⟩
    · rw [f3, f2]
      have := trim_length (startSkip p z) (theoreticalOut z cd) cd.outCount ((List.range si).map (env.emit cd.spec))
      simp only [List.length_map, List.length_range] at this
      simp only [List.length_append]
      have h1 := d2.fits
      unfold Fifo.writeSpace at d3
      omega
    · rw [f2]; exact d2.cap
  have hdata : q'.data = cd.outbuf.data ++ (trim (startSkip p z) (theoreticalOut z cd) cd.outCount ((List.range si).map (env.emit cd.spec))).1 := by
    rw [f3]; simp only; rw [d1]
  refine ⟨_, rfl, ?_⟩
  unfold lessFill
  simp only
  split
  · rename_i hlt
    refine ⟨⟨rfl, hdata, hroom, rfl, rfl⟩, rfl, rfl, rfl, rfl, rfl, rfl, ?_⟩
    have : ¬ cd.accumulatorFill = si := by omega
    simp [this]
  · rename_i hlt
    have : cd.accumulatorFill = si := by omega
    refine ⟨⟨rfl, hdata, hroom, rfl, rfl⟩, rfl, rfl, rfl, ?_, rfl, rfl, ?_⟩
    · simp only; omega
    · simp [this]

/-- No increment is longer than a window. -/
def Short (z : Sizes) (incs : List Int) : Prop := ∀ i ∈ incs, i.natAbs ≤ z.window

theorem pick_short {z : Sizes} {incs : List Int} (h1 : z.increment ≤ z.window) (h : Short z incs) (count : Nat) : (pick z incs count).2.shift ≤ z.window := by
  unfold pick
  split
  · exact h1
  · rename_i hl
    simp only
    have hb : min (min count (incs.length - 1) + 1) (incs.length - 1) < incs.length := by omega
    rw [List.getD_eq_getElem?_getD, List.getElem?_eq_getElem hb]
    exact h _ (List.getElem_mem hb)

theorem spectral_analyse (env : Env α σ ρ κ) (z : Sizes) (i : Incs) (y : Chan α σ ρ) (hd : y.draining = false) :
    spectral env z i (analyseChunk env z y) =
      { y with
        spec := (env.synthesise (env.analyse y.spec ((List.range z.window).map y.fltbuf)).1 (env.analyse y.spec ((List.range z.window).map y.fltbuf)).2
          i.phase i.shift i.reset).1,
        fltbuf := (env.synthesise (env.analyse y.spec ((List.range z.window).map y.fltbuf)).1 (env.analyse y.spec ((List.range z.window).map y.fltbuf)).2
          i.phase i.shift i.reset).2,
        accumulatorFill := max y.accumulatorFill z.window } := by
  unfold spectral
  rw [if_neg (by show ¬ y.draining = true; rw [hd]; decide)]
  rfl

/-- A frame. -/
theorem round_frame {p : Params} {env : Env α σ ρ κ} {z : Sizes} {incs : List Int} (hp : Plain p z) (hi : z.increment ≤ z.window) (hs : Short z incs)
    {cd : Chan α σ ρ} (hr : Room z cd.outbuf) (ht : testInbuf z cd = (cd, true)) (hd : cd.draining = false) :
    ∃ cd', chunkRound p env z incs cd = some (cd', true) ∧ cd'.syn = (frameStep env z incs (cd.inbuf.data.take z.window) cd.syn).1 ∧
      Wrote (startSkip p z) (theoreticalOut z cd) z cd cd' (frameStep env z incs (cd.inbuf.data.take z.window) cd.syn).2 ∧
      cd'.inbuf = cd.inbuf.skip z.increment ∧ cd'.draining = false ∧ cd'.outputComplete = cd.outputComplete := by
  have hsh := pick_short hi hs cd.chunkCount
  unfold chunkRound
  rw [ht]
  simp only [if_true]
  have e1 : takeFrame z cd = { cd with fltbuf := fun i => (cd.inbuf.data.take z.window).getD i (cd.fltbuf i), inbuf := cd.inbuf.skip z.increment } := by
    unfold takeFrame
    simp only [hd, Bool.false_eq_true, if_false]
    rfl
  obtain ⟨g1, g2⟩ := getIncrements_eq z incs (takeFrame z cd)
  rw [e1] at g1 g2 ⊢
  simp only at g1 g2
  have hsp := spectral_analyse env z (pick z incs cd.chunkCount).2 (getIncrements z incs ({ cd with fltbuf := fun i => (cd.inbuf.data.take z.window).getD i (cd.fltbuf i), inbuf := cd.inbuf.skip z.increment } : Chan α σ ρ)).1 (by rw [g1]; exact hd)
  rw [g2]
  unfold chunk
  simp only [if_pos hsh]
  unfold processChunk
  rw [hsp, g1]
  rw [if_neg (by show ¬ cd.draining = true; rw [hd]; decide)]
  simp only
  obtain ⟨cd', w1, w2, w3, w4, w5, w6, w7, w8, w9⟩ := writeChunk_spec (env := env) (last := false) hp (si := (pick z incs cd.chunkCount).2.shift)
    (cd := { cd with
      fltbuf := (env.synthesise (env.analyse cd.spec ((List.range z.window).map fun i => (cd.inbuf.data.take z.window).getD i (cd.fltbuf i))).1
        (env.analyse cd.spec ((List.range z.window).map fun i => (cd.inbuf.data.take z.window).getD i (cd.fltbuf i))).2
          (pick z incs cd.chunkCount).2.phase (pick z incs cd.chunkCount).2.shift (pick z incs cd.chunkCount).2.reset).2
      spec := (env.synthesise (env.analyse cd.spec ((List.range z.window).map fun i => (cd.inbuf.data.take z.window).getD i (cd.fltbuf i))).1
        (env.analyse cd.spec ((List.range z.window).map fun i => (cd.inbuf.data.take z.window).getD i (cd.fltbuf i))).2
          (pick z incs cd.chunkCount).2.phase (pick z incs cd.chunkCount).2.shift (pick z incs cd.chunkCount).2.reset).1
      inbuf := cd.inbuf.skip z.increment
      chunkCount := (pick z incs cd.chunkCount).1
      accumulatorFill := max cd.accumulatorFill z.window })
    hr (by simp only; omega) hsh
  rw [w1]
  refine ⟨_, rfl, ?_, ⟨w2.outCount, w2.outbuf, w2.room, w2.inCount, w2.inputSize⟩, ?_, ?_, ?_⟩
  · unfold Chan.syn frameStep
    simp only [w4, w5, w6, w7]
  · exact w3
  · exact w8.trans hd
  · simp only [w9, hd]; simp

theorem testInbuf_draining (z : Sizes) {cd : Chan α σ ρ} (hd : cd.draining = true) : testInbuf z cd = (cd, true) := by
  unfold testInbuf
  simp [hd]

theorem draining_round {p : Params} {env : Env α σ ρ κ} {z : Sizes} {incs : List Int} (hi : z.increment ≤ z.window) (hs : Short z incs)
    {cd : Chan α σ ρ} (hd : cd.draining = true) :
    chunkRound p env z incs cd =
      (processChunk p env z (pick z incs cd.chunkCount).2
        { cd with
          chunkCount := (pick z incs cd.chunkCount).1
          spec := (env.analyse cd.spec ((List.range z.window).map cd.fltbuf)).1
          fltbuf := (env.analyse cd.spec ((List.range z.window).map cd.fltbuf)).2 }).bind
        fun x => some ({ x.1 with chunkCount := x.1.chunkCount + 1 }, !x.2) := by
  have hsh := pick_short hi hs cd.chunkCount
  unfold chunkRound
  rw [testInbuf_draining z hd]
  simp only [if_true]
  have e1 : takeFrame z cd = cd := by
    unfold takeFrame
    rw [if_pos hd]
  obtain ⟨g1, g2⟩ := getIncrements_eq z incs cd
  rw [e1, g2]
  unfold chunk
  simp only [if_pos hsh, g1]
  rfl

theorem spectral_draining (env : Env α σ ρ κ) (z : Sizes) (i : Incs) {y : Chan α σ ρ} (hd : y.draining = true) : spectral env z i y = y := by
  unfold spectral
  rw [if_pos hd]

/-- A round of draining. -/
theorem round_drain {p : Params} {env : Env α σ ρ κ} {z : Sizes} {incs : List Int} (hp : Plain p z) (hi : z.increment ≤ z.window) (hs : Short z incs)
    {cd : Chan α σ ρ} (hr : Room z cd.outbuf) (hd : cd.draining = true) (hf : cd.accumulatorFill ≠ 0) :
    ∃ cd', chunkRound p env z incs cd = some (cd', !decide (cd'.accumulatorFill = 0)) ∧ cd'.syn = (drainStep env z incs cd.syn).1 ∧
      Wrote (startSkip p z) (theoreticalOut z cd) z cd cd' (drainStep env z incs cd.syn).2 ∧
      cd'.inbuf = cd.inbuf ∧ cd'.draining = true ∧ cd'.outputComplete = (cd.outputComplete || decide (cd'.accumulatorFill = 0)) := by
  have hsh := pick_short hi hs cd.chunkCount
  rw [draining_round hi hs hd]
  unfold processChunk
  rw [spectral_draining env z _ (by exact hd)]
  simp only
  rw [if_pos hd, if_neg hf]
  have hby : drainBy z incs cd.syn = min cd.accumulatorFill (if (pick z incs cd.chunkCount).2.shift = 0 then z.increment else (pick z incs cd.chunkCount).2.shift) := rfl
  have hb : (if decide (cd.accumulatorFill ≤ (if (pick z incs cd.chunkCount).2.shift = 0 then z.increment else (pick z incs cd.chunkCount).2.shift)) = true
      then cd.accumulatorFill else (if (pick z incs cd.chunkCount).2.shift = 0 then z.increment else (pick z incs cd.chunkCount).2.shift)) = drainBy z incs cd.syn := by
    rw [hby]
    generalize (if (pick z incs cd.chunkCount).2.shift = 0 then z.increment else (pick z incs cd.chunkCount).2.shift) = m
    by_cases h : cd.accumulatorFill ≤ m
    · rw [if_pos (by simpa using h)]; omega
    · rw [if_neg (by simpa using h)]; omega
  have hlast : decide (cd.accumulatorFill ≤ (if (pick z incs cd.chunkCount).2.shift = 0 then z.increment else (pick z incs cd.chunkCount).2.shift)) =
      decide (cd.accumulatorFill - drainBy z incs cd.syn = 0) := by
    rw [hby]
    generalize (if (pick z incs cd.chunkCount).2.shift = 0 then z.increment else (pick z incs cd.chunkCount).2.shift) = m
    congr 1
    apply propext
    omega
  have hw : drainBy z incs cd.syn ≤ z.window := by
    rw [hby]
    split <;> omega
  have hle : drainBy z incs cd.syn ≤ cd.accumulatorFill := by rw [hby]; omega
  rw [hb, hlast]
  obtain ⟨cd', w1, w2, w3, w4, w5, w6, w7, w8, w9⟩ := writeChunk_spec (env := env) (last := decide (cd.accumulatorFill - drainBy z incs cd.syn = 0)) hp
    (si := drainBy z incs cd.syn)
    (cd := { cd with
          chunkCount := (pick z incs cd.chunkCount).1
          spec := (env.analyse cd.spec ((List.range z.window).map cd.fltbuf)).1
          fltbuf := (env.analyse cd.spec ((List.range z.window).map cd.fltbuf)).2 })
    hr hle hw
  rw [w1]
  simp only at w6 w9
  refine ⟨{ cd' with chunkCount := cd'.chunkCount + 1 }, ?_, ?_, ⟨w2.outCount, w2.outbuf, w2.room, w2.inCount, w2.inputSize⟩, w3, w8.trans hd, ?_⟩
  · simp only [Option.map_some, Option.bind_some, w6]
  · unfold Chan.syn drainStep
    simp only [w4, w5, w6, w7]
    rfl
  · simp only [w9, hd, w6]
    have : decide (cd.accumulatorFill = drainBy z incs cd.syn) = decide (cd.accumulatorFill - drainBy z incs cd.syn = 0) := by
      congr 1
      apply propext
      omega
    simp [this]

/-- A round when all is done. -/
theorem round_idle {p : Params} {env : Env α σ ρ κ} {z : Sizes} {incs : List Int} (hi : z.increment ≤ z.window) (hs : Short z incs)
    {cd : Chan α σ ρ} (hd : cd.draining = true) (hf : cd.accumulatorFill = 0) :
    ∃ cd', chunkRound p env z incs cd = some (cd', false) ∧ cd'.outbuf = cd.outbuf ∧ cd'.outCount = cd.outCount ∧ cd'.inbuf = cd.inbuf ∧
      cd'.draining = true ∧ cd'.accumulatorFill = 0 ∧ cd'.outputComplete = cd.outputComplete ∧ cd'.inputSize = cd.inputSize := by
  rw [draining_round hi hs hd]
  unfold processChunk
  rw [spectral_draining env z _ (by exact hd)]
  simp only
  rw [if_pos hd, if_pos hf]
  exact ⟨_, rfl, rfl, rfl, rfl, hd, hf, rfl, rfl⟩

end Verif.R2
