import Verif.R2
/-!
# The faster engine: what does not depend on the samples

The `shape` of a channel is what is left when the values of samples are forgotten.  Every step of the engine on a channel can be followed on
its shape alone, if the number of samples the resampler gives depends only on the numbers it was given.
-/
namespace Verif.R2
open Verif.Round Verif.StretchCalc

variable {α σ ρ κ τ : Type}

/-- Two units make a unit. -/
instance unitAdd : Add Unit := ⟨fun _ _ => ()⟩
instance unitSub : Sub Unit := ⟨fun _ _ => ()⟩
instance unitZero : Zero Unit := ⟨()⟩

/-- A resampler whose counts depend on counts alone: `key` is the part of its state that matters for them. -/
structure Counted (env : Env α σ ρ κ) (τ : Type) where
  key : ρ → τ
  step : τ → (room count : Nat) → Rat → Bool → τ × Nat
  stepReset : τ → τ
  keyStep : ∀ r room xs ratio final, key (env.resample r room xs ratio final).1 = (step (key r) room xs.length ratio final).1
  length : ∀ r room xs ratio final, (env.resample r room xs ratio final).2.length = (step (key r) room xs.length ratio final).2
  keyReset : ∀ r, key (env.rsReset r) = stepReset (key r)

/-- The environment for shapes. -/
def Counted.env {env : Env α σ ρ κ} (K : Counted env τ) : Env Unit Unit τ Unit where
  specInit := ()
  specReset := fun _ => ()
  specSizes := fun _ _ _ => ()
  analyse := fun _ _ => ((), fun _ => ())
  synthesise := fun _ _ _ _ _ => ((), fun _ => ())
  emit := fun _ _ => ()
  shift := fun _ _ _ => ()
  rsInit := K.key env.rsInit
  rsReset := K.stepReset
  resample := fun r room xs ratio final => ((K.step r room xs.length ratio final).1, List.replicate (K.step r room xs.length ratio final).2 ())
  effective := fun _ x => x
  curveInit := fun _ => ()
  curveReset := fun _ => ()
  curveSizes := fun _ _ => ()
  curve := fun _ _ => ((), 0, false)
  studyCurve := fun _ _ _ => ((), (), fun _ => (), 0, false)
  halve := fun _ => ()
  mixdown := fun _ _ => ()

/-- A list without its values. -/
def units (l : List α) : List Unit := l.map fun _ => ()

@[simp] theorem units_length (l : List α) : (units l).length = l.length := List.length_map ..
theorem units_take (n : Nat) (l : List α) : units (l.take n) = (units l).take n := List.map_take ..
theorem units_drop (n : Nat) (l : List α) : units (l.drop n) = (units l).drop n := List.map_drop ..
theorem units_append (l m : List α) : units (l ++ m) = units l ++ units m := List.map_append ..

theorem units_eq (l : List α) : units l = List.replicate l.length () := by
  unfold units; exact List.map_const' ..

theorem eq_units (l : List Unit) : l = List.replicate l.length () := by
  apply List.ext_getElem
  · simp
  · intros; rfl

theorem unit_lists {l m : List Unit} (h : l.length = m.length) : l = m := by rw [eq_units l, eq_units m, h]

def shapeBuf (q : Fifo α) : Fifo Unit := ⟨q.cap, units q.data⟩

@[simp] theorem shapeBuf_cap (q : Fifo α) : (shapeBuf q).cap = q.cap := rfl
@[simp] theorem shapeBuf_readSpace (q : Fifo α) : (shapeBuf q).readSpace = q.readSpace := units_length _
@[simp] theorem shapeBuf_writeSpace (q : Fifo α) : (shapeBuf q).writeSpace = q.writeSpace := by
  simp [Fifo.writeSpace, shapeBuf]

theorem shapeBuf_write (q : Fifo α) (xs : List α) : shapeBuf (q.write xs) = (shapeBuf q).write (units xs) := by
  simp only [Fifo.write, shapeBuf_writeSpace]
  simp only [shapeBuf, units_append, units_take]

theorem shapeBuf_skip (q : Fifo α) (n : Nat) : shapeBuf (q.skip n) = (shapeBuf q).skip n := by
  simp only [Fifo.skip, shapeBuf, units_drop]

theorem shapeBuf_peek (q : Fifo α) (n : Nat) : units (q.peek n) = (shapeBuf q).peek n := by
  simp only [Fifo.peek, shapeBuf, units_take]

theorem shapeBuf_reset (q : Fifo α) : shapeBuf q.reset = (shapeBuf q).reset := rfl

theorem shapeBuf_resized (q : Fifo α) (n : Nat) : shapeBuf (q.resized n) = (shapeBuf q).resized n := by
  simp only [Fifo.resized, shapeBuf, units_take]

theorem shapeBuf_zero [Zero α] (q : Fifo α) (n : Nat) : shapeBuf (q.zero n) = (shapeBuf q).zero n := by
  simp only [Fifo.zero, shapeBuf_write]
  congr 1
  apply unit_lists; simp

/-- A channel without the values of its samples. -/
def shape (key : ρ → τ) (cd : Chan α σ ρ) : Chan Unit Unit τ where
  inbuf := shapeBuf cd.inbuf
  outbuf := shapeBuf cd.outbuf
  fltbuf := fun _ => ()
  spec := ()
  resampler := cd.resampler.map key
  resamplebufSize := cd.resamplebufSize
  accumulatorFill := cd.accumulatorFill
  chunkCount := cd.chunkCount
  inCount := cd.inCount
  inputSize := cd.inputSize
  outCount := cd.outCount
  draining := cd.draining
  outputComplete := cd.outputComplete

section
variable {env : Env α σ ρ κ} (K : Counted env τ) (p : Params) (z : Sizes)

theorem shape_writeOutput (skip theoretical : Nat) (cd : Chan α σ ρ) (out : List α) :
    shape K.key (writeOutput skip theoretical cd out) = writeOutput skip theoretical (shape K.key cd) (units out) := by
  unfold writeOutput
  simp only [units_length]
  show _ = if cd.outCount > skip then _ else _
  split
  · simp only [shape, shapeBuf_write, units_take, shapeBuf_writeSpace]
    rfl
  · show _ = if cd.outCount + out.length ≤ skip then _ else _
    split
    · rfl
    · simp only [shape, shapeBuf_write, units_drop]

theorem shape_resampled (cd : Chan α σ ρ) (mix : List α) (last : Bool) :
    shape K.key (resampled p env z cd mix last).1 = (resampled p K.env z (shape K.key cd) (units mix) last).1 ∧
      units (resampled p env z cd mix last).2 = (resampled p K.env z (shape K.key cd) (units mix) last).2 := by
  unfold resampled
  have hr : (shape K.key cd).resampler = cd.resampler.map K.key := rfl
  have hb : (shape K.key cd).resamplebufSize = cd.resamplebufSize := rfl
  simp only [hr, hb, units_length]
  cases cd.resampler with
  | none => exact ⟨rfl, rfl⟩
  | some r =>
    generalize (!resampleBefore p z.pitchScale && (decide (z.pitchScale ≠ 1) || p.highConsistency)) = b
    cases b with
    | false => exact ⟨rfl, rfl⟩
    | true =>
      simp only [Option.map_some, Counted.env]
      constructor
      · simp only [shape, Option.map_some, K.keyStep, units_length]
      · apply unit_lists
        simp [K.length]

theorem shape_lessFill (si : Nat) (cd : Chan α σ ρ) : shape K.key (lessFill si cd) = lessFill si (shape K.key cd) := by
  unfold lessFill
  show _ = if cd.accumulatorFill > si then _ else _
  split <;> rfl

theorem units_range (f : Nat → α) (n : Nat) (g : Nat → Unit) : units ((List.range n).map f) = (List.range n).map g := by
  apply unit_lists; simp

theorem shape_writeChunk (si : Nat) (last : Bool) (cd : Chan α σ ρ) :
    (writeChunk p env z si last cd).map (shape K.key) = writeChunk p K.env z si last (shape K.key cd) := by
  unfold writeChunk
  show _ = if si > cd.accumulatorFill then _ else _
  split
  · rfl
  · simp only [Option.map_some, shape_lessFill]
    have h := shape_resampled K p z cd ((List.range si).map (env.emit cd.spec)) last
    rw [units_range _ _ (K.env.emit (shape K.key cd).spec)] at h
    obtain ⟨h1, h2⟩ := h
    congr 2
    rw [← h1, ← h2]
    have h3 := shape_writeOutput K (startSkip p z) (theoreticalOut z (resampled p env z cd ((List.range si).map (env.emit cd.spec)) last).1)
      (resampled p env z cd ((List.range si).map (env.emit cd.spec)) last).1 (resampled p env z cd ((List.range si).map (env.emit cd.spec)) last).2
    have h4 : theoreticalOut z (shape K.key (resampled p env z cd ((List.range si).map (env.emit cd.spec)) last).1) =
        theoreticalOut z (resampled p env z cd ((List.range si).map (env.emit cd.spec)) last).1 := rfl
    rw [h4, ← h3]
    rfl

theorem shape_ensureOutbuf (si : Nat) (cd : Chan α σ ρ) : shape K.key (ensureOutbuf z si cd) = ensureOutbuf z si (shape K.key cd) := by
  unfold ensureOutbuf
  have : (shape K.key cd).outbuf.writeSpace = cd.outbuf.writeSpace := shapeBuf_writeSpace _
  simp only [this]
  generalize (if z.pitchScale ≠ 1 then ((si : Rat) / z.pitchScale).floor.toNat + 1 else si) = n
  split
  · simp only [shape, shapeBuf_resized, shapeBuf_cap]
  · rfl

theorem shape_spectral (i : Incs) (cd : Chan α σ ρ) : shape K.key (spectral env z i cd) = spectral K.env z i (shape K.key cd) := by
  unfold spectral
  show _ = if cd.draining = true then _ else _
  split <;> rfl

theorem shape_processChunk (i : Incs) (cd : Chan α σ ρ) :
    (processChunk p env z i cd).map (fun x => (shape K.key x.1, x.2)) = processChunk p K.env z i (shape K.key cd) := by
  unfold processChunk
  simp only [← shape_spectral]
  generalize spectral env z i cd = cd
  show _ = if cd.draining = true then if cd.accumulatorFill = 0 then _ else _ else _
  split
  · split
    · rfl
    · simp only [← shape_ensureOutbuf, ← shape_writeChunk, Option.map_map, Function.comp_def]
      rfl
  · simp only [← shape_ensureOutbuf, ← shape_writeChunk, Option.map_map, Function.comp_def]

theorem shape_takeFrame (cd : Chan α σ ρ) : shape K.key (takeFrame z cd) = takeFrame z (shape K.key cd) := by
  unfold takeFrame
  show _ = if cd.draining = true then _ else _
  split
  · rfl
  · simp only [shape, shapeBuf_skip]

theorem shape_analyseChunk (cd : Chan α σ ρ) : shape K.key (analyseChunk env z cd) = analyseChunk K.env z (shape K.key cd) := rfl

theorem shape_testInbuf (cd : Chan α σ ρ) :
    shape K.key (testInbuf z cd).1 = (testInbuf z (shape K.key cd)).1 ∧ (testInbuf z cd).2 = (testInbuf z (shape K.key cd)).2 := by
  unfold testInbuf
  have h1 : (shape K.key cd).inbuf.readSpace = cd.inbuf.readSpace := shapeBuf_readSpace _
  have h2 : (shape K.key cd).draining = cd.draining := rfl
  have h3 : (shape K.key cd).inputSize = cd.inputSize := rfl
  simp only [h1, h2, h3]
  split
  · split
    · exact ⟨rfl, rfl⟩
    · split
      · exact ⟨rfl, rfl⟩
      · split <;> exact ⟨rfl, rfl⟩
  · exact ⟨rfl, rfl⟩

theorem shape_getIncrements (incs : List Int) (cd : Chan α σ ρ) :
    shape K.key (getIncrements z incs cd).1 = (getIncrements z incs (shape K.key cd)).1 ∧
      (getIncrements z incs cd).2 = (getIncrements z incs (shape K.key cd)).2 := by
  unfold getIncrements
  split
  · exact ⟨rfl, rfl⟩
  · exact ⟨rfl, rfl⟩

theorem shape_brokenDown (tmp : Nat → α) : ∀ (fuel done : Nat) (i : Incs) (last : Bool) (cd : Chan α σ ρ),
    (brokenDown p env z tmp fuel done i last cd).map (fun x => (shape K.key x.1, x.2)) =
      brokenDown p K.env z (fun _ => ()) fuel done i last (shape K.key cd) := by
  intro fuel
  induction fuel with
  | zero =>
    intro done i last cd
    unfold brokenDown
    split <;> rfl
  | succ fuel ih =>
    intro done i last cd
    unfold brokenDown
    split
    · have h := shape_processChunk K p z ⟨i.phase + done, if done + z.window / 4 > i.shift then i.shift - done else z.window / 4, i.reset⟩
        { cd with fltbuf := tmp }
      have e : shape K.key { cd with fltbuf := tmp } = { shape K.key cd with fltbuf := fun _ => () } := rfl
      rw [e] at h
      simp only [Option.bind_eq_bind, ← h]
      cases processChunk p env z ⟨i.phase + done, if done + z.window / 4 > i.shift then i.shift - done else z.window / 4, i.reset⟩
          { cd with fltbuf := tmp } with
      | none => rfl
      | some x => exact ih _ _ _ _
    · rfl

theorem shape_chunk (i : Incs) (cd : Chan α σ ρ) :
    (chunk p env z i cd).map (fun x => (shape K.key x.1, x.2)) = chunk p K.env z i (shape K.key cd) := by
  unfold chunk
  simp only [← shape_analyseChunk]
  split
  · exact shape_processChunk K p z i _
  · exact shape_brokenDown K p z _ _ _ _ _ _

theorem shape_chunkRound (incs : List Int) (cd : Chan α σ ρ) :
    (chunkRound p env z incs cd).map (fun x => (shape K.key x.1, x.2)) = chunkRound p K.env z incs (shape K.key cd) := by
  unfold chunkRound
  obtain ⟨h1, h2⟩ := shape_testInbuf K z cd
  simp only [← h1, ← h2]
  split
  · obtain ⟨g1, g2⟩ := shape_getIncrements K z incs (takeFrame z (testInbuf z cd).1)
    rw [shape_takeFrame] at g1 g2
    simp only [← g1, ← g2, Option.bind_eq_bind]
    have h := shape_chunk K p z (getIncrements z incs (takeFrame z (testInbuf z cd).1)).2.1 (getIncrements z incs (takeFrame z (testInbuf z cd).1)).1
    simp only [← h]
    cases chunk p env z (getIncrements z incs (takeFrame z (testInbuf z cd).1)).2.1 (getIncrements z incs (takeFrame z (testInbuf z cd).1)).1 with
    | none => rfl
    | some x => rfl
  · rfl

theorem shape_chunkLoop (incs : List Int) : ∀ (fuel : Nat) (cd : Chan α σ ρ),
    (chunkLoop p env z incs fuel cd).map (shape K.key) = chunkLoop p K.env z incs fuel (shape K.key cd) := by
  intro fuel
  induction fuel with
  | zero => intro cd; rfl
  | succ fuel ih =>
    intro cd
    unfold chunkLoop
    rw [← shape_chunkRound]
    cases chunkRound p env z incs cd with
    | none => rfl
    | some x =>
      obtain ⟨d, more⟩ := x
      cases more with
      | true => exact ih d
      | false => rfl

theorem shape_processChunks (incs : List Int) (cd : Chan α σ ρ) :
    (processChunks p env z incs cd).map (shape K.key) = processChunks p K.env z incs (shape K.key cd) := by
  unfold processChunks
  rw [shape_chunkLoop]
  simp only [shape, shapeBuf_readSpace]

/-- The shape of a block. -/
def shapeBlock (input : List (Frame α)) : List (Frame Unit) := input.map fun _ _ => ()

theorem shapeBlock_length (input : List (Frame α)) : (shapeBlock input).length = input.length := List.length_map ..

theorem shape_consumePlain [Add α] [Sub α] (c c' : Nat) (cd : Chan α σ ρ) (input : List (Frame α)) :
    shape K.key (consumePlain p env c cd input).1 = (consumePlain p K.env c' (shape K.key cd) (shapeBlock input)).1 ∧
      (consumePlain p env c cd input).2 = (consumePlain p K.env c' (shape K.key cd) (shapeBlock input)).2 := by
  unfold consumePlain
  have h : (shape K.key cd).inbuf.writeSpace = cd.inbuf.writeSpace := shapeBuf_writeSpace _
  simp only [h, shapeBlock_length]
  refine ⟨?_, trivial⟩
  simp only [shape, shapeBuf_write]
  congr 2
  apply unit_lists
  simp [shapeBlock_length]

theorem shape_consumeResampled [Add α] [Sub α] (c c' : Nat) (hc : useMidSide p c = useMidSide p c') (cd : Chan α σ ρ) (r : ρ) (input : List (Frame α))
    (final : Bool) :
    shape K.key (consumeResampled p env z c cd r input final).1 =
      (consumeResampled p K.env z c' (shape K.key cd) (K.key r) (shapeBlock input) final).1 ∧
      (consumeResampled p env z c cd r input final).2 =
        (consumeResampled p K.env z c' (shape K.key cd) (K.key r) (shapeBlock input) final).2 := by
  unfold consumeResampled
  have h : toResample p z c' (shape K.key cd) (shapeBlock input).length = toResample p z c cd input.length := by
    unfold toResample
    have h : (shape K.key cd).inbuf.writeSpace = cd.inbuf.writeSpace := shapeBuf_writeSpace _
    simp only [h, shapeBlock_length, hc]
    rfl
  rw [h]
  generalize toResample p z c cd input.length = x
  obtain ⟨n, shortened⟩ := x
  simp only
  split
  · exact ⟨rfl, rfl⟩
  · have e1 : (shape K.key cd).resamplebufSize = cd.resamplebufSize := rfl
    have e2 : (shape K.key cd).inbuf.writeSpace = cd.inbuf.writeSpace := shapeBuf_writeSpace _
    simp only [e1, e2, Counted.env, List.length_take, List.length_map, List.length_replicate, shapeBlock_length, K.length]
    split
    · refine ⟨?_, rfl⟩
      simp only [shape, Option.map_some, K.keyStep, List.length_take, List.length_map]
    · refine ⟨?_, rfl⟩
      simp only [shape, Option.map_some, K.keyStep, List.length_take, List.length_map, shapeBuf_write]
      congr 2
      apply unit_lists
      simp [K.length]

theorem shape_consumeChannel [Add α] [Sub α] (c c' : Nat) (hc : useMidSide p c = useMidSide p c') (cd : Chan α σ ρ) (input : List (Frame α))
    (final : Bool) :
    (consumeChannel p env z c cd input final).map (fun x => (shape K.key x.1, x.2)) =
      consumeChannel p K.env z c' (shape K.key cd) (shapeBlock input) final := by
  unfold consumeChannel
  split
  · have hr : (shape K.key cd).resampler = cd.resampler.map K.key := rfl
    rw [hr]
    cases cd.resampler with
    | none => rfl
    | some r =>
      obtain ⟨h1, h2⟩ := shape_consumeResampled K p z c c' hc cd r input final
      simp only [Option.map_some, h1, h2]
  · obtain ⟨h1, h2⟩ := shape_consumePlain K p c c' cd input
    simp only [Option.map_some, h1, h2]

theorem shapeBlock_drop (n : Nat) (input : List (Frame α)) : shapeBlock (input.drop n) = (shapeBlock input).drop n := List.map_drop ..

theorem shape_channelRound [Add α] [Sub α] (incs : List Int) (c c' : Nat) (hc : useMidSide p c = useMidSide p c') (input : List (Frame α)) (final : Bool)
    (cd : Chan α σ ρ) (used : Nat) :
    (channelRound p env z incs c input final cd used).map (fun x => (shape K.key x.1, x.2)) =
      channelRound p K.env z incs c' (shapeBlock input) final (shape K.key cd) used := by
  unfold channelRound
  rw [← shapeBlock_drop, ← shape_consumeChannel K p z c c' hc]
  simp only [Option.bind_eq_bind]
  cases consumeChannel p env z c cd (input.drop used) final with
  | none => rfl
  | some x =>
    obtain ⟨d, n⟩ := x
    simp only [Option.map_some, Option.bind_some, shapeBlock_length]
    have e : (if used + n ≥ input.length ∧ final = true then { shape K.key d with inputSize := some (shape K.key d).inCount } else shape K.key d) =
        shape K.key (if used + n ≥ input.length ∧ final = true then { d with inputSize := some d.inCount } else d) := by
      split <;> rfl
    rw [e]
    generalize (if used + n ≥ input.length ∧ final = true then { d with inputSize := some d.inCount } else d) = d
    cases p.realTime with
    | true => rfl
    | false =>
      simp only [Bool.false_eq_true, if_false]
      rw [← shape_processChunks]
      cases processChunks p env z incs d with
      | none => rfl
      | some y => rfl

theorem shape_reset (cd : Chan α σ ρ) : shape K.key (cd.reset env) = (shape K.key cd).reset K.env := by
  unfold Chan.reset shape
  simp only [shapeBuf_reset, Option.map_map, Function.comp_def, K.keyReset]
  rfl

theorem shape_prefill [Zero α] (cd : Chan α σ ρ) : shape K.key (cd.prefill env z) = (shape K.key cd).prefill K.env z := by
  unfold Chan.prefill
  simp only [← shape_reset]
  simp only [shape, shapeBuf_zero]

end
end Verif.R2
