import Verif.R2
/-!
# The faster engine does not look at its samples

The engine is a function of what `Env` provides and of nothing else about samples, spectra and resamplers.  So if these can be turned into others in a way that agrees with all that `Env` provides, the engine does the
same with the others, whatever the calls (`run_map`).  This is used to show what becomes of the output if the input is changed (louder, silent, ...).
-/
namespace Verif.R2
open Verif.Round Verif.StretchCalc

variable {α σ ρ κ α' σ' ρ' κ' : Type}

/-- A way to turn samples, spectra, resamplers and audio curves into others that agrees with what two environments do. -/
structure Hom [Zero α] [Add α] [Sub α] [Zero α'] [Add α'] [Sub α'] (env : Env α σ ρ κ) (env' : Env α' σ' ρ' κ') where
  val : α → α'
  spec : σ → σ'
  rs : ρ → ρ'
  cur : κ → κ'
  zero : val 0 = 0
  add : ∀ x y, val (x + y) = val x + val y
  sub : ∀ x y, val (x - y) = val x - val y
  specInit : spec env.specInit = env'.specInit
  specReset : ∀ s, spec (env.specReset s) = env'.specReset (spec s)
  specSizes : ∀ s w n, spec (env.specSizes s w n) = env'.specSizes (spec s) w n
  analyse : ∀ s l, env'.analyse (spec s) (l.map val) = (spec (env.analyse s l).1, fun i => val ((env.analyse s l).2 i))
  synthesise : ∀ s flt i j r, env'.synthesise (spec s) (fun i => val (flt i)) i j r = (spec (env.synthesise s flt i j r).1, fun k => val ((env.synthesise s flt i j r).2 k))
  emit : ∀ s i, env'.emit (spec s) i = val (env.emit s i)
  shift : ∀ s n d, spec (env.shift s n d) = env'.shift (spec s) n d
  rsInit : rs env.rsInit = env'.rsInit
  rsReset : ∀ r, rs (env.rsReset r) = env'.rsReset (rs r)
  resample : ∀ r room l ratio final, env'.resample (rs r) room (l.map val) ratio final = (rs (env.resample r room l ratio final).1, (env.resample r room l ratio final).2.map val)
  effective : ∀ r x, env'.effective (rs r) x = env.effective r x
  curveInit : ∀ n, cur (env.curveInit n) = env'.curveInit n
  curveReset : ∀ k, cur (env.curveReset k) = env'.curveReset (cur k)
  curveSizes : ∀ k n, cur (env.curveSizes k n) = env'.curveSizes (cur k) n
  halve : ∀ x, env'.halve (val x) = val (env.halve x)
  mixdown : ∀ n (f : Frame α), env'.mixdown n (fun c => val (f c)) = val (env.mixdown n f)

/-- The detection functions find the same, in real time. -/
def Hom.Sees [Zero α] [Add α] [Sub α] [Zero α'] [Add α'] [Sub α'] {env : Env α σ ρ κ} {env' : Env α' σ' ρ' κ'} (h : Hom env env') : Prop :=
  ∀ k l, env'.curve (h.cur k) (l.map h.spec) = (h.cur (env.curve k l).1, (env.curve k l).2)

/-- They find the same, when studying. -/
def Hom.Studies [Zero α] [Add α] [Sub α] [Zero α'] [Add α'] [Sub α'] {env : Env α σ ρ κ} {env' : Env α' σ' ρ' κ'} (h : Hom env env') : Prop :=
  ∀ k s l, env'.studyCurve (h.cur k) (h.spec s) (l.map h.val) =
    (h.cur (env.studyCurve k s l).1, h.spec (env.studyCurve k s l).2.1, (fun i => h.val ((env.studyCurve k s l).2.2.1 i)), (env.studyCurve k s l).2.2.2)

/-! ## Buffers -/

def mapBuf (v : α → α') (q : Fifo α) : Fifo α' := ⟨q.cap, q.data.map v⟩

@[simp] theorem mapBuf_cap (v : α → α') (q : Fifo α) : (mapBuf v q).cap = q.cap := rfl
@[simp] theorem mapBuf_readSpace (v : α → α') (q : Fifo α) : (mapBuf v q).readSpace = q.readSpace := List.length_map ..
@[simp] theorem mapBuf_writeSpace (v : α → α') (q : Fifo α) : (mapBuf v q).writeSpace = q.writeSpace := by
  simp [Fifo.writeSpace, mapBuf]

theorem mapBuf_write (v : α → α') (q : Fifo α) (xs : List α) : mapBuf v (q.write xs) = (mapBuf v q).write (xs.map v) := by
  simp only [Fifo.write, mapBuf_writeSpace]
  simp only [mapBuf, List.map_append, List.map_take]

theorem mapBuf_skip (v : α → α') (q : Fifo α) (n : Nat) : mapBuf v (q.skip n) = (mapBuf v q).skip n := by
  simp only [Fifo.skip, mapBuf, List.map_drop]

theorem mapBuf_peek (v : α → α') (q : Fifo α) (n : Nat) : (q.peek n).map v = (mapBuf v q).peek n := by
  simp only [Fifo.peek, mapBuf, List.map_take]

theorem mapBuf_reset (v : α → α') (q : Fifo α) : mapBuf v q.reset = (mapBuf v q).reset := rfl

theorem mapBuf_resized (v : α → α') (q : Fifo α) (n : Nat) : mapBuf v (q.resized n) = (mapBuf v q).resized n := by
  simp only [Fifo.resized, mapBuf, List.map_take]

variable [Zero α] [Add α] [Sub α] [Zero α'] [Add α'] [Sub α'] {env : Env α σ ρ κ} {env' : Env α' σ' ρ' κ'}

omit [Add α] [Sub α] [Add α'] [Sub α'] in
theorem mapBuf_zero {v : α → α'} (hv : v 0 = 0) (q : Fifo α) (n : Nat) : mapBuf v (q.zero n) = (mapBuf v q).zero n := by
  simp only [Fifo.zero, mapBuf_write, List.map_replicate, hv]

/-! ## Channels -/

/-- A channel with the others. -/
def Hom.chan (h : Hom env env') (cd : Chan α σ ρ) : Chan α' σ' ρ' where
  inbuf := mapBuf h.val cd.inbuf
  outbuf := mapBuf h.val cd.outbuf
  fltbuf := fun i => h.val (cd.fltbuf i)
  spec := h.spec cd.spec
  resampler := cd.resampler.map h.rs
  resamplebufSize := cd.resamplebufSize
  accumulatorFill := cd.accumulatorFill
  prevIncrement := cd.prevIncrement
  chunkCount := cd.chunkCount
  inCount := cd.inCount
  inputSize := cd.inputSize
  outCount := cd.outCount
  draining := cd.draining
  outputComplete := cd.outputComplete

variable (h : Hom env env') (p : Params) (z : Sizes)

theorem map_writeOutput (skip theoretical : Nat) (cd : Chan α σ ρ) (out : List α) :
    h.chan (writeOutput skip theoretical cd out) = writeOutput skip theoretical (h.chan cd) (out.map h.val) := by
  unfold writeOutput
  simp only [List.length_map]
  show _ = if cd.outCount > skip then _ else _
  split
  · simp only [Hom.chan, mapBuf_write, List.map_take, mapBuf_writeSpace]
    rfl
  · show _ = if cd.outCount + out.length ≤ skip then _ else _
    split
    · rfl
    · simp only [Hom.chan, mapBuf_write, List.map_drop]

theorem map_resampled (cd : Chan α σ ρ) (mix : List α) (last : Bool) :
    resampled p env' z (h.chan cd) (mix.map h.val) last = (h.chan (resampled p env z cd mix last).1, (resampled p env z cd mix last).2.map h.val) := by
  unfold resampled
  have hr : (h.chan cd).resampler = cd.resampler.map h.rs := rfl
  have hb : (h.chan cd).resamplebufSize = cd.resamplebufSize := rfl
  simp only [hr, hb, List.length_map]
  cases e : cd.resampler with
  | none => rfl
  | some r =>
    generalize (!resampleBefore p z.pitchScale && (decide (z.pitchScale ≠ 1) || p.highConsistency)) = b
    cases b with
    | false => rfl
    | true =>
      simp only [Option.map_some, h.resample, Hom.chan, List.map_take]

theorem map_lessFill (si : Nat) (cd : Chan α σ ρ) : h.chan (lessFill si cd) = lessFill si (h.chan cd) := by
  unfold lessFill
  show _ = if cd.accumulatorFill > si then _ else _
  split <;> rfl

theorem map_writeChunk (si : Nat) (last : Bool) (cd : Chan α σ ρ) :
    writeChunk p env' z si last (h.chan cd) = (writeChunk p env z si last cd).map h.chan := by
  unfold writeChunk
  show (if si > cd.accumulatorFill then _ else _) = _
  split
  · rfl
  · have e : (List.range si).map (env'.emit (h.chan cd).spec) = ((List.range si).map (env.emit cd.spec)).map h.val := by
      rw [List.map_map]
      exact List.map_congr_left fun i _ => h.emit cd.spec i
    simp only [Option.map_some, map_lessFill]
    rw [e, map_resampled]
    simp only
    generalize resampled p env z cd ((List.range si).map (env.emit cd.spec)) last = x
    congr 2
    rw [show theoreticalOut z (h.chan x.1) = theoreticalOut z x.1 from rfl, ← map_writeOutput]
    generalize writeOutput (startSkip p z) (theoreticalOut z x.1) x.1 x.2 = d
    simp only [Hom.chan, h.shift]

theorem map_ensureOutbuf (si : Nat) (cd : Chan α σ ρ) : h.chan (ensureOutbuf z si cd) = ensureOutbuf z si (h.chan cd) := by
  unfold ensureOutbuf
  have : (h.chan cd).outbuf.writeSpace = cd.outbuf.writeSpace := mapBuf_writeSpace _ _
  simp only [this]
  generalize (if z.pitchScale ≠ 1 then ((si : Rat) / z.pitchScale).floor.toNat + 1 else si) = n
  split
  · simp only [Hom.chan, mapBuf_resized, mapBuf_cap]
  · rfl

theorem map_spectral (i : Incs) (cd : Chan α σ ρ) : h.chan (spectral env z i cd) = spectral env' z i (h.chan cd) := by
  unfold spectral
  show _ = if cd.draining = true then _ else _
  split
  · rfl
  · have := h.synthesise cd.spec cd.fltbuf i.phase i.shift i.reset
    simp only [Hom.chan, this]

theorem map_processChunk (i : Incs) (cd : Chan α σ ρ) :
    processChunk p env' z i (h.chan cd) = (processChunk p env z i cd).map (fun x => (h.chan x.1, x.2)) := by
  unfold processChunk
  simp only [← map_spectral]
  generalize spectral env z i cd = cd
  show (if cd.draining = true then if cd.accumulatorFill = 0 then _ else _ else _) = _
  split
  · split
    · rfl
    · simp only [← map_ensureOutbuf, map_writeChunk, Option.map_map, Function.comp_def]
      rfl
  · simp only [← map_ensureOutbuf, map_writeChunk, Option.map_map, Function.comp_def]

theorem map_getD (v : α → α') (l : List α) (i : Nat) (d : α) : (l.map v).getD i (v d) = v (l.getD i d) := by
  simp only [List.getD_eq_getElem?_getD, List.getElem?_map]
  cases l[i]? <;> rfl

theorem map_takeFrame (cd : Chan α σ ρ) : h.chan (takeFrame z cd) = takeFrame z (h.chan cd) := by
  unfold takeFrame
  show _ = if cd.draining = true then _ else _
  split
  · rfl
  · simp only [Hom.chan, mapBuf_skip, ← mapBuf_peek]
    congr 1
    funext i
    exact (map_getD h.val _ _ _).symm

theorem map_analyseChunk (cd : Chan α σ ρ) : h.chan (analyseChunk env z cd) = analyseChunk env' z (h.chan cd) := by
  unfold analyseChunk
  have e : (List.range z.window).map (h.chan cd).fltbuf = ((List.range z.window).map cd.fltbuf).map h.val := by rw [List.map_map]; rfl
  rw [e]
  have := h.analyse cd.spec ((List.range z.window).map cd.fltbuf)
  simp only [Hom.chan, this]

theorem map_testInbuf (cd : Chan α σ ρ) : testInbuf z (h.chan cd) = (h.chan (testInbuf z cd).1, (testInbuf z cd).2) := by
  unfold testInbuf
  have h1 : (h.chan cd).inbuf.readSpace = cd.inbuf.readSpace := mapBuf_readSpace _ _
  have h2 : (h.chan cd).draining = cd.draining := rfl
  have h3 : (h.chan cd).inputSize = cd.inputSize := rfl
  simp only [h1, h2, h3]
  split
  · split
    · rfl
    · split
      · rfl
      · split <;> rfl
  · rfl

theorem map_getIncrements (incs : List Int) (cd : Chan α σ ρ) :
    getIncrements z incs (h.chan cd) = (h.chan (getIncrements z incs cd).1, (getIncrements z incs cd).2) := by
  unfold getIncrements
  split
  · rfl
  · rfl

theorem map_brokenDown (tmp : Nat → α) : ∀ (fuel done : Nat) (i : Incs) (last : Bool) (cd : Chan α σ ρ),
    brokenDown p env' z (fun i => h.val (tmp i)) fuel done i last (h.chan cd) = (brokenDown p env z tmp fuel done i last cd).map (fun x => (h.chan x.1, x.2)) := by
  intro fuel
  induction fuel with
  | zero =>
    intro done i last cd
    unfold brokenDown
    split <;> rfl
  | succ fuel ih =>
    intro done i last cd
    unfold brokenDown
    split
    · have e := map_processChunk h p z ⟨i.phase + done, if done + z.window / 4 > i.shift then i.shift - done else z.window / 4, i.reset⟩
        { cd with fltbuf := tmp }
      have e' : h.chan { cd with fltbuf := tmp } = { h.chan cd with fltbuf := fun i => h.val (tmp i) } := rfl
      rw [e'] at e
      simp only [Option.bind_eq_bind, e]
      cases processChunk p env z ⟨i.phase + done, if done + z.window / 4 > i.shift then i.shift - done else z.window / 4, i.reset⟩
          { cd with fltbuf := tmp } with
      | none => rfl
      | some x => exact ih _ _ _ _
    · rfl

theorem map_chunk (i : Incs) (cd : Chan α σ ρ) : chunk p env' z i (h.chan cd) = (chunk p env z i cd).map (fun x => (h.chan x.1, x.2)) := by
  unfold chunk
  simp only [← map_analyseChunk]
  split
  · exact map_processChunk h p z i _
  · exact map_brokenDown h p z _ _ _ _ _ _

theorem map_chunkRound (incs : List Int) (cd : Chan α σ ρ) :
    chunkRound p env' z incs (h.chan cd) = (chunkRound p env z incs cd).map (fun x => (h.chan x.1, x.2)) := by
  unfold chunkRound
  rw [map_testInbuf]
  simp only
  split
  · rw [← map_takeFrame, map_getIncrements]
    simp only [Option.bind_eq_bind]
    rw [map_chunk]
    cases chunk p env z (getIncrements z incs (takeFrame z (testInbuf z cd).1)).2.1 (getIncrements z incs (takeFrame z (testInbuf z cd).1)).1 with
    | none => rfl
    | some x => rfl
  · rfl

theorem map_chunkLoop (incs : List Int) : ∀ (fuel : Nat) (cd : Chan α σ ρ), chunkLoop p env' z incs fuel (h.chan cd) = (chunkLoop p env z incs fuel cd).map h.chan := by
  intro fuel
  induction fuel with
  | zero => intro cd; rfl
  | succ fuel ih =>
    intro cd
    unfold chunkLoop
    rw [map_chunkRound]
    cases chunkRound p env z incs cd with
    | none => rfl
    | some x =>
      obtain ⟨d, more⟩ := x
      cases more with
      | true => exact ih d
      | false => rfl

theorem map_processChunks (incs : List Int) (cd : Chan α σ ρ) : processChunks p env' z incs (h.chan cd) = (processChunks p env z incs cd).map h.chan := by
  unfold processChunks
  rw [← map_chunkLoop]
  simp only [Hom.chan, mapBuf_readSpace]

/-- A block with the others. -/
def mapBlock (v : α → α') (input : List (Frame α)) : List (Frame α') := input.map fun f c => v (f c)

theorem mapBlock_length (v : α → α') (input : List (Frame α)) : (mapBlock v input).length = input.length := List.length_map ..
theorem mapBlock_drop (v : α → α') (n : Nat) (input : List (Frame α)) : mapBlock v (input.drop n) = (mapBlock v input).drop n := List.map_drop ..

theorem map_prepared (c : Nat) (f : Frame α) : prepared p env' c (fun c => h.val (f c)) = h.val (prepared p env c f) := by
  unfold prepared
  split
  · split
    · rw [← h.add, h.halve]
    · rw [← h.sub, h.halve]
  · rfl

theorem map_preparedBlock (c n : Nat) (input : List (Frame α)) : ((mapBlock h.val input).take n).map (prepared p env' c) = ((input.take n).map (prepared p env c)).map h.val := by
  rw [mapBlock, ← List.map_take, List.map_map, List.map_map]
  exact List.map_congr_left fun f _ => map_prepared h p c f

theorem map_consumePlain (c : Nat) (cd : Chan α σ ρ) (input : List (Frame α)) :
    consumePlain p env' c (h.chan cd) (mapBlock h.val input) = (h.chan (consumePlain p env c cd input).1, (consumePlain p env c cd input).2) := by
  unfold consumePlain
  have e : (h.chan cd).inbuf.writeSpace = cd.inbuf.writeSpace := mapBuf_writeSpace _ _
  simp only [e, mapBlock_length, map_preparedBlock]
  simp only [Hom.chan, mapBuf_write]

theorem map_consumeResampled (c : Nat) (cd : Chan α σ ρ) (r : ρ) (input : List (Frame α)) (final : Bool) :
    consumeResampled p env' z c (h.chan cd) (h.rs r) (mapBlock h.val input) final =
      (h.chan (consumeResampled p env z c cd r input final).1, (consumeResampled p env z c cd r input final).2) := by
  unfold consumeResampled
  have e : toResample p z c (h.chan cd) (mapBlock h.val input).length = toResample p z c cd input.length := by
    unfold toResample
    have e : (h.chan cd).inbuf.writeSpace = cd.inbuf.writeSpace := mapBuf_writeSpace _ _
    simp only [e, mapBlock_length]
    rfl
  rw [e]
  generalize toResample p z c cd input.length = x
  obtain ⟨n, shortened⟩ := x
  simp only
  split
  · rfl
  · have e1 : (h.chan cd).resamplebufSize = cd.resamplebufSize := rfl
    have e2 : (h.chan cd).inbuf.writeSpace = cd.inbuf.writeSpace := mapBuf_writeSpace _ _
    simp only [e1, map_preparedBlock, h.resample, e2, List.length_take, List.length_map]
    split
    · rfl
    · simp only [Hom.chan, Option.map_some, mapBuf_write, List.map_take]

theorem map_consumeChannel (c : Nat) (cd : Chan α σ ρ) (input : List (Frame α)) (final : Bool) :
    consumeChannel p env' z c (h.chan cd) (mapBlock h.val input) final = (consumeChannel p env z c cd input final).map (fun x => (h.chan x.1, x.2)) := by
  unfold consumeChannel
  split
  · have hr : (h.chan cd).resampler = cd.resampler.map h.rs := rfl
    rw [hr]
    cases cd.resampler with
    | none => rfl
    | some r => simp only [Option.map_some, map_consumeResampled]
  · simp only [Option.map_some, map_consumePlain]

theorem map_channelRound (incs : List Int) (c : Nat) (input : List (Frame α)) (final : Bool) (cd : Chan α σ ρ) (used : Nat) :
    channelRound p env' z incs c (mapBlock h.val input) final (h.chan cd) used = (channelRound p env z incs c input final cd used).map (fun x => (h.chan x.1, x.2)) := by
  unfold channelRound
  rw [← mapBlock_drop, map_consumeChannel]
  simp only [Option.bind_eq_bind]
  cases consumeChannel p env z c cd (input.drop used) final with
  | none => rfl
  | some x =>
    obtain ⟨d, n⟩ := x
    simp only [Option.map_some, Option.bind_some, mapBlock_length]
    have e : (if used + n ≥ input.length ∧ final = true then { h.chan d with inputSize := some (h.chan d).inCount } else h.chan d) =
        h.chan (if used + n ≥ input.length ∧ final = true then { d with inputSize := some d.inCount } else d) := by
      split <;> rfl
    rw [e]
    generalize (if used + n ≥ input.length ∧ final = true then { d with inputSize := some d.inCount } else d) = d
    cases p.realTime with
    | true => rfl
    | false =>
      simp only [Bool.false_eq_true, if_false]
      rw [map_processChunks]
      cases processChunks p env z incs d with
      | none => rfl
      | some y => rfl

theorem map_reset (cd : Chan α σ ρ) : h.chan (cd.reset env) = (h.chan cd).reset env' := by
  unfold Chan.reset Hom.chan
  simp only [mapBuf_reset, Option.map_map, Function.comp_def, h.rsReset, h.specReset]

theorem map_prefill (cd : Chan α σ ρ) : h.chan (cd.prefill env z) = (h.chan cd).prefill env' z := by
  unfold Chan.prefill
  simp only [← map_reset]
  simp only [Hom.chan, mapBuf_zero h.zero]

/-! ## The stretcher -/

/-- A stretcher with the others. -/
def Hom.state (h : Hom env env') (s : State α σ ρ κ) : State α' σ' ρ' κ' where
  sizes := s.sizes
  outbufSize := s.outbufSize
  maxProcessSize := s.maxProcessSize
  expected := s.expected
  inputDuration := s.inputDuration
  mode := s.mode
  chans := s.chans.map h.chan
  calculator := s.calculator
  curves := h.cur s.curves
  outputIncrements := s.outputIncrements
  phaseResetDf := s.phaseResetDf
  silence := s.silence
  silentHistory := s.silentHistory

theorem map_takeFrames : ∀ cds : List (Chan α σ ρ), takeFrames env' z (cds.map h.chan) = ((takeFrames env z cds).1.map h.chan, (takeFrames env z cds).2)
  | [] => rfl
  | cd :: cds => by
    rw [List.map_cons]
    unfold takeFrames
    rw [map_testInbuf]
    simp only
    split
    · rw [map_takeFrames cds]
      simp only [List.map_cons]
      have e : (if (h.chan (testInbuf z cd).1).draining = true then h.chan (testInbuf z cd).1 else analyseChunk env' z (takeFrame z (h.chan (testInbuf z cd).1))) =
          h.chan (if (testInbuf z cd).1.draining = true then (testInbuf z cd).1 else analyseChunk env z (takeFrame z (testInbuf z cd).1)) := by
        rw [show (h.chan (testInbuf z cd).1).draining = (testInbuf z cd).1.draining from rfl]
        split
        · rfl
        · rw [map_analyseChunk, map_takeFrame]
      rw [e]
    · rfl

theorem map_single (k : Calc) (r : Option ρ) (df : Rat) : single env' z k (r.map h.rs) df = single env z k r df := by
  unfold single
  cases r with
  | none => rfl
  | some r => simp only [Option.map_some, h.effective]

theorem map_calculateIncrements (hc : h.Sees) (s : State α σ ρ κ) : calculateIncrements env' (h.state s) = (h.state (calculateIncrements env s).1, (calculateIncrements env s).2) := by
  unfold calculateIncrements
  cases e : s.chans with
  | nil =>
    have : (h.state s).chans = [] := by simp only [Hom.state, e, List.map_nil]
    rw [this]
    rfl
  | cons cd cds =>
    have : (h.state s).chans = h.chan cd :: cds.map h.chan := by simp only [Hom.state, e, List.map_cons]
    rw [this]
    simp only
    have e1 : ((cds.map h.chan).all fun d => d.chunkCount == (h.chan cd).chunkCount) = cds.all fun d => d.chunkCount == cd.chunkCount := by
      rw [List.all_map]; rfl
    rw [e1]
    split
    · have e2 : (h.chan cd :: cds.map h.chan).map (fun d => d.spec) = ((cd :: cds).map fun d => d.spec).map h.spec := by
        simp only [List.map_cons, List.map_map]
        rfl
      have e3 := hc s.curves ((cd :: cds).map fun d => d.spec)
      rw [e2]
      have e4 : (h.state s).curves = h.cur s.curves := rfl
      simp only [e4, e3, show (h.chan cd).resampler = cd.resampler.map h.rs from rfl, show (h.state s).sizes = s.sizes from rfl, show (h.state s).calculator = s.calculator from rfl, map_single]
      rfl
    · rfl

theorem map_chooseIncrements (hc : h.Sees) (s : State α σ ρ κ) : chooseIncrements env' (h.state s) = (h.state (chooseIncrements env s).1, (chooseIncrements env s).2) := by
  unfold chooseIncrements
  cases e : s.chans with
  | nil =>
    have : (h.state s).chans = [] := by simp only [Hom.state, e, List.map_nil]
    rw [this]
    exact map_calculateIncrements h hc s
  | cons cd cds =>
    have : (h.state s).chans = h.chan cd :: cds.map h.chan := by simp only [Hom.state, e, List.map_cons]
    rw [this]
    simp only [show (h.state s).sizes = s.sizes from rfl, show (h.state s).outputIncrements = s.outputIncrements from rfl, map_getIncrements]
    split
    · rfl
    · exact map_calculateIncrements h hc { s with chans := (getIncrements s.sizes s.outputIncrements cd).1 :: cds }

theorem map_eachChunk (i : Incs) : ∀ (cds : List (Chan α σ ρ)) (last : Bool),
    eachChunk p env' z i (cds.map h.chan) last = (eachChunk p env z i cds last).map fun x => (x.1.map h.chan, x.2)
  | [], last => rfl
  | cd :: cds, last => by
    rw [List.map_cons]
    unfold eachChunk
    rw [map_processChunk]
    simp only [Option.bind_eq_bind]
    cases processChunk p env z i cd with
    | none => rfl
    | some x =>
      simp only [Option.map_some, Option.bind_some]
      rw [map_eachChunk i cds]
      cases eachChunk p env z i cds x.2 with
      | none => rfl
      | some y => rfl

theorem map_processOneChunk (hc : h.Sees) (s : State α σ ρ κ) : processOneChunk p env' (h.state s) = (processOneChunk p env s).map fun x => (h.state x.1, x.2) := by
  unfold processOneChunk
  have e : takeFrames env' (h.state s).sizes (h.state s).chans = _ := map_takeFrames h s.sizes s.chans
  rw [e]
  simp only
  split
  · have e1 := map_chooseIncrements h hc { s with chans := (takeFrames env s.sizes s.chans).1 }
    rw [show h.state { s with chans := (takeFrames env s.sizes s.chans).1 } = { h.state s with chans := (takeFrames env s.sizes s.chans).1.map h.chan } from rfl] at e1
    rw [e1]
    simp only [Option.bind_eq_bind]
    generalize chooseIncrements env { s with chans := (takeFrames env s.sizes s.chans).1 } = x
    have e2 : eachChunk p env' (h.state x.1).sizes x.2 (h.state x.1).chans false = _ := map_eachChunk h p x.1.sizes x.2 x.1.chans false
    rw [e2]
    cases eachChunk p env x.1.sizes x.2 x.1.chans false with
    | none => rfl
    | some y => rfl
  · rfl

theorem map_calculateStretch (s : State α σ ρ κ) : calculateStretch (h.state s) = (calculateStretch s).map h.state := by
  unfold calculateStretch
  simp only [Option.bind_eq_bind]
  rw [show calculate (h.state s).calculator ((h.state s).sizes.timeRatio * (h.state s).sizes.pitchScale) (h.state s).phaseResetDf =
    calculate s.calculator (s.sizes.timeRatio * s.sizes.pitchScale) s.phaseResetDf from rfl]
  cases calculate s.calculator (s.sizes.timeRatio * s.sizes.pitchScale) s.phaseResetDf with
  | none => rfl
  | some x => rfl

theorem map_channelsRound (incs : List Int) (input : List (Frame α)) (final : Bool) : ∀ (l : List (Chan α σ ρ × Nat)) (c : Nat),
    channelsRound p env' z incs (mapBlock h.val input) final c (l.map fun x => (h.chan x.1, x.2)) = (channelsRound p env z incs input final c l).map (List.map fun x => (h.chan x.1, x.2))
  | [], c => rfl
  | (cd, used) :: l, c => by
    rw [List.map_cons]
    unfold channelsRound
    rw [map_channelRound]
    simp only [Option.bind_eq_bind]
    cases channelRound p env z incs c input final cd used with
    | none => rfl
    | some x =>
      simp only [Option.map_some, Option.bind_some]
      rw [map_channelsRound incs input final l]
      cases channelsRound p env z incs input final (c + 1) l with
      | none => rfl
      | some y => rfl

theorem map_processRound (hc : p.realTime = true → h.Sees) (input : List (Frame α)) (final : Bool) (s : State α σ ρ κ) (used : List Nat) :
    processRound p env' (mapBlock h.val input) final (h.state s) used = (processRound p env input final s used).map fun x => (h.state x.1, x.2) := by
  unfold processRound
  have e : (h.state s).chans.zip used = (s.chans.zip used).map fun x => (h.chan x.1, x.2) := by
    show (s.chans.map h.chan).zip used = _
    rw [List.zip_map_left]
    rfl
  rw [e, show (h.state s).sizes = s.sizes from rfl, show (h.state s).outputIncrements = s.outputIncrements from rfl, map_channelsRound]
  simp only [Option.bind_eq_bind]
  cases channelsRound p env s.sizes s.outputIncrements input final 0 (s.chans.zip used) with
  | none => rfl
  | some xs =>
    simp only [Option.map_some, Option.bind_some, List.map_map, Function.comp_def]
    have e1 := fun hp => map_processOneChunk h p (hc hp) { s with chans := xs.map fun x => x.1 }
    rw [show h.state { s with chans := xs.map fun x => x.1 } = { h.state s with chans := xs.map fun x => h.chan x.1 } by simp only [Hom.state, List.map_map]; rfl] at e1
    simp only [show (h.state s).sizes = s.sizes from rfl, show (h.state s).outputIncrements = s.outputIncrements from rfl] at e1
    cases hp : p.realTime with
    | true =>
      simp only [if_true]
      rw [e1 hp]
      cases processOneChunk p env { s with chans := xs.map fun x => x.1 } with
      | none => rfl
      | some y => rfl
    | false =>
      simp only [Bool.false_eq_true, if_false, Option.bind_some, Option.map_some, Option.pure_def]
      simp only [Hom.state, List.map_map]
      rfl

theorem map_processLoop (hc : p.realTime = true → h.Sees) (input : List (Frame α)) (final : Bool) : ∀ (fuel : Nat) (s : State α σ ρ κ) (used : List Nat),
    processLoop p env' (mapBlock h.val input) final fuel (h.state s) used = (processLoop p env input final fuel s used).map h.state := by
  intro fuel
  induction fuel with
  | zero => intro s used; rfl
  | succ fuel ih =>
    intro s used
    unfold processLoop
    rw [map_processRound h p hc]
    cases processRound p env input final s used with
    | none => rfl
    | some x =>
      simp only [Option.map_some, Option.bind_some, mapBlock_length]
      split
      · rfl
      · exact ih _ _

theorem map_prologue (s : State α σ ρ κ) : prologue env' (h.state s) = (prologue env s).map h.state := by
  unfold prologue
  rw [show (h.state s).mode = s.mode from rfl]
  cases s.mode with
  | justCreated => rfl
  | processing => rfl
  | finished => rfl
  | studying =>
    simp only
    rw [map_calculateStretch]
    cases calculateStretch s with
    | none => rfl
    | some t =>
      simp only [Option.map_some]
      simp only [Hom.state, List.map_map]
      congr 2
      refine List.map_congr_left fun cd _ => ?_
      exact (map_prefill h _ cd).symm

theorem map_rounds (s : State α σ ρ κ) (input : List (Frame α)) : rounds (h.state s) (mapBlock h.val input) = rounds s input := by
  unfold rounds
  rw [mapBlock_length]
  simp only [Hom.state, List.map_map]
  rfl

theorem map_process (hc : p.realTime = true → h.Sees) (s : State α σ ρ κ) (input : List (Frame α)) (final : Bool) :
    process p env' (h.state s) (mapBlock h.val input) final = (process p env s input final).map h.state := by
  unfold process
  rw [show (h.state s).mode = s.mode from rfl]
  split
  · rfl
  · simp only [Option.bind_eq_bind]
    rw [map_prologue]
    cases prologue env s with
    | none => rfl
    | some t =>
      simp only [Option.map_some, Option.bind_some]
      rw [map_rounds, show (h.state t).chans.length = t.chans.length from List.length_map .., map_processLoop h p hc]
      cases processLoop p env input final (rounds t input) t (List.replicate t.chans.length 0) with
      | none => rfl
      | some u => rfl

theorem map_finishLoop (hc : h.Sees) : ∀ (fuel : Nat) (s : State α σ ρ κ), finishLoop p env' fuel (h.state s) = (finishLoop p env fuel s).map h.state := by
  intro fuel
  induction fuel with
  | zero => intro s; rfl
  | succ fuel ih =>
    intro s
    unfold finishLoop
    cases e : s.chans with
    | nil =>
      have : (h.state s).chans = [] := by simp only [Hom.state, e, List.map_nil]
      rw [this]
      rfl
    | cons cd cds =>
      have : (h.state s).chans = h.chan cd :: cds.map h.chan := by simp only [Hom.state, e, List.map_cons]
      rw [this]
      simp only [show (h.chan cd).inbuf.readSpace = cd.inbuf.readSpace from mapBuf_readSpace _ _, show (h.chan cd).draining = cd.draining from rfl]
      split
      · rw [map_processOneChunk h p hc]
        cases processOneChunk p env s with
        | none => rfl
        | some x =>
          simp only [Option.map_some, Option.bind_some]
          split
          · rfl
          · exact ih _
      · rfl

theorem map_finishEach (incs : List Int) : ∀ cds : List (Chan α σ ρ), finishEach p env' z incs (cds.map h.chan) = (finishEach p env z incs cds).map (List.map h.chan)
  | [] => rfl
  | cd :: cds => by
    rw [List.map_cons]
    unfold finishEach
    simp only [show (h.chan cd).inbuf.readSpace = cd.inbuf.readSpace from mapBuf_readSpace _ _, Option.bind_eq_bind]
    rw [map_finishEach incs cds]
    have e' : ∀ x : Option (Chan α σ ρ), ((x.map h.chan).bind fun cd => ((finishEach p env z incs cds).map (List.map h.chan)).bind fun cds => some (cd :: cds)) =
        (x.bind fun cd => (finishEach p env z incs cds).bind fun cds => some (cd :: cds)).map (List.map h.chan) := by
      intro x
      cases x with
      | none => rfl
      | some x =>
        simp only [Option.map_some, Option.bind_some]
        cases finishEach p env z incs cds with
        | none => rfl
        | some y => rfl
    split
    · rw [map_processChunks]
      exact e' _
    · exact e' (some cd)

theorem map_finish (hc : p.realTime = true → h.Sees) (s : State α σ ρ κ) : finish p env' (h.state s) = (finish p env s).map h.state := by
  unfold finish
  cases e : s.chans with
  | nil =>
    have : (h.state s).chans = [] := by simp only [Hom.state, e, List.map_nil]
    rw [this]
    rfl
  | cons cd cds =>
    have : (h.state s).chans = h.chan cd :: cds.map h.chan := by simp only [Hom.state, e, List.map_cons]
    rw [this]
    simp only [show (h.chan cd).inputSize = cd.inputSize from rfl]
    split
    · split
      · rename_i hp
        simp only [show (h.chan cd).inbuf.readSpace = cd.inbuf.readSpace from mapBuf_readSpace _ _]
        exact map_finishLoop h p (hc hp) _ s
      · have e1 := map_finishEach h p s.sizes s.outputIncrements (cd :: cds)
        rw [List.map_cons] at e1
        rw [show (h.state s).sizes = s.sizes from rfl, show (h.state s).outputIncrements = s.outputIncrements from rfl, e1]
        cases finishEach p env s.sizes s.outputIncrements (cd :: cds) with
        | none => rfl
        | some y => rfl
    · rfl

theorem map_least : ∀ cds : List (Chan α σ ρ), least (cds.map h.chan) = least cds
  | [] => rfl
  | [cd] => mapBuf_readSpace _ _
  | cd :: cd' :: cds => by
    have := map_least (cd' :: cds)
    simp only [List.map_cons] at this ⊢
    unfold least
    rw [this]
    simp only [show (h.chan cd).outbuf.readSpace = cd.outbuf.readSpace from mapBuf_readSpace _ _]

theorem map_count (s : State α σ ρ κ) : count (h.state s) = count s := by
  unfold count
  have e1 : (h.state s).chans = s.chans.map h.chan := rfl
  have e2 : (s.chans.map h.chan).all (fun cd => cd.outputComplete) = s.chans.all fun cd => cd.outputComplete := by rw [List.all_map]; rfl
  have e3 : (s.chans.map h.chan).any (fun cd => cd.resampler.isSome) = s.chans.any fun cd => cd.resampler.isSome := by
    rw [List.any_map]
    congr 1
    funext cd
    exact Option.isSome_map
  rw [e1, map_least, e2, e3]
  simp only [List.map_eq_nil_iff]
  rfl

theorem map_available (hc : p.realTime = true → h.Sees) (s : State α σ ρ κ) : available p env' (h.state s) = (available p env s).map fun x => (h.state x.1, x.2) := by
  unfold available
  rw [map_finish h p hc]
  cases finish p env s with
  | none => rfl
  | some t => simp only [Option.map_some, map_count]

theorem map_readChannels : ∀ (cds : List (Chan α σ ρ)) (got : Nat), readChannels (cds.map h.chan) got =
    ((readChannels cds got).1.map h.chan, (readChannels cds got).2.1.map (List.map h.val), (readChannels cds got).2.2)
  | [], got => rfl
  | cd :: cds, got => by
    rw [List.map_cons]
    unfold readChannels
    have e : (h.chan cd).outbuf.peek got = (cd.outbuf.peek got).map h.val := (mapBuf_peek _ _ _).symm
    rw [e]
    simp only [List.length_map]
    rw [map_readChannels cds]
    simp only [List.map_cons, Hom.chan, mapBuf_skip]

theorem map_decode (got : Nat) : ∀ l : List (List α), decode got (l.map (List.map h.val)) = (decode got l).map (List.map h.val)
  | [] => rfl
  | [_] => rfl
  | m :: s :: rest => by
    simp only [decode, List.map_cons, List.map_append, List.map_drop, List.map_zipWith, h.add, h.sub]
    simp only [← List.map_take, List.zipWith_map]

theorem map_retrieve (s : State α σ ρ κ) (n : Nat) : retrieve p (h.state s) n = (h.state (retrieve p s n).1, (retrieve p s n).2.1.map (List.map h.val), (retrieve p s n).2.2) := by
  unfold retrieve
  rw [show (h.state s).chans = s.chans.map h.chan from rfl, map_readChannels]
  simp only
  have e : (if (p.channelsTogether && decide (p.channels ≥ 2)) = true then decode (readChannels s.chans n).2.2 ((readChannels s.chans n).2.1.map (List.map h.val)) else (readChannels s.chans n).2.1.map (List.map h.val)) =
      (if (p.channelsTogether && decide (p.channels ≥ 2)) = true then decode (readChannels s.chans n).2.2 (readChannels s.chans n).2.1 else (readChannels s.chans n).2.1).map (List.map h.val) := by
    split
    · exact map_decode h _ _
    · rfl
  rw [e]
  rfl

theorem map_resize (s : State α σ ρ κ) (a b : R3.Dbl) : resize p (h.state s) a b = (resize p s a b).map h.state := by
  unfold resize
  simp only [Option.bind_eq_bind]
  rw [show (h.state s).expected = s.expected from rfl]
  cases calculateSizes p s.expected a b with
  | none => rfl
  | some z => rfl

theorem map_newChan (n : Nat) : newChan p env' z n = (newChan p env z n).map h.chan := by
  unfold newChan
  simp only [Option.bind_eq_bind]
  cases baseFftSize p with
  | none => rfl
  | some base =>
    simp only [Option.bind_some, Option.pure_def, Option.map_some, Hom.chan, mapBuf, List.map_nil, h.zero, h.specReset, h.specInit, Option.map_none]

theorem map_withResampler (cd : Chan α σ ρ) : h.chan (cd.withResampler p env z) = (h.chan cd).withResampler p env' z := by
  unfold Chan.withResampler
  rw [show (h.chan cd).resampler.isNone = cd.resampler.isNone from Option.isNone_map]
  split
  · simp only [Hom.chan, Option.map_some, h.rsInit]
  · rfl

theorem map_configure (first : Bool) (s : State α σ ρ κ) (a b : R3.Dbl) : configure p env' first (h.state s) a b = (configure p env first s a b).map h.state := by
  unfold configure
  simp only [Option.bind_eq_bind]
  rw [map_resize]
  cases resize p s a b with
  | none => rfl
  | some t =>
    simp only [Option.map_some, Option.bind_some]
    rw [show (h.state t).sizes = t.sizes from rfl, show (h.state t).outbufSize = t.outbufSize from rfl, map_newChan h]
    cases newChan p env t.sizes t.outbufSize with
    | none => rfl
    | some fresh =>
      simp only [Option.map_some, Option.bind_some, Option.pure_def]
      have e : (if (first || decide (t.sizes.window ≠ (h.state s).sizes.window) || decide (t.outbufSize ≠ (h.state s).outbufSize)) = true then List.replicate p.channels (h.chan fresh) else (h.state s).chans) =
          (if (first || decide (t.sizes.window ≠ s.sizes.window) || decide (t.outbufSize ≠ s.outbufSize)) = true then List.replicate p.channels fresh else s.chans).map h.chan := by
        rw [show (h.state s).sizes = s.sizes from rfl, show (h.state s).outbufSize = s.outbufSize from rfl]
        split
        · rw [List.map_replicate]
        · rfl
      rw [e]
      generalize (if (first || decide (t.sizes.window ≠ s.sizes.window) || decide (t.outbufSize ≠ s.outbufSize)) = true then List.replicate p.channels fresh else s.chans) = cds
      have e1 : (cds.map h.chan).map (Chan.withResampler p env' t.sizes) = (cds.map (Chan.withResampler p env t.sizes)).map h.chan := by
        rw [List.map_map, List.map_map]
        exact List.map_congr_left fun cd _ => (map_withResampler h p _ cd).symm
      rw [e1]
      generalize cds.map (Chan.withResampler p env t.sizes) = cds
      have e2 : (if p.realTime = true then cds.map h.chan else (cds.map h.chan).map (Chan.prefill env' t.sizes)) = (if p.realTime = true then cds else cds.map (Chan.prefill env t.sizes)).map h.chan := by
        split
        · rfl
        · rw [List.map_map, List.map_map]
          exact List.map_congr_left fun cd _ => (map_prefill h _ cd).symm
      rw [e2, ← h.curveInit]
      rfl

theorem map_setSizes (w n : Nat) (cd : Chan α σ ρ) : h.chan (cd.setSizes env w n) = (h.chan cd).setSizes env' w n := by
  unfold Chan.setSizes
  simp only
  by_cases e : cd.inbuf.cap ≥ 2 * max w n
  · have e' : (h.chan cd).inbuf.cap ≥ 2 * max w n := e
    rw [if_pos e, if_pos e']
    simp only [Hom.chan, h.zero, h.specSizes]
  · have e' : ¬ (h.chan cd).inbuf.cap ≥ 2 * max w n := e
    rw [if_neg e, if_neg e']
    simp only [Hom.chan, h.zero, h.specSizes, mapBuf_resized]

theorem map_setOutbufSize (n : Nat) (cd : Chan α σ ρ) : h.chan (cd.setOutbufSize n) = (h.chan cd).setOutbufSize n := by
  unfold Chan.setOutbufSize
  by_cases e : cd.outbuf.cap < n
  · have e' : (h.chan cd).outbuf.cap < n := e
    rw [if_pos e, if_pos e']
    simp only [Hom.chan, mapBuf_resized]
  · have e' : ¬ (h.chan cd).outbuf.cap < n := e
    rw [if_neg e, if_neg e']

theorem map_reconfigure (s : State α σ ρ κ) (a b : R3.Dbl) : reconfigure p env' (h.state s) a b = (reconfigure p env s a b).map h.state := by
  unfold reconfigure
  split
  · simp only [Option.bind_eq_bind]
    rw [map_resize]
    cases resize p s a b with
    | none => rfl
    | some t =>
      simp only [Option.map_some, Option.bind_some, Option.pure_def]
      rw [show (h.state t).sizes = t.sizes from rfl, show (h.state t).outbufSize = t.outbufSize from rfl, show (h.state s).sizes = s.sizes from rfl, show (h.state s).outbufSize = s.outbufSize from rfl,
        show (h.state t).chans = t.chans.map h.chan from rfl, show (h.state t).curves = h.cur t.curves from rfl]
      have e1 : (if t.sizes.window ≠ s.sizes.window then (t.chans.map h.chan).map (Chan.setSizes env' t.sizes.window t.sizes.fftSize) else t.chans.map h.chan) =
          (if t.sizes.window ≠ s.sizes.window then t.chans.map (Chan.setSizes env t.sizes.window t.sizes.fftSize) else t.chans).map h.chan := by
        split
        · rw [List.map_map, List.map_map]
          exact List.map_congr_left fun cd _ => (map_setSizes h _ _ cd).symm
        · rfl
      rw [e1]
      generalize (if t.sizes.window ≠ s.sizes.window then t.chans.map (Chan.setSizes env t.sizes.window t.sizes.fftSize) else t.chans) = cds
      have e2 : (if t.outbufSize ≠ s.outbufSize then (cds.map h.chan).map (Chan.setOutbufSize t.outbufSize) else cds.map h.chan) =
          (if t.outbufSize ≠ s.outbufSize then cds.map (Chan.setOutbufSize t.outbufSize) else cds).map h.chan := by
        split
        · rw [List.map_map, List.map_map]
          exact List.map_congr_left fun cd _ => (map_setOutbufSize h _ cd).symm
        · rfl
      have e3 : (if t.sizes.fftSize ≠ s.sizes.fftSize then env'.curveSizes (h.cur t.curves) t.sizes.fftSize else h.cur t.curves) =
          h.cur (if t.sizes.fftSize ≠ s.sizes.fftSize then env.curveSizes t.curves t.sizes.fftSize else t.curves) := by
        split
        · rw [h.curveSizes]
        · rfl
      rw [e2, e3]
      rfl
  · simp only [Option.bind_eq_bind]
    rw [show (h.state s).mode = s.mode from rfl]
    split
    · rw [map_calculateStretch]
      cases calculateStretch s with
      | none => rfl
      | some t => exact map_configure h p false { t with phaseResetDf := [], silence := [], inputDuration := 0 } a b
    · exact map_configure h p false s a b

theorem map_create (a b : R3.Dbl) : create p env' a b = (create p env a b).map h.state := by
  unfold create
  rw [← map_configure h]
  congr 1
  simp only [Hom.state, List.map_nil, h.curveInit]

theorem map_stretcherReset (s : State α σ ρ κ) : reset p env' (h.state s) = (reset p env s).map h.state := by
  unfold reset
  rw [← map_reconfigure]
  congr 1
  simp only [Hom.state, h.curveReset, List.map_map]
  congr 1
  exact List.map_congr_left fun cd _ => (map_reset h cd).symm

theorem map_setTimeRatio (s : State α σ ρ κ) (r : R3.Dbl) : setTimeRatio p env' (h.state s) r = (setTimeRatio p env s r).map h.state := by
  unfold setTimeRatio
  rw [show locked p (h.state s) = locked p s from rfl, show (h.state s).sizes = s.sizes from rfl]
  split
  · rfl
  · split
    · rfl
    · exact map_reconfigure h p s _ _

theorem map_resetResamplers (was : Rat) (s : State α σ ρ κ) : h.state (resetResamplers p env was s) = resetResamplers p env' was (h.state s) := by
  unfold resetResamplers
  rw [show (h.state s).sizes = s.sizes from rfl]
  split
  · simp only [Hom.state, List.map_map]
    congr 1
    refine List.map_congr_left fun cd _ => ?_
    simp only [Function.comp_def, Hom.chan, Option.map_map, h.rsReset]
  · rfl

theorem map_setPitchScale (s : State α σ ρ κ) (r : R3.Dbl) : setPitchScale p env' (h.state s) r = (setPitchScale p env s r).map h.state := by
  unfold setPitchScale
  rw [show locked p (h.state s) = locked p s from rfl, show (h.state s).sizes = s.sizes from rfl]
  split
  · rfl
  · split
    · rfl
    · rw [map_reconfigure, Option.map_map, Option.map_map]
      congr 1
      funext t
      exact (map_resetResamplers h p _ t).symm

theorem map_setExpectedInputDuration (s : State α σ ρ κ) (n : Nat) : setExpectedInputDuration p env' (h.state s) n = (setExpectedInputDuration p env s n).map h.state := by
  unfold setExpectedInputDuration
  rw [show (h.state s).expected = s.expected from rfl]
  split
  · rfl
  · exact map_reconfigure h p { s with expected := n } _ _

theorem map_setMaxProcessSize (s : State α σ ρ κ) (n : Nat) : setMaxProcessSize p env' (h.state s) n = (setMaxProcessSize p env s n).map h.state := by
  unfold setMaxProcessSize
  rw [show (h.state s).maxProcessSize = s.maxProcessSize from rfl]
  split
  · rfl
  · exact map_reconfigure h p { s with maxProcessSize := n } _ _

theorem map_setKeyFrameMap (s : State α σ ρ κ) (m : List (Nat × Nat)) : setKeyFrameMap p (h.state s) m = h.state (setKeyFrameMap p s m) := by
  unfold setKeyFrameMap
  rw [show (h.state s).mode = s.mode from rfl]
  split
  · rfl
  · split <;> rfl

theorem map_studyLoop (hs : h.Studies) (final : Bool) : ∀ (fuel : Nat) (s : State α σ ρ κ) (cd : Chan α σ ρ),
    studyLoop env' final fuel (h.state s) (h.chan cd) = (studyLoop env final fuel s cd).map fun x => (h.state x.1, h.chan x.2) := by
  intro fuel
  induction fuel with
  | zero => intro s cd; rfl
  | succ fuel ih =>
    intro s cd
    unfold studyLoop
    rw [show (h.chan cd).inbuf.readSpace = cd.inbuf.readSpace from mapBuf_readSpace _ _, show (h.state s).sizes = s.sizes from rfl]
    split
    · have e : env'.studyCurve (h.state s).curves (h.chan cd).spec ((cd.inbuf.peek s.sizes.window).map h.val) = _ := hs s.curves cd.spec (cd.inbuf.peek s.sizes.window)
      rw [show (h.chan cd).inbuf.peek s.sizes.window = (cd.inbuf.peek s.sizes.window).map h.val from (mapBuf_peek _ _ _).symm, e]
      generalize env.studyCurve s.curves cd.spec (cd.inbuf.peek s.sizes.window) = x
      obtain ⟨x1, x2, x3, x4, x5⟩ := x
      simp only
      rw [← ih]
      congr 1
      simp only [Hom.chan, mapBuf_skip, Chan.mk.injEq, true_and, and_true]
      funext i
      split <;> rfl
    · rfl

theorem map_studyInput (hs : h.Studies) (final : Bool) : ∀ (fuel : Nat) (s : State α σ ρ κ) (cd : Chan α σ ρ) (rest : List α),
    studyInput env' final fuel (h.state s) (h.chan cd) (rest.map h.val) = (studyInput env final fuel s cd rest).map fun x => (h.state x.1, h.chan x.2) := by
  intro fuel
  induction fuel with
  | zero =>
    intro s cd rest
    unfold studyInput
    rw [List.length_map]
    split <;> rfl
  | succ fuel ih =>
    intro s cd rest
    unfold studyInput
    simp only [List.length_map, Option.bind_eq_bind]
    split
    · rfl
    · simp only [show (h.chan cd).inbuf.writeSpace = cd.inbuf.writeSpace from mapBuf_writeSpace _ _]
      have e : ({ h.chan cd with inbuf := (h.chan cd).inbuf.write ((rest.map h.val).take (min cd.inbuf.writeSpace rest.length)) } : Chan α' σ' ρ') =
          h.chan { cd with inbuf := cd.inbuf.write (rest.take (min cd.inbuf.writeSpace rest.length)) } := by
        simp only [Hom.chan, mapBuf_write, List.map_take]
      rw [e]
      rw [show ((h.chan cd).inbuf.write ((rest.map h.val).take (min cd.inbuf.writeSpace rest.length))).readSpace =
        (cd.inbuf.write (rest.take (min cd.inbuf.writeSpace rest.length))).readSpace by
          rw [← List.map_take]
          exact (congrArg Fifo.readSpace (mapBuf_write h.val cd.inbuf _).symm).trans (mapBuf_readSpace _ _), map_studyLoop h hs]
      cases studyLoop env final ((cd.inbuf.write (rest.take (min cd.inbuf.writeSpace rest.length))).readSpace + 1) s { cd with inbuf := cd.inbuf.write (rest.take (min cd.inbuf.writeSpace rest.length)) } with
      | none => rfl
      | some x =>
        simp only [Option.map_some, Option.bind_some]
        rw [← List.map_drop]
        exact ih _ _ _

theorem map_studyEnd (final : Bool) (s : State α σ ρ κ) (cd : Chan α σ ρ) : studyEnd final (h.state s) (h.chan cd) = h.state (studyEnd final s cd) := by
  unfold studyEnd
  simp only [show (h.chan cd).inbuf.readSpace = cd.inbuf.readSpace from mapBuf_readSpace _ _]
  split <;> rfl

theorem map_study (hs : p.realTime = false → h.Studies) (s : State α σ ρ κ) (input : List (Frame α)) (final : Bool) : study p env' (h.state s) (mapBlock h.val input) final = (study p env s input final).map h.state := by
  unfold study
  rw [show (h.state s).mode = s.mode from rfl]
  split
  · rfl
  · rename_i hp
    split
    · rfl
    · cases e : s.chans with
      | nil =>
        have : (h.state s).chans = [] := by simp only [Hom.state, e, List.map_nil]
        rw [this]
        rfl
      | cons cd cds =>
        have : (h.state s).chans = h.chan cd :: cds.map h.chan := by simp only [Hom.state, e, List.map_cons]
        rw [this]
        simp only [Option.bind_eq_bind]
        have e1 : (mapBlock h.val input).map (fun f => if (decide (p.channels > 1) || final) = true then env'.mixdown p.channels f else f 0) =
            (input.map fun f => if (decide (p.channels > 1) || final) = true then env.mixdown p.channels f else f 0).map h.val := by
          rw [mapBlock, List.map_map, List.map_map]
          refine List.map_congr_left fun f _ => ?_
          simp only [Function.comp_def]
          split
          · exact h.mixdown _ f
          · rfl
        rw [e1, mapBlock_length]
        have e2 := map_studyInput h (hs (by simpa using hp)) final input.length { s with mode := .studying } cd (input.map fun f => if (decide (p.channels > 1) || final) = true then env.mixdown p.channels f else f 0)
        rw [show h.state { s with mode := .studying } = { h.state s with mode := .studying } from rfl] at e2
        simp only [this] at e2
        rw [e2, e]
        generalize studyInput env final input.length _ cd (input.map fun f => if (decide (p.channels > 1) || final) = true then env.mixdown p.channels f else f 0) = x
        cases x with
        | none => rfl
        | some x =>
          simp only [Option.map_some, Option.bind_some, Option.pure_def, map_studyEnd]
          rfl

/-- A call with the others. -/
def mapCall (v : α → α') : Call α → Call α'
  | .setTimeRatio r => .setTimeRatio r
  | .setPitchScale r => .setPitchScale r
  | .setExpectedInputDuration n => .setExpectedInputDuration n
  | .setMaxProcessSize n => .setMaxProcessSize n
  | .setKeyFrameMap m => .setKeyFrameMap m
  | .study input final => .study (mapBlock v input) final
  | .process input final => .process (mapBlock v input) final
  | .available => .available
  | .retrieve n => .retrieve n
  | .reset => .reset

/-- Whether a call studies input. -/
def Call.studies : Call α → Bool
  | .study _ _ => true
  | _ => false

theorem map_call (hc : p.realTime = true → h.Sees) (s : State α σ ρ κ) (c : Call α) (hs : p.realTime = false → c.studies = true → h.Studies) :
    call p env' (h.state s) (mapCall h.val c) = (call p env s c).map fun x => (h.state x.1, x.2.map (List.map h.val)) := by
  cases c with
  | setTimeRatio r => simp only [mapCall, call, map_setTimeRatio, Option.map_map, Function.comp_def, List.map_nil]
  | setPitchScale r => simp only [mapCall, call, map_setPitchScale, Option.map_map, Function.comp_def, List.map_nil]
  | setExpectedInputDuration n => simp only [mapCall, call, map_setExpectedInputDuration, Option.map_map, Function.comp_def, List.map_nil]
  | setMaxProcessSize n => simp only [mapCall, call, map_setMaxProcessSize, Option.map_map, Function.comp_def, List.map_nil]
  | setKeyFrameMap m => simp only [mapCall, call, map_setKeyFrameMap, Option.map_some, List.map_nil]
  | study input final => simp only [mapCall, call, map_study h p (fun hp => hs hp rfl), Option.map_map, Function.comp_def, List.map_nil]
  | process input final => simp only [mapCall, call, map_process h p hc, Option.map_map, Function.comp_def, List.map_nil]
  | available => simp only [mapCall, call, map_available h p hc, Option.map_map, Function.comp_def, List.map_nil]
  | retrieve n => simp only [mapCall, call, map_retrieve, Option.map_some]
  | reset => simp only [mapCall, call, map_stretcherReset, Option.map_map, Function.comp_def, List.map_nil]

/-- The engine does the same with the others. -/
theorem run_map (hc : p.realTime = true → h.Sees) : ∀ (cs : List (Call α)) (_ : p.realTime = false → ∀ c ∈ cs, c.studies = true → h.Studies) (s : State α σ ρ κ),
    run p env' (h.state s) (cs.map (mapCall h.val)) = (run p env s cs).map fun x => (h.state x.1, x.2.map (List.map (List.map h.val)))
  | [], _, s => rfl
  | c :: cs, hs, s => by
    rw [List.map_cons]
    unfold run
    rw [map_call h p hc s c fun hp => hs hp c List.mem_cons_self]
    simp only [Option.bind_eq_bind]
    cases call p env s c with
    | none => rfl
    | some x =>
      simp only [Option.map_some, Option.bind_some]
      rw [run_map hc cs (fun hp c hm => hs hp c (List.mem_cons_of_mem _ hm)) x.1]
      cases run p env x.1 cs with
      | none => rfl
      | some y => rfl

end Verif.R2
