import Verif.R2Sizes
import Verif.StretchCalc
/-!
# Model of the faster engine: `R2Stretcher.cpp`, `StretcherProcess.cpp`, `StretcherChannelData.cpp`

Everything but the spectral processing, the resampler and the detection functions, which are parameters (`Env`).  Not threaded.
Samples are of any type, ratios and detection functions are exact rationals, `int` and `size_t` do not overflow, a ring buffer
is a bounded queue (see `Verif.Fifo`).  `none` is undefined behaviour, or a loop that has not ended.  Logging, profiling, and the curves kept
for debugging in real time (`m_lastProcess...`) are left out.
-/
namespace Verif.R2
open Verif.Round Verif.StretchCalc

/-- One sample for each channel. -/
abbrev Frame (α : Type) := Nat → α

/-- The parts of the engine that are not modelled.  `σ` is what a channel keeps for them (magnitudes, phases, accumulators ...),
`ρ` the state of a resampler, `κ` that of the two detection functions. -/
structure Env (α σ ρ κ : Type) where
  /-- StretcherChannelData.cpp:50-110. -/
  specInit : σ
  /-- StretcherChannelData.cpp:264-272: the accumulators cleared. -/
  specReset : σ → σ
  /-- StretcherChannelData.cpp:113-201: other sizes. -/
  specSizes : σ → (window fftSize : Nat) → σ
  /-- StretcherProcess.cpp:724-743 `analyseChunk`: from the contents of `fltbuf`, and those after it. -/
  analyse : σ → List α → σ × (Nat → α)
  /-- StretcherProcess.cpp:745-1031 `modifyChunk` and `synthesiseChunk`: `fltbuf`, phase and shift increment, reset. -/
  synthesise : σ → (Nat → α) → (phaseIncrement shiftIncrement : Nat) → Bool → σ × (Nat → α)
  /-- StretcherProcess.cpp:1054: what is in `accumulator` after the division. -/
  emit : σ → Nat → α
  /-- StretcherProcess.cpp:1106-1110: the accumulators moved up. -/
  shift : σ → (fill shiftIncrement : Nat) → σ
  rsInit : ρ
  rsReset : ρ → ρ
  /-- Resampler::resample: room for output, input, ratio, whether final. -/
  resample : ρ → Nat → List α → Rat → Bool → ρ × List α
  /-- Resampler::getEffectiveRatio. -/
  effective : ρ → Rat → Rat
  curveInit : (fftSize : Nat) → κ
  curveReset : κ → κ
  /-- Other sizes, in real time. -/
  curveSizes : κ → (fftSize : Nat) → κ
  /-- StretcherProcess.cpp:568-598: from the spectra of the channels, `df` and `silent`. -/
  curve : κ → List σ → κ × Rat × Bool
  /-- R2Stretcher.cpp:1013-1077: the same when studying, from what there is in the buffer; `accumulator` and `fltbuf` are used
  as temporary buffers.  Of `fltbuf` only the places up to half the size of the transform are written (`forwardMagnitude`, FFT.cpp). -/
  studyCurve : κ → σ → List α → κ × σ × (Nat → α) × Rat × Bool
  /-- `x / 2`. -/
  halve : α → α
  /-- R2Stretcher.cpp:977-996: the mean of the channels. -/
  mixdown : Nat → Frame α → α

/-- R2Stretcher.h:139-144. -/
inductive Mode where
  | justCreated | studying | processing | finished
deriving DecidableEq, Repr

/-- StretcherChannelData.h `ChannelData`. -/
structure Chan (α σ ρ : Type) where
  inbuf : Fifo α
  outbuf : Fifo α
  fltbuf : Nat → α
  spec : σ
  resampler : Option ρ := none
  resamplebufSize : Nat := 0
  accumulatorFill : Nat := 0
  prevIncrement : Nat := 0
  chunkCount : Nat := 0
  inCount : Nat := 0
  /-- -1 is `none`. -/
  inputSize : Option Nat := none
  outCount : Nat := 0
  draining : Bool := false
  outputComplete : Bool := false

/-- R2Stretcher.h, the members. -/
structure State (α σ ρ κ : Type) where
  sizes : Sizes
  outbufSize : Nat
  maxProcessSize : Nat
  expected : Nat
  inputDuration : Nat
  mode : Mode
  chans : List (Chan α σ ρ)
  calculator : Calc
  curves : κ
  outputIncrements : List Int
  phaseResetDf : List Rat
  silence : List Bool
  silentHistory : Nat

variable {α σ ρ κ : Type}

/-! ## A channel -/

/-- StretcherProcess.cpp:167-170 `useMidSide`. -/
def useMidSide (p : Params) (c : Nat) : Bool := p.channelsTogether && decide (p.channels ≥ 2) && decide (c < 2)

/-- StretcherProcess.cpp:129-147 `prepareChannelMS`, or the input of channel `c` as it is. -/
def prepared [Add α] [Sub α] (p : Params) (env : Env α σ ρ κ) (c : Nat) (f : Frame α) : α :=
  if useMidSide p c then (if c = 0 then env.halve (f 0 + f 1) else env.halve (f 0 - f 1)) else f c

/-- StretcherProcess.cpp:175-190: the number of samples to resample, and `shortened`. -/
def toResample (p : Params) (z : Sizes) (c : Nat) (cd : Chan α σ ρ) (samples : Nat) : Nat × Bool :=
  let writable := cd.inbuf.writeSpace
  let shortened := decide (writable < ((samples : Rat) / z.pitchScale).ceil.toNat)
  let n := if shortened then ((writable : Rat) * z.pitchScale).floor.toNat else samples
  (if useMidSide p c && decide (cd.inbuf.cap < n) then cd.inbuf.cap else n, shortened)

/-- StretcherProcess.cpp:149-260 `consumeChannel`, when there is no resampling to do. -/
def consumePlain [Add α] [Sub α] (p : Params) (env : Env α σ ρ κ) (c : Nat) (cd : Chan α σ ρ) (input : List (Frame α)) : Chan α σ ρ × Nat :=
  let toWrite := min cd.inbuf.writeSpace input.length
  ({ cd with inbuf := cd.inbuf.write ((input.take toWrite).map (prepared p env c)), inCount := cd.inCount + toWrite }, toWrite)

/-- StretcherProcess.cpp:149-260 `consumeChannel`, when there is. -/
def consumeResampled [Add α] [Sub α] (p : Params) (env : Env α σ ρ κ) (z : Sizes) (c : Nat) (cd : Chan α σ ρ) (r : ρ) (input : List (Frame α))
    (final : Bool) : Chan α σ ρ × Nat :=
  let (n, shortened) := toResample p z c cd input.length
  if shortened && n == 0 then (cd, 0)
  else
    let room := max cd.resamplebufSize ((n : Rat) / z.pitchScale).ceil.toNat
    let (r, out) := env.resample r room ((input.take n).map (prepared p env c)) (1 / z.pitchScale) (final && !shortened)
    let out := out.take room
    let cd := { cd with resampler := some r, resamplebufSize := room }
    if cd.inbuf.writeSpace < out.length then (cd, 0)
    else ({ cd with inbuf := cd.inbuf.write out, inCount := cd.inCount + n }, n)

/-- StretcherProcess.cpp:149-260 `consumeChannel`: how much of the input has been taken in. -/
def consumeChannel [Add α] [Sub α] (p : Params) (env : Env α σ ρ κ) (z : Sizes) (c : Nat) (cd : Chan α σ ρ) (input : List (Frame α))
    (final : Bool) : Option (Chan α σ ρ × Nat) :=
  if resampleBefore p z.pitchScale then cd.resampler.map fun r => consumeResampled p env z c cd r input final
  else some (consumePlain p env c cd input)

/-- StretcherProcess.cpp:375-419 `testInbufReadSpace`. -/
def testInbuf (z : Sizes) (cd : Chan α σ ρ) : Chan α σ ρ × Bool :=
  let rs := cd.inbuf.readSpace
  if rs < z.window ∧ cd.draining = false then
    if cd.inputSize.isNone then (cd, false)
    else if rs = 0 then (cd, false)
    else if rs < z.window / 2 then ({ cd with draining := true }, true)
    else (cd, true)
  else (cd, true)

/-- The increments for a chunk. -/
structure Incs where
  phase : Nat
  shift : Nat
  reset : Bool
deriving DecidableEq, Repr

/-- StretcherProcess.cpp:651-722 `getIncrements`: the channel, the increments, and whether there was data. -/
def getIncrements (z : Sizes) (incs : List Int) (cd : Chan α σ ρ) : Chan α σ ρ × Incs × Bool :=
  if incs.length = 0 then (cd, ⟨z.increment, z.increment, false⟩, false)
  else
    let got := decide (cd.chunkCount < incs.length)
    let k := if cd.chunkCount ≥ incs.length then incs.length - 1 else cd.chunkCount
    let phase := incs.getD k 0
    let shift := if k + 1 < incs.length then incs.getD (k + 1) 0 else phase
    ({ cd with chunkCount := k }, ⟨phase.natAbs, shift.natAbs, decide (phase < 0) || k == 0⟩, got)

/-- StretcherProcess.cpp:1138-1141 `startSkip`. -/
def startSkip (p : Params) (z : Sizes) : Nat := if p.realTime then 0 else (lrint ((z.window / 2 : Nat) / z.pitchScale)).toNat

/-- StretcherProcess.cpp:1127-1189 `writeOutput`. -/
def writeOutput (skip theoretical : Nat) (cd : Chan α σ ρ) (out : List α) : Chan α σ ρ :=
  if cd.outCount > skip then
    let qty := if theoretical > 0 ∧ cd.outCount - skip ≤ theoretical ∧ cd.outCount - skip + out.length > theoretical
      then theoretical - (cd.outCount - skip) else out.length
    { cd with outbuf := cd.outbuf.write (out.take qty), outCount := cd.outCount + min qty cd.outbuf.writeSpace }
  else if cd.outCount + out.length ≤ skip then { cd with outCount := cd.outCount + out.length }
  else { cd with outbuf := cd.outbuf.write (out.drop (skip - cd.outCount)), outCount := cd.outCount + out.length }

/-- StretcherProcess.cpp:1058-1061 `theoreticalOut`. -/
def theoreticalOut (z : Sizes) (cd : Chan α σ ρ) : Nat :=
  match cd.inputSize with
  | some n => (lrint (n * z.timeRatio)).toNat
  | none => 0

/-- StretcherProcess.cpp:1063-1104: what is to be written, after the resampler if it is used. -/
def resampled (p : Params) (env : Env α σ ρ κ) (z : Sizes) (cd : Chan α σ ρ) (mix : List α) (last : Bool) : Chan α σ ρ × List α :=
  match cd.resampler, !resampleBefore p z.pitchScale && (decide (z.pitchScale ≠ 1) || p.highConsistency) with
  | some r, true =>
    let room := max cd.resamplebufSize ((mix.length : Rat) / z.pitchScale).ceil.toNat
    let (r, out) := env.resample r room mix (1 / z.pitchScale) last
    ({ cd with resampler := some r, resamplebufSize := room }, out.take room)
  | _, _ => (cd, mix)

/-- StretcherProcess.cpp:1112-1121. -/
def lessFill (si : Nat) (cd : Chan α σ ρ) : Chan α σ ρ :=
  if cd.accumulatorFill > si then { cd with accumulatorFill := cd.accumulatorFill - si }
  else { cd with accumulatorFill := 0, outputComplete := cd.outputComplete || cd.draining }

/-- StretcherProcess.cpp:1033-1125 `writeChunk`.  With more than is in the accumulator, the count of `v_move` would be negative. -/
def writeChunk (p : Params) (env : Env α σ ρ κ) (z : Sizes) (si : Nat) (last : Bool) (cd : Chan α σ ρ) : Option (Chan α σ ρ) :=
  if si > cd.accumulatorFill then none
  else
    let (cd, out) := resampled p env z cd ((List.range si).map (env.emit cd.spec)) last
    let cd := writeOutput (startSkip p z) (theoreticalOut z cd) cd out
    some (lessFill si { cd with spec := env.shift cd.spec cd.accumulatorFill si })

/-- StretcherProcess.cpp:483-514: the output buffer made longer. -/
def ensureOutbuf (z : Sizes) (si : Nat) (cd : Chan α σ ρ) : Chan α σ ρ :=
  let required := if z.pitchScale ≠ 1 then ((si : Rat) / z.pitchScale).floor.toNat + 1 else si
  if cd.outbuf.writeSpace < required then { cd with outbuf := cd.outbuf.resized (cd.outbuf.cap * 2) } else cd

/-- StretcherProcess.cpp:439-464: the spectral processing, if the channel is not being drained; `accumulatorFill` is set at 1019. -/
def spectral (env : Env α σ ρ κ) (z : Sizes) (i : Incs) (cd : Chan α σ ρ) : Chan α σ ρ :=
  if cd.draining then cd
  else
    let (spec, flt) := env.synthesise cd.spec cd.fltbuf i.phase i.shift i.reset
    { cd with spec := spec, fltbuf := flt, accumulatorFill := max cd.accumulatorFill z.window }

/-- StretcherProcess.cpp:421-519 `processChunkForChannel`: the channel, and whether this is its last chunk. -/
def processChunk (p : Params) (env : Env α σ ρ κ) (z : Sizes) (i : Incs) (cd : Chan α σ ρ) : Option (Chan α σ ρ × Bool) :=
  let cd := spectral env z i cd
  if cd.draining then
    if cd.accumulatorFill = 0 then some (cd, true)
    else
      let si := if i.shift = 0 then z.increment else i.shift
      let last := decide (cd.accumulatorFill ≤ si)
      let si := if last then cd.accumulatorFill else si
      (writeChunk p env z si last (ensureOutbuf z si cd)).map fun cd => (cd, last)
  else (writeChunk p env z i.shift false (ensureOutbuf z i.shift cd)).map fun cd => (cd, false)

/-- StretcherProcess.cpp:287-292 (and 351-357, without the analysis): the frame is taken from the buffer.  What is in `fltbuf` beyond the
samples there are stays. -/
def takeFrame (z : Sizes) (cd : Chan α σ ρ) : Chan α σ ρ :=
  if cd.draining then cd
  else
    let frame := cd.inbuf.peek z.window
    { cd with fltbuf := fun i => frame.getD i (cd.fltbuf i), inbuf := cd.inbuf.skip z.increment }

/-- StretcherProcess.cpp:724-743 `analyseChunk`. -/
def analyseChunk (env : Env α σ ρ κ) (z : Sizes) (cd : Chan α σ ρ) : Chan α σ ρ :=
  let (spec, flt) := env.analyse cd.spec ((List.range z.window).map cd.fltbuf)
  { cd with spec := spec, fltbuf := flt }

/-- StretcherProcess.cpp:308-318, the loop: an overlong increment is broken down.  `tmp` is what was in `fltbuf`; `done` is `i`. -/
def brokenDown (p : Params) (env : Env α σ ρ κ) (z : Sizes) (tmp : Nat → α) : (fuel done : Nat) → Incs → (last : Bool) → Chan α σ ρ →
    Option (Chan α σ ρ × Bool)
  | 0, done, i, last, cd => if done < i.shift then none else some (cd, last)
  | fuel + 1, done, i, last, cd =>
    if done < i.shift then do
      let bit := z.window / 4
      let this := if done + bit > i.shift then i.shift - done else bit
      let (cd, last) ← processChunk p env z ⟨i.phase + done, this, i.reset⟩ { cd with fltbuf := tmp }
      brokenDown p env z tmp fuel (done + bit) { i with reset := false } last cd
    else some (cd, last)

/-- StretcherProcess.cpp:298-319: a chunk analysed and processed. -/
def chunk (p : Params) (env : Env α σ ρ κ) (z : Sizes) (i : Incs) (cd : Chan α σ ρ) : Option (Chan α σ ρ × Bool) :=
  let cd := analyseChunk env z cd
  if i.shift ≤ z.window then processChunk p env z i cd
  else brokenDown p env z cd.fltbuf i.shift 0 i false cd

/-- StretcherProcess.cpp:278-324, a round of the loop of `processChunks`: the channel, and whether to go on. -/
def chunkRound (p : Params) (env : Env α σ ρ κ) (z : Sizes) (incs : List Int) (cd : Chan α σ ρ) : Option (Chan α σ ρ × Bool) :=
  let (cd, ready) := testInbuf z cd
  if ready then do
    let (cd, i, _) := getIncrements z incs (takeFrame z cd)
    let (cd, last) ← chunk p env z i cd
    pure ({ cd with chunkCount := cd.chunkCount + 1 }, !last)
  else some (cd, false)

/-- StretcherProcess.cpp:262-328 `processChunks`, the loop. -/
def chunkLoop (p : Params) (env : Env α σ ρ κ) (z : Sizes) (incs : List Int) : (fuel : Nat) → Chan α σ ρ → Option (Chan α σ ρ)
  | 0, _ => none
  | fuel + 1, cd => (chunkRound p env z incs cd).bind fun (cd, more) => if more then chunkLoop p env z incs fuel cd else some cd

/-- StretcherProcess.cpp:262-328 `processChunks`.  The number of rounds allowed is more than it takes. -/
def processChunks (p : Params) (env : Env α σ ρ κ) (z : Sizes) (incs : List Int) (cd : Chan α σ ρ) : Option (Chan α σ ρ) :=
  chunkLoop p env z incs (cd.inbuf.readSpace + cd.accumulatorFill + z.window + 3) cd

/-! ## All channels, in real time -/

/-- StretcherProcess.cpp:345-359: a frame from each channel; `false` if one has not got enough. -/
def takeFrames (env : Env α σ ρ κ) (z : Sizes) : List (Chan α σ ρ) → List (Chan α σ ρ) × Bool
  | [] => ([], true)
  | cd :: cds =>
    let (cd, ready) := testInbuf z cd
    if ready then
      let cd := if cd.draining then cd else analyseChunk env z (takeFrame z cd)
      let (cds, ready) := takeFrames env z cds
      (cd :: cds, ready)
    else (cd :: cds, false)

/-- StretcherProcess.cpp:600-608: the result of the stretch calculator. -/
def single (env : Env α σ ρ κ) (z : Sizes) (calculator : Calc) (resampler : Option ρ) (df : Rat) : Calc × Int :=
  let pitchRatio := match resampler with
    | some r => env.effective r (1 / z.pitchScale)
    | none => 1 / z.pitchScale
  calculateSingle calculator
    { timeRatio := z.timeRatio, pitchRatio := pitchRatio, df := df, inIncrement := z.increment,
      analysisWindowSize := z.window, synthesisWindowSize := z.window, alignFrameStarts := false }

/-- StretcherProcess.cpp:521-649 `calculateIncrements`. -/
def calculateIncrements (env : Env α σ ρ κ) (s : State α σ ρ κ) : State α σ ρ κ × Incs :=
  match s.chans with
  | [] => (s, ⟨s.sizes.increment, s.sizes.increment, false⟩)
  | cd :: cds =>
    if cds.all fun d => d.chunkCount == cd.chunkCount then
      let (curves, df, silent) := env.curve s.curves (s.chans.map fun d => d.spec)
      let (calculator, incr) := single env s.sizes s.calculator cd.resampler df
      let history := if silent then s.silentHistory + 1 else 0
      ({ s with
          curves := curves, calculator := calculator, silentHistory := history,
          chans := { cd with prevIncrement := incr.natAbs } :: cds },
        ⟨if cd.prevIncrement = 0 then incr.natAbs else cd.prevIncrement, incr.natAbs,
          decide (incr < 0) || decide (history ≥ s.sizes.window / s.sizes.increment)⟩)
    else (s, ⟨s.sizes.increment, s.sizes.increment, false⟩)

/-- StretcherProcess.cpp:361-365. -/
def chooseIncrements (env : Env α σ ρ κ) (s : State α σ ρ κ) : State α σ ρ κ × Incs :=
  match s.chans with
  | [] => calculateIncrements env s
  | cd :: cds =>
    let (cd, i, got) := getIncrements s.sizes s.outputIncrements cd
    if got then ({ s with chans := cd :: cds }, i) else calculateIncrements env { s with chans := cd :: cds }

/-- StretcherProcess.cpp:367-371: the chunk of each channel; the last says whether it is the last chunk. -/
def eachChunk (p : Params) (env : Env α σ ρ κ) (z : Sizes) (i : Incs) : List (Chan α σ ρ) → (last : Bool) → Option (List (Chan α σ ρ) × Bool)
  | [], last => some ([], last)
  | cd :: cds, _ => do
    let (cd, last) ← processChunk p env z i cd
    let (cds, last) ← eachChunk p env z i cds last
    pure ({ cd with chunkCount := cd.chunkCount + 1 } :: cds, last)

/-- StretcherProcess.cpp:330-373 `processOneChunk`. -/
def processOneChunk (p : Params) (env : Env α σ ρ κ) (s : State α σ ρ κ) : Option (State α σ ρ κ × Bool) :=
  let (chans, ready) := takeFrames env s.sizes s.chans
  let s := { s with chans := chans }
  if ready then do
    let (s, i) := chooseIncrements env s
    let (chans, last) ← eachChunk p env s.sizes i s.chans false
    pure ({ s with chans := chans }, last)
  else some (s, false)

/-! ## Processing -/

/-- StretcherChannelData.cpp:254-282 `reset`. -/
def Chan.reset (env : Env α σ ρ κ) (cd : Chan α σ ρ) : Chan α σ ρ :=
  { cd with
    inbuf := cd.inbuf.reset, outbuf := cd.outbuf.reset, resampler := cd.resampler.map env.rsReset, spec := env.specReset cd.spec,
    accumulatorFill := 0, prevIncrement := 0, chunkCount := 0, inCount := 0, inputSize := none, outCount := 0, draining := false,
    outputComplete := false }

/-- R2Stretcher.cpp:716-720 and 1260-1268: reset and filled with half a window of zeros. -/
def Chan.prefill [Zero α] (env : Env α σ ρ κ) (z : Sizes) (cd : Chan α σ ρ) : Chan α σ ρ :=
  let cd := cd.reset env
  { cd with inbuf := cd.inbuf.zero (z.window / 2) }

/-- R2Stretcher.cpp:1155-1166: phase resets in silence. -/
def silenced (needed : Nat) : (history : Nat) → List Bool → List Int → List Int
  | _, [], incs => incs
  | _, _, [] => []
  | history, silent :: silence, i :: incs =>
    let history := if silent then history + 1 else 0
    (if history ≥ needed ∧ i ≥ 0 then -i else i) :: silenced needed history silence incs

/-- R2Stretcher.cpp:1138-1176 `calculateStretch`.  The duration is not used by the calculator (`calculate` in `Verif.StretchCalc`). -/
def calculateStretch (s : State α σ ρ κ) : Option (State α σ ρ κ) := do
  let incs ← calculate s.calculator (s.sizes.timeRatio * s.sizes.pitchScale) s.phaseResetDf
  pure { s with outputIncrements := s.outputIncrements ++ silenced (s.sizes.window / s.sizes.increment) 0 s.silence incs }

/-- R2Stretcher.cpp:1310-1335, for a channel: `consumeChannel`, the size of the input if all of it is in, and `processChunks` offline.  `used` is
`consumed[c]`. -/
def channelRound [Add α] [Sub α] (p : Params) (env : Env α σ ρ κ) (z : Sizes) (incs : List Int) (c : Nat) (input : List (Frame α)) (final : Bool)
    (cd : Chan α σ ρ) (used : Nat) : Option (Chan α σ ρ × Nat) := do
  let (cd, n) ← consumeChannel p env z c cd (input.drop used) final
  let cd := if used + n ≥ input.length ∧ final = true then { cd with inputSize := some cd.inCount } else cd
  let cd ← if p.realTime then some cd else processChunks p env z incs cd
  pure (cd, used + n)

/-- R2Stretcher.cpp:1310-1335 for all channels, from channel `c` on. -/
def channelsRound [Add α] [Sub α] (p : Params) (env : Env α σ ρ κ) (z : Sizes) (incs : List Int) (input : List (Frame α)) (final : Bool) :
    (c : Nat) → List (Chan α σ ρ × Nat) → Option (List (Chan α σ ρ × Nat))
  | _, [] => some []
  | c, (cd, used) :: rest => do
    let x ← channelRound p env z incs c input final cd used
    let xs ← channelsRound p env z incs input final (c + 1) rest
    pure (x :: xs)

/-- R2Stretcher.cpp:1297-1343, a round of the loop of `process`: `used` is `consumed`. -/
def processRound [Add α] [Sub α] (p : Params) (env : Env α σ ρ κ) (input : List (Frame α)) (final : Bool) (s : State α σ ρ κ) (used : List Nat) :
    Option (State α σ ρ κ × List Nat) := do
  let xs ← channelsRound p env s.sizes s.outputIncrements input final 0 (s.chans.zip used)
  let s := { s with chans := xs.map fun x => x.1 }
  let s ← if p.realTime then (processOneChunk p env s).map fun x => x.1 else some s
  pure (s, xs.map fun x => x.2)

/-- R2Stretcher.cpp:1297-1356, the loop of `process`. -/
def processLoop [Add α] [Sub α] (p : Params) (env : Env α σ ρ κ) (input : List (Frame α)) (final : Bool) :
    (fuel : Nat) → State α σ ρ κ → List Nat → Option (State α σ ρ κ)
  | 0, _, _ => none
  | fuel + 1, s, used =>
    (processRound p env input final s used).bind fun (s, used) =>
      if used.all fun n => decide (n ≥ input.length) then some s else processLoop p env input final fuel s used

/-- R2Stretcher.cpp:1252-1286: what comes first. -/
def prologue [Zero α] (env : Env α σ ρ κ) (s : State α σ ρ κ) : Option (State α σ ρ κ) :=
  match s.mode with
  | .studying => (calculateStretch s).map fun s =>
      { s with chans := s.chans.map (Chan.prefill env s.sizes), mode := .processing }
  | .justCreated => some { s with mode := .processing }
  | _ => some s

/-- More rounds than the loop of `process` takes unless it does not end. -/
def rounds (s : State α σ ρ κ) (input : List (Frame α)) : Nat := (input.length + 2) * ((s.chans.map fun cd => cd.inbuf.cap).foldl max 0 + 2)

/-- R2Stretcher.cpp:1240-1359 `process`. -/
def process [Zero α] [Add α] [Sub α] (p : Params) (env : Env α σ ρ κ) (s : State α σ ρ κ) (input : List (Frame α)) (final : Bool) :
    Option (State α σ ρ κ) :=
  if s.mode = .finished then some s
  else do
    let s ← prologue env s
    let s ← processLoop p env input final (rounds s input) s (List.replicate s.chans.length 0)
    pure { s with mode := if final then .finished else s.mode }

/-! ## Output -/

/-- StretcherProcess.cpp:1214-1221, the loop of `available` in real time. -/
def finishLoop (p : Params) (env : Env α σ ρ κ) : (fuel : Nat) → State α σ ρ κ → Option (State α σ ρ κ)
  | 0, _ => none
  | fuel + 1, s =>
    match s.chans with
    | [] => some s
    | cd :: _ =>
      if cd.inbuf.readSpace > 0 ∨ cd.draining = true then
        (processOneChunk p env s).bind fun (s, last) => if last then some s else finishLoop p env fuel s
      else some s

/-- StretcherProcess.cpp:1223-1230, the loop of `available` offline. -/
def finishEach (p : Params) (env : Env α σ ρ κ) (z : Sizes) (incs : List Int) : List (Chan α σ ρ) → Option (List (Chan α σ ρ))
  | [] => some []
  | cd :: cds => do
    let cd ← if cd.inbuf.readSpace > 0 then processChunks p env z incs cd else some cd
    let cds ← finishEach p env z incs cds
    pure (cd :: cds)

/-- StretcherProcess.cpp:1207-1232: what is left is processed. -/
def finish (p : Params) (env : Env α σ ρ κ) (s : State α σ ρ κ) : Option (State α σ ρ κ) :=
  match s.chans with
  | [] => some s
  | cd :: _ =>
    if cd.inputSize.isSome then
      if p.realTime then finishLoop p env (cd.inbuf.readSpace + cd.accumulatorFill + s.sizes.window + 3) s
      else (finishEach p env s.sizes s.outputIncrements s.chans).map fun chans => { s with chans := chans }
    else some s

/-- StretcherProcess.cpp:1242-1249: the least that there is in the output buffers. -/
def least : List (Chan α σ ρ) → Nat
  | [] => 0
  | [cd] => cd.outbuf.readSpace
  | cd :: cds => min cd.outbuf.readSpace (least cds)

/-- StretcherProcess.cpp:1238-1265, the result of `available`. -/
def count (s : State α σ ρ κ) : Int :=
  if s.chans = [] then 0
  else if least s.chans = 0 ∧ s.chans.all (fun cd => cd.outputComplete) = true then -1
  else if s.sizes.pitchScale = 1 then least s.chans
  else if s.chans.any (fun cd => cd.resampler.isSome) then least s.chans
  else (((least s.chans : Nat) : Rat) / s.sizes.pitchScale).floor

/-- StretcherProcess.cpp:1191-1265 `available`. -/
def available (p : Params) (env : Env α σ ρ κ) (s : State α σ ρ κ) : Option (State α σ ρ κ × Int) :=
  (finish p env s).map fun s => (s, count s)

/-- StretcherProcess.cpp:1274-1284: what each channel gives, what is left, and the count. -/
def readChannels : List (Chan α σ ρ) → Nat → List (Chan α σ ρ) × List (List α) × Nat
  | [], got => ([], [], got)
  | cd :: cds, got =>
    let here := cd.outbuf.peek got
    let (cds', outs, got') := readChannels cds (if here.length < got then here.length else got)
    ({ cd with outbuf := cd.outbuf.skip got } :: cds', here :: outs, got')

/-- StretcherProcess.cpp:1286-1297: from mid and side to left and right, in the first `got` places. -/
def decode [Add α] [Sub α] (got : Nat) : List (List α) → List (List α)
  | m :: s :: rest =>
    (List.zipWith (· + ·) (m.take got) (s.take got) ++ m.drop got) ::
      (List.zipWith (· - ·) (m.take got) (s.take got) ++ s.drop got) :: rest
  | l => l

/-- StretcherProcess.cpp:1267-1301 `retrieve`: the state, what is put in the array of each channel, and the result. -/
def retrieve [Add α] [Sub α] (p : Params) (s : State α σ ρ κ) (samples : Nat) : State α σ ρ κ × List (List α) × Nat :=
  let (chans, outs, got) := readChannels s.chans samples
  ({ s with chans := chans }, if p.channelsTogether && decide (p.channels ≥ 2) then decode got outs else outs, got)

/-- R2Stretcher.cpp:1195-1231: what the channels require. -/
def requiredBy (z : Sizes) : List (Chan α σ ρ) → (reqd : Nat) → Nat
  | [], reqd => reqd
  | cd :: cds, reqd =>
    let rs := cd.inbuf.readSpace
    let reqd := if cd.outbuf.readSpace = 0 ∧ reqd = 0 then z.increment else reqd
    requiredBy z cds
      (if rs < z.window ∧ cd.draining = false then
        if cd.inputSize.isNone then max reqd (z.window - rs) else if rs = 0 then max reqd z.window else reqd
      else reqd)

/-- R2Stretcher.cpp:1187-1238 `getSamplesRequired`. -/
def getSamplesRequired (p : Params) (s : State α σ ρ κ) : Nat :=
  let reqd := requiredBy s.sizes s.chans 0
  if resampleBefore p s.sizes.pitchScale && decide (s.sizes.pitchScale > 1) then ((reqd : Rat) * s.sizes.pitchScale).ceil.toNat else reqd

/-- R2Stretcher.cpp:834-846 `getPreferredStartPad`. -/
def getPreferredStartPad (p : Params) (s : State α σ ρ κ) : Nat :=
  if !p.realTime then 0
  else if resampleBefore p s.sizes.pitchScale then (((s.sizes.window / 2 : Nat) : Rat) * s.sizes.pitchScale).ceil.toNat
  else s.sizes.window / 2

/-- R2Stretcher.cpp:848-860 `getStartDelay`. -/
def getStartDelay (p : Params) (s : State α σ ρ κ) : Nat :=
  if !p.realTime then 0
  else if resampleBefore p s.sizes.pitchScale then s.sizes.window / 2
  else (((s.sizes.window / 2 : Nat) : Rat) / s.sizes.pitchScale).ceil.toNat

/-! ## Configuration -/

/-- R2Stretcher.cpp:381-558 `calculateSizes`, all of it, the ratios having been set to those given. -/
def resize (p : Params) (s : State α σ ρ κ) (timeRatio pitchScale : R3.Dbl) : Option (State α σ ρ κ) := do
  let z ← calculateSizes p s.expected timeRatio pitchScale
  let m := max s.maxProcessSize z.window
  let o := (max ((m : Rat) / z.pitchScale) ((m * 2 : Nat) * (if z.timeRatio > 1 then z.timeRatio else 1))).ceil.toNat
  pure { s with sizes := z, maxProcessSize := m, outbufSize := if p.realTime then o * 16 else o }

/-- StretcherChannelData.cpp:50-110 `construct`; R2Stretcher.cpp:600-611 for `sizes`. -/
def newChan [Zero α] (p : Params) (env : Env α σ ρ κ) (z : Sizes) (outbufSize : Nat) : Option (Chan α σ ρ) := do
  let base ← baseFftSize p
  let m := max (max (z.window * 2) z.fftSize) (if p.realTime then base * 2 else 0)
  pure { inbuf := ⟨m, []⟩, outbuf := ⟨max outbufSize m, []⟩, fltbuf := fun _ => 0, spec := env.specReset env.specInit }

/-- R2Stretcher.cpp:676-681 and 784-787 `rbs`. -/
def resamplebufFor (z : Sizes) : Nat :=
  max (max (lrint (((z.increment * z.timeRatio * 2) / z.pitchScale).ceil)).toNat (z.increment * 16)) (z.window * 2)

/-- R2Stretcher.cpp:649-683: a resampler if need be. -/
def Chan.withResampler (p : Params) (env : Env α σ ρ κ) (z : Sizes) (cd : Chan α σ ρ) : Chan α σ ρ :=
  if (decide (z.pitchScale ≠ 1) || p.highConsistency || p.realTime) && cd.resampler.isNone then
    { cd with resampler := some env.rsInit, resamplebufSize := resamplebufFor z }
  else cd

/-- R2Stretcher.cpp:560-724 `configure`, the ratios having been set to those given.  `first` is `m_windows.empty()`. -/
def configure [Zero α] (p : Params) (env : Env α σ ρ κ) (first : Bool) (s : State α σ ρ κ) (timeRatio pitchScale : R3.Dbl) :
    Option (State α σ ρ κ) := do
  let t ← resize p s timeRatio pitchScale
  let fresh ← newChan p env t.sizes t.outbufSize
  let chans := if first || decide (t.sizes.window ≠ s.sizes.window) || decide (t.outbufSize ≠ s.outbufSize)
    then List.replicate p.channels fresh else s.chans
  let chans := chans.map (Chan.withResampler p env t.sizes)
  pure { t with
    chans := if p.realTime then chans else chans.map (Chan.prefill env t.sizes),
    curves := env.curveInit t.sizes.fftSize,
    calculator := { sampleRate := p.rate, increment := t.sizes.increment, useHardPeaks := !p.transientsSmooth },
    inputDuration := 0 }

/-- StretcherChannelData.cpp:113-201 `setSizes`. -/
def Chan.setSizes [Zero α] (env : Env α σ ρ κ) (window fftSize : Nat) (cd : Chan α σ ρ) : Chan α σ ρ :=
  let m := 2 * max window fftSize
  { cd with
    inbuf := if cd.inbuf.cap ≥ m then cd.inbuf else cd.inbuf.resized m,
    fltbuf := fun _ => 0, spec := env.specSizes cd.spec window fftSize }

/-- StretcherChannelData.cpp:203-217 `setOutbufSize`. -/
def Chan.setOutbufSize (n : Nat) (cd : Chan α σ ρ) : Chan α σ ρ :=
  { cd with outbuf := if cd.outbuf.cap < n then cd.outbuf.resized n else cd.outbuf }

/-- R2Stretcher.cpp:726-832 `reconfigure`, the ratios having been set to those given.  Offline, nothing more changes after `configure`.  In real time there
always is a resampler. -/
def reconfigure [Zero α] (p : Params) (env : Env α σ ρ κ) (s : State α σ ρ κ) (timeRatio pitchScale : R3.Dbl) : Option (State α σ ρ κ) :=
  if p.realTime then do
    let t ← resize p s timeRatio pitchScale
    let chans := if t.sizes.window ≠ s.sizes.window then t.chans.map (Chan.setSizes env t.sizes.window t.sizes.fftSize) else t.chans
    let chans := if t.outbufSize ≠ s.outbufSize then chans.map (Chan.setOutbufSize t.outbufSize) else chans
    pure { t with chans := chans, curves := if t.sizes.fftSize ≠ s.sizes.fftSize then env.curveSizes t.curves t.sizes.fftSize else t.curves }
  else do
    let s ← if s.mode = .studying then (calculateStretch s).map fun s => { s with phaseResetDf := [], silence := [], inputDuration := 0 }
      else some s
    configure p env false s timeRatio pitchScale

/-- R2Stretcher.cpp:58-160, the constructor. -/
def create [Zero α] (p : Params) (env : Env α σ ρ κ) (timeRatio pitchScale : R3.Dbl) : Option (State α σ ρ κ) :=
  configure p env true
    { sizes := ⟨1, 1, 0, 0, 0⟩, outbufSize := 0, maxProcessSize := 0, expected := 0, inputDuration := 0, mode := .justCreated, chans := [],
      calculator := { sampleRate := p.rate, increment := 1, useHardPeaks := true }, curves := env.curveInit 0,
      outputIncrements := [], phaseResetDf := [], silence := [], silentHistory := 0 }
    timeRatio pitchScale

/-- R2Stretcher.cpp:196-236 `reset`. -/
def reset [Zero α] (p : Params) (env : Env α σ ρ κ) (s : State α σ ρ κ) : Option (State α σ ρ κ) :=
  reconfigure p env
    { s with
      calculator := StretchCalc.reset s.calculator, chans := s.chans.map (Chan.reset env), mode := .justCreated,
      curves := env.curveReset s.curves, expected := 0, maxProcessSize := 0, inputDuration := 0, silentHistory := 0 }
    (.fin s.sizes.timeRatio) (.fin s.sizes.pitchScale)

/-- Whether a setter must do nothing (R2Stretcher.cpp:241-246, 257-262). -/
def locked (p : Params) (s : State α σ ρ κ) : Bool := !p.realTime && (s.mode == .studying || s.mode == .processing)

/-- R2Stretcher.cpp:238-252 `setTimeRatio`. -/
def setTimeRatio [Zero α] (p : Params) (env : Env α σ ρ κ) (s : State α σ ρ κ) (ratio : R3.Dbl) : Option (State α σ ρ κ) :=
  if locked p s then some s
  else if ratio.feq (.fin s.sizes.timeRatio) then some s
  else reconfigure p env s ratio (.fin s.sizes.pitchScale)

/-- R2Stretcher.cpp:274-284: the resamplers reset when the place of resampling has changed. -/
def resetResamplers (p : Params) (env : Env α σ ρ κ) (was : Rat) (s : State α σ ρ κ) : State α σ ρ κ :=
  if !p.highConsistency && (decide (was = 1) || resampleBefore p s.sizes.pitchScale != resampleBefore p was) && decide (s.sizes.pitchScale ≠ 1) then
    { s with chans := s.chans.map fun cd => { cd with resampler := cd.resampler.map env.rsReset } }
  else s

/-- R2Stretcher.cpp:254-284 `setPitchScale`. -/
def setPitchScale [Zero α] (p : Params) (env : Env α σ ρ κ) (s : State α σ ρ κ) (scale : R3.Dbl) : Option (State α σ ρ κ) :=
  if locked p s then some s
  else if scale.feq (.fin s.sizes.pitchScale) then some s
  else (reconfigure p env s (.fin s.sizes.timeRatio) scale).map (resetResamplers p env s.sizes.pitchScale)

/-- R2Stretcher.cpp:298-305 `setExpectedInputDuration`. -/
def setExpectedInputDuration [Zero α] (p : Params) (env : Env α σ ρ κ) (s : State α σ ρ κ) (samples : Nat) : Option (State α σ ρ κ) :=
  if samples = s.expected then some s
  else reconfigure p env { s with expected := samples } (.fin s.sizes.timeRatio) (.fin s.sizes.pitchScale)

/-- R2Stretcher.cpp:307-317 `setMaxProcessSize`. -/
def setMaxProcessSize [Zero α] (p : Params) (env : Env α σ ρ κ) (s : State α σ ρ κ) (samples : Nat) : Option (State α σ ρ κ) :=
  if samples ≤ s.maxProcessSize then some s
  else reconfigure p env { s with maxProcessSize := samples } (.fin s.sizes.timeRatio) (.fin s.sizes.pitchScale)

/-- R2Stretcher.cpp:325-340 `setKeyFrameMap`. -/
def setKeyFrameMap (p : Params) (s : State α σ ρ κ) (m : List (Nat × Nat)) : State α σ ρ κ :=
  if p.realTime then s
  else if s.mode = .processing then s
  else { s with calculator := StretchCalc.setKeyFrameMap s.calculator m }

/-! ## Studying -/

/-- R2Stretcher.cpp:1008-1084, the inner loop of `study`, on channel 0. -/
def studyLoop (env : Env α σ ρ κ) (final : Bool) : (fuel : Nat) → State α σ ρ κ → Chan α σ ρ → Option (State α σ ρ κ × Chan α σ ρ)
  | 0, _, _ => none
  | fuel + 1, s, cd =>
    if cd.inbuf.readSpace ≥ s.sizes.window ∨ (final = true ∧ cd.inbuf.readSpace ≥ s.sizes.window / 2) then
      let (curves, spec, flt, df, silent) := env.studyCurve s.curves cd.spec (cd.inbuf.peek s.sizes.window)
      studyLoop env final fuel
        { s with
          curves := curves, phaseResetDf := s.phaseResetDf ++ [df], silence := s.silence ++ [silent],
          inputDuration := s.inputDuration + s.sizes.increment }
        { cd with
          spec := spec, fltbuf := fun i => if i ≤ s.sizes.fftSize / 2 then flt i else cd.fltbuf i, inbuf := cd.inbuf.skip s.sizes.increment }
    else some (s, cd)

/-- R2Stretcher.cpp:993-1085, the outer loop of `study`; `rest` is the mixed down input not taken in yet. -/
def studyInput (env : Env α σ ρ κ) (final : Bool) : (fuel : Nat) → State α σ ρ κ → Chan α σ ρ → List α → Option (State α σ ρ κ × Chan α σ ρ)
  | 0, s, cd, rest => if rest.length = 0 then some (s, cd) else none
  | fuel + 1, s, cd, rest =>
    if rest.length = 0 then some (s, cd)
    else do
      let n := min cd.inbuf.writeSpace rest.length
      let cd := { cd with inbuf := cd.inbuf.write (rest.take n) }
      let (s, cd) ← studyLoop env final (cd.inbuf.readSpace + 1) s cd
      studyInput env final fuel s cd (rest.drop n)

/-- R2Stretcher.cpp:1087-1093: the duration, at the end. -/
def studyEnd (final : Bool) (s : State α σ ρ κ) (cd : Chan α σ ρ) : State α σ ρ κ :=
  if final then
    let d := s.inputDuration + cd.inbuf.readSpace
    { s with inputDuration := if d > s.sizes.window / 2 then d - s.sizes.window / 2 else d }
  else s

/-- R2Stretcher.cpp:949-1096 `study`. -/
def study (p : Params) (env : Env α σ ρ κ) (s : State α σ ρ κ) (input : List (Frame α)) (final : Bool) : Option (State α σ ρ κ) :=
  if p.realTime then some s
  else if s.mode = .processing ∨ s.mode = .finished then some s
  else
    match s.chans with
    | [] => none
    | cd :: cds => do
      let mixed := input.map fun f => if p.channels > 1 || final then env.mixdown p.channels f else f 0
      let (s, cd) ← studyInput env final input.length { s with mode := .studying } cd mixed
      pure { studyEnd final s cd with chans := cd :: cds }

/-! ## Histories -/

/-- A call.  `available` counts as one, because it may process what is left. -/
inductive Call (α : Type) where
  | setTimeRatio (ratio : R3.Dbl)
  | setPitchScale (scale : R3.Dbl)
  | setExpectedInputDuration (samples : Nat)
  | setMaxProcessSize (samples : Nat)
  | setKeyFrameMap (m : List (Nat × Nat))
  | study (input : List (Frame α)) (final : Bool)
  | process (input : List (Frame α)) (final : Bool)
  | available
  | retrieve (samples : Nat)
  | reset

/-- The effect of a call, and the samples it delivers. -/
def call [Zero α] [Add α] [Sub α] (p : Params) (env : Env α σ ρ κ) (s : State α σ ρ κ) : Call α → Option (State α σ ρ κ × List (List α))
  | .setTimeRatio r => (setTimeRatio p env s r).map fun s => (s, [])
  | .setPitchScale r => (setPitchScale p env s r).map fun s => (s, [])
  | .setExpectedInputDuration n => (setExpectedInputDuration p env s n).map fun s => (s, [])
  | .setMaxProcessSize n => (setMaxProcessSize p env s n).map fun s => (s, [])
  | .setKeyFrameMap m => some (setKeyFrameMap p s m, [])
  | .study input final => (study p env s input final).map fun s => (s, [])
  | .process input final => (process p env s input final).map fun s => (s, [])
  | .available => (available p env s).map fun x => (x.1, [])
  | .retrieve n => some ((retrieve p s n).1, (retrieve p s n).2.1)
  | .reset => (reset p env s).map fun s => (s, [])

/-- The calls of a history, one after the other. -/
def run [Zero α] [Add α] [Sub α] (p : Params) (env : Env α σ ρ κ) : State α σ ρ κ → List (Call α) → Option (State α σ ρ κ × List (List (List α)))
  | s, [] => some (s, [])
  | s, c :: cs => do
    let (s, o) ← call p env s c
    let (s, os) ← run p env s cs
    pure (s, o :: os)

end Verif.R2
