import Verif.Fifo
import Verif.StretchCalc
import Verif.MathMisc
/-!
# Model of `src/finer/R3Stretcher.cpp`: everything but the spectral processing

What `analyseChannel`, `GuidedPhaseAdvance`, `adjustPreKick` and `synthesiseChannel` do to the
samples is a parameter (`Env.dsp`), as is what the resampler does to them.  Samples are of any
type, ratios are exact rationals, `int` and `size_t` do not overflow, a ring buffer is a bounded
queue (see `Verif.Fifo`).  `none` is an access outside an array, or a loop that has not ended.
There is at least one channel.  Logging and profiling are left out.
-/
namespace Verif.R3
open Verif.Round Verif.StretchCalc

/-! ## Floating point arguments -/

/-- A `double` as it may come from the caller. -/
inductive Dbl where
  | nan
  | inf (neg : Bool)
  | fin (q : Rat)
deriving DecidableEq

/-- `x <= 0.0`. -/
def Dbl.nonPos : Dbl → Bool
  | .nan => false
  | .inf neg => neg
  | .fin q => decide (q ≤ 0)

/-- `x / 2.0`. -/
def Dbl.half : Dbl → Dbl
  | .fin q => .fin (q / 2)
  | x => x

/-- `x == y`. -/
def Dbl.feq : Dbl → Dbl → Bool
  | .nan, _ => false
  | _, .nan => false
  | x, y => decide (x = y)

/-- `double(a) / double(b)`. -/
def Dbl.quotient (a b : Nat) : Dbl :=
  if b = 0 then (if a = 0 then .nan else .inf false) else .fin ((a : Rat) / b)

/-- The value of a finite number. -/
def Dbl.value : Dbl → Rat
  | .fin q => q
  | _ => 1

/-! ## Configuration -/

/-- The options that matter, and R3Stretcher.h:45-59 `Parameters`. -/
structure Params where
  sampleRate : Rat
  channels : Nat
  realTime : Bool := false
  highConsistency : Bool := false
  highQuality : Bool := false
  channelsTogether : Bool := false
  windowShort : Bool := false

/-- R3Stretcher.h:384-397 `validateSampleRate`. -/
def validRate (rate : Rat) : Rat := if rate < 8000 then 8000 else if rate > 192000 then 192000 else rate

/-- `roundUpDiv` (mathmisc.cpp:78-82), which is defined for all rates in range. -/
def pow2Div (rate : Rat) (divisor : Nat) : Nat := (MathMisc.roundUpDiv rate divisor).getD 0

namespace Params
variable (p : Params)

def rate : Rat := validRate p.sampleRate

/-- R3Stretcher.h:108-131 `Limits`. -/
def minPreferredOuthop : Nat := if p.windowShort then pow2Div p.rate 256 else pow2Div p.rate 512
def maxPreferredOuthop : Nat := if p.windowShort then pow2Div p.rate 128 * 5 / 4 else pow2Div p.rate 128
def _root_.Verif.R3.minInhop : Nat := 1
def maxInhopWithReadahead : Nat := if p.windowShort then pow2Div p.rate 128 else pow2Div p.rate 64
def maxInhop : Nat := if p.windowShort then pow2Div p.rate 64 * 3 / 2 else pow2Div p.rate 32
def _root_.Verif.R3.overallMaxProcessSize : Nat := 524288

/-- Guide.h:125-134, 136-187 (the sizes). -/
def classificationFftSize : Nat := if pow2Div p.rate 32 < 1024 then 1024 else pow2Div p.rate 32
def longestFftSize : Nat := if p.windowShort then p.classificationFftSize else p.classificationFftSize * 2
def shortestFftSize : Nat := if p.windowShort then p.classificationFftSize else p.classificationFftSize / 2

/-- The sizes of the scales (R3Stretcher.cpp:113-119, Guide.h:153-187). -/
def scales : List Nat := if p.windowShort then [p.classificationFftSize]
  else [p.longestFftSize, p.classificationFftSize, p.shortestFftSize]

/-- R3Stretcher.h:497-505 `getWindowSourceSize`. -/
def windowSourceSize : Nat :=
  let sz := p.classificationFftSize + p.maxInhopWithReadahead
  if p.longestFftSize > sz then p.longestFftSize else sz

/-- R3Stretcher.h:486-490 `useMidSide`. -/
def useMidSide : Bool := p.channels == 2 && p.channelsTogether

/-- R3Stretcher.cpp:93-94. -/
def ringBufferSize : Nat := p.windowSourceSize * 16

/-- R3Stretcher.cpp:96-97; the size of `ChannelData::resampled`. -/
def hopBufferSize : Nat := 2 * max p.maxInhop p.maxPreferredOuthop
end Params

/-- One sample for each channel. -/
abbrev Frame (α : Type) := Nat → α

/-- The arguments of the spectral processing of a round of `consume`. -/
structure Hop where
  inhop : Nat
  prevInhop : Nat
  prevOuthop : Nat
  outhop : Nat
  useReadahead : Bool
  draining : Bool
  timeRatio : Rat
  pitchScale : Rat
  formantScale : Dbl

/-- The parts of the engine that are not modelled. -/
structure Env (α σ ρ : Type) where
  /-- The state of the spectral processing at first. -/
  dspInit : σ
  /-- R3Stretcher.cpp:570-581 and 256-268 of the header: resetting it. -/
  dspReset : σ → σ
  /-- R3Stretcher.cpp:1031-1078: from the source window of each channel to its mixdown, as a function
  of channel and sample. -/
  dsp : σ → Hop → List (List α) → σ × (Nat → Nat → α)
  rsInit : ρ
  rsReset : ρ → ρ
  /-- Resampler::resample: room for output, input, ratio, whether final. -/
  resample : ρ → Nat → List (Frame α) → Rat → Bool → ρ × List (Frame α)
  /-- Resampler::getEffectiveRatio. -/
  effective : ρ → Rat → Rat
  /-- `pow(2.0, 8.0 + 2.0 * log10(x))`, R3Stretcher.cpp:363-367. -/
  curve : Rat → Rat
  /-- `x / 2.f`. -/
  halve : α → α

/-- R3Stretcher.h:366-372. -/
inductive Mode where
  | justCreated | studying | processing | finished
deriving DecidableEq, Repr

/-- R3Stretcher.h:336-373, the members.  `accumulatorFill` is that of channel 0 and the longest scale: all have
the same, as each is set in the same way by every `synthesiseChannel`.  `mixdownSize` is that of every channel. -/
structure State (α σ ρ : Type) where
  timeRatio : Rat
  pitchScale : Rat
  formantScale : Dbl := .fin 0
  inbuf : List (Fifo α)
  outbuf : List (Fifo α)
  mixdownSize : Nat
  accumulatorFill : Nat := 0
  calculator : Calc
  resampler : Option ρ := none
  useReadahead : Bool := true
  inhop : Nat := 1
  prevInhop : Nat := 1
  prevOuthop : Nat := 1
  startSkip : Nat := 0
  studyInputDuration : Nat := 0
  suppliedInputDuration : Nat := 0
  totalTargetDuration : Nat := 0
  consumedInputDuration : Nat := 0
  lastKeyFrameSurpassed : Nat := 0
  totalOutputDuration : Nat := 0
  keyFrameMap : List (Nat × Nat) := []
  mode : Mode := .justCreated
  dsp : σ

variable {α σ ρ : Type}

/-! ## Ratios and hops -/

/-- R3Stretcher.cpp:328-347: the time ratio and the pitch scale made valid. -/
def fixRatios (timeRatio pitchScale : Dbl) : Rat × Rat :=
  let pitchScale := if pitchScale.nonPos then .fin 1 else pitchScale
  let timeRatio := if timeRatio.nonPos then .fin 1 else timeRatio
  if !pitchScale.feq pitchScale || !timeRatio.feq timeRatio || pitchScale.feq pitchScale.half || timeRatio.feq timeRatio.half then (1, 1)
  else (timeRatio.value, pitchScale.value)

/-- R3Stretcher.cpp:363-385 `proposedOuthop`. -/
def proposedOuthop (p : Params) (curve : Rat → Rat) (ratio : Rat) : Rat :=
  let o : Rat := if ratio > 3 / 2 then curve (ratio - 1 / 2) else if ratio < 1 then curve ratio else 256
  let o := if p.windowShort then o * 2 else o
  let o := if o > p.maxPreferredOuthop then (p.maxPreferredOuthop : Rat) else o
  if o < p.minPreferredOuthop then (p.minPreferredOuthop : Rat) else o

/-- R3Stretcher.cpp:389-400 `m_inhop`. -/
def inhopFor (p : Params) (curve : Rat → Rat) (ratio : Rat) : Nat :=
  let i := proposedOuthop p curve ratio / ratio
  let i := if i < minInhop then (minInhop : Rat) else i
  let i := if i > p.maxInhop then (p.maxInhop : Rat) else i
  i.floor.toNat

/-- R3Stretcher.cpp:326-410 `calculateHop`, the ratios having been set to those given. -/
def calculateHop (p : Params) (env : Env α σ ρ) (s : State α σ ρ) (timeRatio pitchScale : Dbl) : State α σ ρ :=
  let (t, ps) := fixRatios timeRatio pitchScale
  let inhop := inhopFor p env.curve (t * ps)
  { s with
    timeRatio := t, pitchScale := ps, inhop := inhop,
    useReadahead := decide (inhop < p.maxInhopWithReadahead),
    prevInhop := if s.mode = .justCreated then inhop else s.prevInhop,
    prevOuthop := if s.mode = .justCreated then (roundAway (inhop * (t * ps))).toNat else s.prevOuthop }

/-- R3Stretcher.h:431-484 `areWeResampling`: before and after. -/
def areWeResampling (p : Params) (haveResampler : Bool) (pitchScale : Rat) : Bool × Bool :=
  if !haveResampler then (false, false)
  else if !p.realTime then (false, decide (pitchScale ≠ 1))
  else if p.highConsistency then (false, true)
  else if pitchScale ≠ 1 then
    if pitchScale > 1 then (if p.highQuality then (false, true) else (true, false))
    else if pitchScale < 1 then (if p.highQuality then (true, false) else (false, true))
    else (false, false)
  else (false, false)

def resamplingBefore (p : Params) (s : State α σ ρ) : Bool := (areWeResampling p s.resampler.isSome s.pitchScale).1
def resamplingAfter (p : Params) (s : State α σ ρ) : Bool := (areWeResampling p s.resampler.isSome s.pitchScale).2

/-- R3Stretcher.cpp:33-163, the constructor and `initialise`. -/
def create (p : Params) (env : Env α σ ρ) (timeRatio pitchScale : Dbl) : State α σ ρ :=
  calculateHop p env
    { timeRatio := 1, pitchScale := 1,
      inbuf := List.replicate p.channels ⟨p.ringBufferSize, []⟩,
      outbuf := List.replicate p.channels ⟨p.ringBufferSize, []⟩,
      mixdownSize := p.ringBufferSize,
      calculator := { sampleRate := (roundAway p.rate).toNat, increment := 1, useHardPeaks := false },
      resampler := if p.realTime then some env.rsInit else none,
      dsp := env.dspInit }
    timeRatio pitchScale

/-- Whether a setter must do nothing (R3Stretcher.cpp:207-213, 223-229, 239-245). -/
def locked (p : Params) (s : State α σ ρ) : Bool := !p.realTime && (s.mode == .studying || s.mode == .processing)

/-- R3Stretcher.cpp:204-218 `setTimeRatio`. -/
def setTimeRatio (p : Params) (env : Env α σ ρ) (s : State α σ ρ) (ratio : Dbl) : State α σ ρ :=
  if locked p s then s
  else if ratio.feq (.fin s.timeRatio) then s
  else calculateHop p env s ratio (.fin s.pitchScale)

/-- R3Stretcher.cpp:220-234 `setPitchScale`. -/
def setPitchScale (p : Params) (env : Env α σ ρ) (s : State α σ ρ) (scale : Dbl) : State α σ ρ :=
  if locked p s then s
  else if scale.feq (.fin s.pitchScale) then s
  else calculateHop p env s (.fin s.timeRatio) scale

/-- R3Stretcher.cpp:236-248 `setFormantScale`. -/
def setFormantScale (p : Params) (s : State α σ ρ) (scale : Dbl) : State α σ ρ :=
  if locked p s then s else { s with formantScale := scale }

/-- R3Stretcher.cpp:266-279 `setKeyFrameMap`; the map is in the order of its keys. -/
def setKeyFrameMap (p : Params) (s : State α σ ρ) (m : List (Nat × Nat)) : State α σ ρ :=
  if p.realTime then s
  else if s.mode = .processing ∨ s.mode = .finished then s
  else { s with keyFrameMap := m }

/-- `upper_bound`: the first entry with a greater key. -/
def upperBound (m : List (Nat × Nat)) (k : Nat) : Option (Nat × Nat) := m.find? fun e => decide (k < e.1)

/-- R3Stretcher.cpp:441-481: the ratio from the key frame `i0` to the next. -/
def segmentRatio (s : State α σ ρ) (i0 : Nat × Nat) : Dbl :=
  let (atInput, atOutput) := (upperBound s.keyFrameMap s.consumedInputDuration).getD (s.studyInputDuration, s.totalTargetDuration)
  if atInput > i0.1 then
    Dbl.quotient (if atOutput > i0.2 then atOutput - i0.2 else 1) (atInput - i0.1)
  else .fin 1

/-- R3Stretcher.cpp:412-491 `updateRatioFromMap`. -/
def updateRatioFromMap (p : Params) (env : Env α σ ρ) (s : State α σ ρ) : State α σ ρ :=
  match s.keyFrameMap with
  | [] => s
  | (key, target) :: _ =>
    if s.consumedInputDuration = 0 then
      { calculateHop p env s (Dbl.quotient target key) (.fin s.pitchScale) with lastKeyFrameSurpassed := 0 }
    else
      match upperBound s.keyFrameMap s.lastKeyFrameSurpassed with
      | none => s
      | some i0 =>
        if s.consumedInputDuration ≥ i0.1 then
          { calculateHop p env s (segmentRatio s i0) (.fin s.pitchScale) with lastKeyFrameSurpassed := i0.1 }
        else s

/-! ## Other calls -/

/-- R3Stretcher.cpp:551-584 `reset`. -/
def reset (p : Params) (env : Env α σ ρ) (s : State α σ ρ) : State α σ ρ :=
  calculateHop p env
    { s with
      inhop := 1, prevInhop := 1, prevOuthop := 1, startSkip := 0,
      studyInputDuration := 0, suppliedInputDuration := 0, totalTargetDuration := 0,
      consumedInputDuration := 0, lastKeyFrameSurpassed := 0, totalOutputDuration := 0,
      keyFrameMap := [], mode := .justCreated, calculator := StretchCalc.reset s.calculator,
      resampler := s.resampler.map env.rsReset, dsp := env.dspReset s.dsp,
      inbuf := s.inbuf.map Fifo.reset, outbuf := s.outbuf.map Fifo.reset, accumulatorFill := 0 }
    (.fin s.timeRatio) (.fin s.pitchScale)

/-- R3Stretcher.cpp:586-607 `study`. -/
def study (p : Params) (s : State α σ ρ) (samples : Nat) : State α σ ρ :=
  if p.realTime then s
  else if s.mode = .processing ∨ s.mode = .finished then s
  else { s with
    mode := .studying,
    studyInputDuration := (if s.mode = .justCreated then 0 else s.studyInputDuration) + samples }

/-- R3Stretcher.cpp:609-613 `setExpectedInputDuration`. -/
def setExpectedInputDuration (s : State α σ ρ) (samples : Nat) : State α σ ρ := { s with suppliedInputDuration := samples }

/-- `m_channelData[0]->inbuf` and `->outbuf`. -/
def in0 (s : State α σ ρ) : Fifo α := s.inbuf.headD ⟨0, []⟩
def out0 (s : State α σ ρ) : Fifo α := s.outbuf.headD ⟨0, []⟩

/-- R3Stretcher.cpp:676-677, 699-700: the new size of a ring buffer. -/
def grown (q : Fifo α) (required : Nat) : Nat := max (q.cap - q.writeSpace + required) (q.cap * 2)

/-- R3Stretcher.cpp:665-686 `ensureInbuf`. -/
def ensureInbuf (s : State α σ ρ) (required : Nat) : State α σ ρ :=
  if required < (in0 s).writeSpace then s
  else { s with
    inbuf := s.inbuf.map fun q => q.resized (grown (in0 s) required),
    mixdownSize := grown (in0 s) required }

/-- R3Stretcher.cpp:688-706 `ensureOutbuf`. -/
def ensureOutbuf (s : State α σ ρ) (required : Nat) : State α σ ρ :=
  if required < (out0 s).writeSpace then s
  else { s with outbuf := s.outbuf.map fun q => q.resized (grown (out0 s) required) }

/-- R3Stretcher.cpp:643-657 `setMaxProcessSize`. -/
def setMaxProcessSize (s : State α σ ρ) (requested : Nat) : State α σ ρ :=
  let n := if requested > overallMaxProcessSize then overallMaxProcessSize else requested
  ensureOutbuf (ensureInbuf s (n * 2)) (n * 8)

/-- R3Stretcher.cpp:877-886 `available`. -/
def available (s : State α σ ρ) : Int :=
  if (out0 s).readSpace = 0 ∧ s.mode = .finished then -1 else (out0 s).readSpace

/-- R3Stretcher.cpp:615-641 `getSamplesRequired`. -/
def getSamplesRequired (p : Params) (s : State α σ ρ) : Nat :=
  if available s ≠ 0 then 0
  else if (in0 s).readSpace < p.windowSourceSize then
    let req := p.windowSourceSize - (in0 s).readSpace
    if !resamplingBefore p s then req else ((req : Rat) * s.pitchScale).ceil.toNat
  else 0

/-! ## Consuming -/

/-- A block of samples to be written to the buffers of the channels. -/
def writeAll (bufs : List (Fifo α)) (block : List (Frame α)) : List (Fifo α) :=
  bufs.mapIdx fun c q => q.write (block.map fun f => f c)

/-- R3Stretcher.cpp:1011-1026: whether to stop. -/
def stops (p : Params) (final : Bool) (s : State α σ ρ) : Bool :=
  decide ((in0 s).readSpace < p.windowSourceSize) &&
    (if final then (in0 s).readSpace == 0 && s.accumulatorFill == 0 else true)

/-- R3Stretcher.cpp:1171-1182: the source window of a channel. -/
def sourceWindow [Zero α] (p : Params) (q : Fifo α) : List α :=
  q.peek p.windowSourceSize ++ List.replicate (p.windowSourceSize - q.readSpace) 0

/-- R3Stretcher.cpp:1195-1229: whether every frame cut lies within the source window. -/
def cutsInside (p : Params) (useReadahead : Bool) (inhop : Nat) : Bool :=
  p.scales.all (fun size => decide ((p.longestFftSize - size) / 2 + size ≤ p.windowSourceSize)) &&
    (!useReadahead ||
      decide ((p.longestFftSize - p.classificationFftSize) / 2 + inhop + p.classificationFftSize ≤ p.windowSourceSize))

/-- R3Stretcher.cpp:1080-1101: the frames to be emitted, and the resampler after that. -/
def resampleAfter (p : Params) (env : Env α σ ρ) (s : State α σ ρ) (final : Bool) (inhop outhop readSpace accumulatorFill : Nat)
    (mix : List (Frame α)) : Option ρ × List (Frame α) :=
  match s.resampler, resamplingAfter p s with
  | some r, true =>
    let finalHop := final && decide (readSpace < inhop) && decide (accumulatorFill ≤ outhop)
    let (r, out) := env.resample r p.hopBufferSize mix (1 / s.pitchScale) finalHop
    (some r, out.take p.hopBufferSize)
  | r, _ => (r, mix)

/-- R3Stretcher.cpp:1105-1119 `writeCount`. -/
def writeCountFor (p : Params) (s : State α σ ρ) (count : Nat) : Nat :=
  if !p.realTime && decide (s.totalTargetDuration > 0) && decide (s.totalOutputDuration + count > s.totalTargetDuration) then
    s.totalTargetDuration - s.totalOutputDuration
  else count

/-- R3Stretcher.cpp:1147-1158: skipping what the padding gave rise to. -/
def skipStart (s : State α σ ρ) : State α σ ρ :=
  if s.startSkip > 0 then
    let rs := (out0 s).readSpace
    let toSkip := min s.startSkip rs
    { s with
      outbuf := s.outbuf.map fun q => q.skip toSkip,
      startSkip := s.startSkip - toSkip,
      totalOutputDuration := rs - toSkip }
  else s

/-- R3Stretcher.cpp:1640-1665, `accumulatorFill` after `synthesiseChannel`. -/
def fillAfter (p : Params) (fill outhop : Nat) (draining : Bool) : Nat :=
  if draining then (if fill > outhop then fill - outhop else 0) else p.longestFftSize

/-- R3Stretcher.cpp:1103-1161: emitting, advancing, skipping. -/
def emit (p : Params) (s : State α σ ρ) (inhop outhop readSpace : Nat) (out : List (Frame α)) : State α σ ρ :=
  let writeCount := writeCountFor p s out.length
  let advance := if inhop > readSpace then readSpace else inhop
  let s := { s with
    outbuf := writeAll s.outbuf (out.take writeCount),
    inbuf := s.inbuf.map fun q => q.skip advance,
    consumedInputDuration := s.consumedInputDuration + advance,
    totalOutputDuration := s.totalOutputDuration + writeCount }
  { skipStart s with prevInhop := inhop, prevOuthop := outhop }

/-- R3Stretcher.cpp:1028-1161, a round of the loop of `consume`. -/
def consumeRound [Zero α] (p : Params) (env : Env α σ ρ) (final : Bool) (inhop outhop : Nat) (s : State α σ ρ) : Option (State α σ ρ) :=
  let readSpace := (in0 s).readSpace
  let s := ensureOutbuf s outhop
  if !cutsInside p s.useReadahead inhop || decide (outhop > p.longestFftSize) || decide (outhop > s.mixdownSize) then none
  else
    let (dsp, mix) := env.dsp s.dsp
      ⟨inhop, s.prevInhop, s.prevOuthop, outhop, s.useReadahead, readSpace == 0, s.timeRatio, s.pitchScale, s.formantScale⟩
      (s.inbuf.map (sourceWindow p))
    let fill := fillAfter p s.accumulatorFill outhop (readSpace == 0)
    let (r, out) := resampleAfter p env s final inhop outhop readSpace fill ((List.range outhop).map fun i c => mix c i)
    some (emit p { s with dsp := dsp, accumulatorFill := fill, resampler := r } inhop outhop readSpace out)

/-- R3Stretcher.cpp:1004-1162, the loop. -/
def consumeLoop [Zero α] (p : Params) (env : Env α σ ρ) (final : Bool) (inhop outhop : Nat) : Nat → State α σ ρ → Option (State α σ ρ)
  | 0, _ => none
  | fuel + 1, s =>
    if stops p final s then some s
    else (consumeRound p env final inhop outhop s).bind (consumeLoop p env final inhop outhop fuel)

/-- R3Stretcher.cpp:962-980: the pitch ratio and the result of the stretch calculator. -/
def calculated (p : Params) (env : Env α σ ρ) (s : State α σ ρ) : Calc × Int :=
  let pitchRatio := match s.resampler with
    | some r => env.effective r (1 / s.pitchScale)
    | none => 1 / s.pitchScale
  calculateSingle s.calculator
    { timeRatio := s.timeRatio, pitchRatio := pitchRatio, df := 1, inIncrement := s.inhop,
      analysisWindowSize := p.longestFftSize, synthesisWindowSize := p.longestFftSize, alignFrameStarts := true }

/-- R3Stretcher.cpp:951-1164 `consume`.  The number of rounds allowed is more than it takes. -/
def consume [Zero α] (p : Params) (env : Env α σ ρ) (final : Bool) (s : State α σ ρ) : Option (State α σ ρ) :=
  let (calculator, o) := calculated p env s
  consumeLoop p env final s.inhop (if o < 1 then 1 else o.toNat) ((in0 s).readSpace + p.longestFftSize + s.accumulatorFill + 2)
    { s with calculator := calculator }

/-! ## Processing -/

/-- R3Stretcher.cpp:930-943: a frame as mid and side. -/
def encode [Add α] [Sub α] (halve : α → α) (f : Frame α) : Frame α :=
  fun c => if c = 0 then halve (f 0 + f 1) else if c = 1 then halve (f 0 - f 1) else f c

/-- R3Stretcher.cpp:923-949 `prepareInput`.  In mid/side mode more frames than there is room for in `mixdown`
would later be read from beyond its end. -/
def prepareInput [Add α] [Sub α] (p : Params) (env : Env α σ ρ) (s : State α σ ρ) (block : List (Frame α)) : Option (List (Frame α)) :=
  if p.useMidSide then
    if block.length > s.mixdownSize then none else some (block.map (encode env.halve))
  else some block

/-- R3Stretcher.cpp:731-741 `m_totalTargetDuration`. -/
def targetFor (s : State α σ ρ) : Nat :=
  if s.mode = .studying then (roundAway (s.studyInputDuration * s.timeRatio)).toNat
  else if s.mode = .justCreated ∧ s.suppliedInputDuration ≠ 0 then (roundAway (s.suppliedInputDuration * s.timeRatio)).toNat
  else s.totalTargetDuration

/-- R3Stretcher.cpp:752-776: the padding before the first block. -/
def padStart [Zero α] (p : Params) (env : Env α σ ρ) (s : State α σ ρ) : State α σ ρ :=
  if s.mode = .justCreated ∨ s.mode = .studying then
    let pad := p.windowSourceSize / 2
    let s := { s with resampler := if s.pitchScale ≠ 1 ∧ s.resampler.isNone then some env.rsInit else s.resampler }
    let s := ensureInbuf s pad
    { s with
      inbuf := s.inbuf.map fun q => q.zero pad,
      startSkip := (roundAway (pad / s.pitchScale)).toNat }
  else s

/-- R3Stretcher.cpp:729-777: what comes first offline. -/
def prologue [Zero α] (p : Params) (env : Env α σ ρ) (s : State α σ ρ) : State α σ ρ :=
  if p.realTime then s
  else padStart p env (updateRatioFromMap p env { s with totalTargetDuration := targetFor s })

/-- R3Stretcher.cpp:804-812 `resampleInput`. -/
def resampleInputFor (p : Params) (s : State α σ ρ) (remaining : Nat) : Nat :=
  let n := min remaining (((min (in0 s).writeSpace p.hopBufferSize : Nat) : Rat) * s.pitchScale).floor.toNat
  if n = 0 then 1 else n

/-- R3Stretcher.cpp:797-858: taking in some of what remains; the new state and how much. -/
def takeIn [Zero α] [Add α] [Sub α] (p : Params) (env : Env α σ ρ) (before final : Bool) (s : State α σ ρ) (rest : List (Frame α)) :
    Option (State α σ ρ × Nat) :=
  match s.resampler, before with
  | some r, true => do
    let k := resampleInputFor p s rest.length
    let block ← prepareInput p env s (rest.take k)
    let space := min (in0 s).writeSpace p.hopBufferSize
    let (r, out) := env.resample r space block (1 / s.pitchScale) (final && decide (k ≥ rest.length))
    pure ({ s with resampler := some r, inbuf := writeAll s.inbuf (out.take space) }, k)
  | _, _ => do
    let k := min (in0 s).writeSpace rest.length
    let block ← prepareInput p env s (rest.take k)
    pure ({ s with inbuf := writeAll s.inbuf block }, k)

/-- R3Stretcher.cpp:792-795: consuming first if there is no room. -/
def roomy [Zero α] (p : Params) (env : Env α σ ρ) (s : State α σ ρ) : Option (State α σ ρ) :=
  if (in0 s).writeSpace = 0 then consume p env false s else some s

/-- R3Stretcher.cpp:788-861, a round of the loop; `rest` is the input not taken in yet. -/
def processRound [Zero α] [Add α] [Sub α] (p : Params) (env : Env α σ ρ) (before final : Bool) (s : State α σ ρ) (rest : List (Frame α)) :
    Option (State α σ ρ × List (Frame α)) := do
  let s ← roomy p env s
  let s := ensureInbuf s rest.length
  let (s, k) ← takeIn p env before final s rest
  let s ← consume p env (final && decide (k ≥ rest.length)) s
  pure (s, rest.drop k)

/-- R3Stretcher.cpp:788-861, the loop. -/
def processLoop [Zero α] [Add α] [Sub α] (p : Params) (env : Env α σ ρ) (before final : Bool) :
    Nat → State α σ ρ → List (Frame α) → Option (State α σ ρ)
  | 0, s, rest => if rest.length = 0 then some s else none
  | fuel + 1, s, rest =>
    if rest.length = 0 then some s
    else (processRound p env before final s rest).bind fun (s, rest) => processLoop p env before final fuel s rest

/-- R3Stretcher.cpp:779-861: the part of `process` that deals with the input. -/
def processInput [Zero α] [Add α] [Sub α] (p : Params) (env : Env α σ ρ) (s : State α σ ρ) (input : List (Frame α)) (final : Bool) :
    Option (State α σ ρ) :=
  if input.length = 0 then (if final then consume p env true s else some s)
  else processLoop p env (resamplingBefore p s) final input.length s input

/-- R3Stretcher.cpp:708-875 `process`. -/
def process [Zero α] [Add α] [Sub α] (p : Params) (env : Env α σ ρ) (s : State α σ ρ) (input : List (Frame α)) (final : Bool) :
    Option (State α σ ρ) :=
  if s.mode = .finished then some s
  else (processInput p env (prologue p env s) (input.take overallMaxProcessSize) final).map fun s =>
    { s with mode := if final then .finished else .processing }

/-! ## Retrieving -/

/-- R3Stretcher.cpp:897-907: what each channel gives, what is left, and the count. -/
def readChannels : List (Fifo α) → Nat → List (Fifo α) × List (List α) × Nat
  | [], got => ([], [], got)
  | q :: qs, got =>
    let here := q.peek got
    let (qs', outs, got') := readChannels qs (if here.length < got then here.length else got)
    (q.skip got :: qs', here :: outs, got')

/-- R3Stretcher.cpp:909-918: from mid and side to left and right, in the first `got` places. -/
def decode [Add α] [Sub α] (got : Nat) : List (List α) → List (List α)
  | m :: s :: rest =>
    (List.zipWith (· + ·) (m.take got) (s.take got) ++ m.drop got) ::
      (List.zipWith (· - ·) (m.take got) (s.take got) ++ s.drop got) :: rest
  | l => l

/-- R3Stretcher.cpp:888-921 `retrieve`: the state, what is put in the array of each channel, and the result. -/
def retrieve [Add α] [Sub α] (p : Params) (s : State α σ ρ) (samples : Nat) : State α σ ρ × List (List α) × Nat :=
  let (bufs, outs, got) := readChannels s.outbuf samples
  ({ s with outbuf := bufs }, if p.useMidSide then decode got outs else outs, got)

/-! ## Histories -/

/-- A call. -/
inductive Call (α : Type) where
  | setTimeRatio (ratio : Dbl)
  | setPitchScale (scale : Dbl)
  | setFormantScale (scale : Dbl)
  | setKeyFrameMap (m : List (Nat × Nat))
  | setExpectedInputDuration (samples : Nat)
  | setMaxProcessSize (samples : Nat)
  | study (samples : Nat)
  | process (input : List (Frame α)) (final : Bool)
  | retrieve (samples : Nat)
  | reset

/-- The effect of a call, and what it delivers. -/
def call [Zero α] [Add α] [Sub α] (p : Params) (env : Env α σ ρ) (s : State α σ ρ) : Call α → Option (State α σ ρ × List (List α))
  | .setTimeRatio r => some (setTimeRatio p env s r, [])
  | .setPitchScale r => some (setPitchScale p env s r, [])
  | .setFormantScale r => some (setFormantScale p s r, [])
  | .setKeyFrameMap m => some (setKeyFrameMap p s m, [])
  | .setExpectedInputDuration n => some (setExpectedInputDuration s n, [])
  | .setMaxProcessSize n => some (setMaxProcessSize s n, [])
  | .study n => some (study p s n, [])
  | .process input final => (process p env s input final).map fun s => (s, [])
  | .retrieve n => some ((retrieve p s n).1, (retrieve p s n).2.1)
  | .reset => some (reset p env s, [])

/-- The calls of a history, one after the other. -/
def run [Zero α] [Add α] [Sub α] (p : Params) (env : Env α σ ρ) : State α σ ρ → List (Call α) → Option (State α σ ρ × List (List (List α)))
  | s, [] => some (s, [])
  | s, c :: cs => do
    let (s, o) ← call p env s c
    let (s, os) ← run p env s cs
    pure (s, o :: os)

end Verif.R3
