import Verif.R2
/-!
# Model of `vamp/RubberBandVampPlugin.cpp`

The plugin that shows what the analysis of the faster engine finds.  Offline the stretcher is the one of `R2.lean`.  In real time what it did in each call of `process` is a parameter.  Left out: descriptors,
labels, messages, and that the outputs are numbered when `getOutputDescriptors` is called (a host that never calls it has them all at number 0).  Time stamps are kept as frames (`frame2RealTime` is left out).
`float` and `double` values are exact rationals.
-/
namespace Verif.Vamp
open Verif.R2 (Frame Env)
open Verif.StretchCalc (findPeaks smoothDF)

variable {α σ ρ κ : Type}

/-- RubberBandVampPlugin.cpp:150-232: the outputs. -/
inductive Output where
  | increments | aggregate | divergence | curve | smoothed | resets | syncs
deriving DecidableEq, Repr

/-- A feature: for which output, the frame its time stamp stands for, and its value if it has one. -/
structure Feature where
  output : Output
  frame : Nat
  value : Option Rat
deriving DecidableEq, Repr

/-- What `createFeatures` is given (RubberBandVampPlugin.cpp:552-559): input increment, output increments, curve, exact points and smoothed curve. -/
structure Profile where
  increment : Nat
  increments : List Int
  curve : List Rat
  exact : List Nat
  smoothed : List Rat

/-- RubberBandVampPlugin.cpp:624-637: the features of a value there may be none of. -/
def optional (output : Output) (frame : Nat) : Option Rat → List Feature
  | some v => [⟨output, frame, some v⟩]
  | none => []

/-- RubberBandVampPlugin.cpp:575-648: the features of chunk `i`, its increment `x`, `actual` frames after the start; `soft`: it is one of the exact points. -/
def chunk (ratio : Rat) (p : Profile) (base i : Nat) (x : Int) (actual : Nat) (soft : Bool) : List Feature :=
  let frame := (base + i) * p.increment
  [⟨.increments, frame, some (x.natAbs : Rat)⟩, ⟨.aggregate, frame, some (actual : Rat)⟩, ⟨.divergence, frame, some ((actual : Rat) - frame * ratio)⟩] ++
    optional .curve frame p.curve[i]? ++ optional .smoothed frame p.smoothed[i]? ++
    (if x < 0 then [⟨.resets, frame, none⟩] else []) ++ (if x < 0 ∨ soft = true then [⟨.syncs, frame, none⟩] else [])

/-- RubberBandVampPlugin.cpp:571-649: the loop; `i`, `epi` and `actual` are its variables. -/
def loop (ratio : Rat) (p : Profile) (base : Nat) : List Int → (i epi actual : Nat) → List Feature × Nat
  | [], _, _, actual => ([], actual)
  | x :: xs, i, epi, actual =>
    let soft := p.exact[epi]? == some i
    let r := loop ratio p base xs (i + 1) (if soft then epi + 1 else epi) (actual + x.natAbs)
    (chunk ratio p base i x actual soft ++ r.1, r.2)

/-- RubberBandVampPlugin.cpp:552-676 `createFeatures`: the features and the new `m_accumulatedIncrement`; `ratio` is `overallRatio`. -/
def createFeatures (ratio : Rat) (p : Profile) (base : Nat) (includeFinal : Bool) (accumulated : Nat) : List Feature × Nat :=
  let r := loop ratio p base p.increments 0 0 accumulated
  let frame := (base + p.increments.length) * p.increment
  (r.1 ++ if includeFinal then [⟨.aggregate, frame, some (r.2 : Rat)⟩, ⟨.divergence, frame, some ((r.2 : Rat) - frame * ratio)⟩] else [], r.2)

/-! ## Offline -/

/-- RubberBandVampPlugin.cpp:38-65: the stretcher, `m_blockSize`, `m_accumulatedIncrement`, `m_timeRatio` and `m_pitchRatio`. -/
structure State (α σ ρ κ : Type) where
  stretcher : R2.State α σ ρ κ
  blockSize : Nat
  accumulated : Nat
  timeRatio : Rat
  pitchRatio : Rat

/-- RubberBandVampPlugin.cpp:365-413 `initialise`, for a number of channels that is accepted and finite ratios.  `m_blockSize` is the step (372). -/
def initialise [Zero α] (p : R2.Params) (env : Env α σ ρ κ) (stepSize : Nat) (timeRatio pitchRatio : Rat) : Option (State α σ ρ κ) := do
  let s ← R2.create p env (.fin 1) (.fin 1)
  let s ← R2.setTimeRatio p env s (.fin timeRatio)
  let s ← R2.setPitchScale p env s (.fin pitchRatio)
  pure ⟨s, stepSize, 0, timeRatio, pitchRatio⟩

/-- RubberBandVampPlugin.cpp:415-419 `reset`. -/
def reset [Zero α] (p : R2.Params) (env : Env α σ ρ κ) (s : State α σ ρ κ) : Option (State α σ ρ κ) := do
  let t ← R2.reset p env s.stretcher
  pure { s with stretcher := t }

/-- RubberBandVampPlugin.cpp:442-455 `processOffline`.  `none`: the block has fewer frames than are read from it. -/
def processOffline (p : R2.Params) (env : Env α σ ρ κ) (s : State α σ ρ κ) (block : List (Frame α)) : Option (State α σ ρ κ) :=
  if block.length < s.blockSize then none
  else do
    let t ← R2.study p env s.stretcher (block.take s.blockSize) false
    pure { s with stretcher := t }

/-- RubberBandVampPlugin.cpp:486-499: what is asked of the stretcher (R2Stretcher.h:90-92, R2Stretcher.cpp:1096-1136); `m_peaks` are those of the last `calculate` (StretchCalculator.cpp:83). -/
def profileOf (s : R2.State α σ ρ κ) : Option Profile := do
  let peaks ← findPeaks s.calculator s.phaseResetDf
  pure ⟨s.sizes.increment, s.outputIncrements, s.phaseResetDf, peaks.map (·.chunk), smoothDF s.phaseResetDf⟩

/-- RubberBandVampPlugin.cpp:479-502 `getRemainingFeaturesOffline`. -/
def remainingOffline (p : R2.Params) (env : Env α σ ρ κ) (s : State α σ ρ κ) : Option (State α σ ρ κ × List Feature) := do
  let t ← R2.study p env s.stretcher [] true
  let t ← R2.calculateStretch t
  let f ← profileOf t
  let r := createFeatures (s.timeRatio * s.pitchRatio) f 0 true s.accumulated
  pure ({ s with stretcher := t, accumulated := r.2 }, r.1)

/-- A run of the plugin: blocks of audio, and the features at the end. -/
def runOffline (p : R2.Params) (env : Env α σ ρ κ) (s : State α σ ρ κ) : List (List (Frame α)) → Option (State α σ ρ κ × List Feature)
  | [] => remainingOffline p env s
  | b :: bs => do
    let s ← processOffline p env s b
    runOffline p env s bs

/-! ## Real time -/

/-- `m_counter` and `m_accumulatedIncrement`. -/
structure Live where
  counter : Nat := 0
  accumulated : Nat := 0

/-- RubberBandVampPlugin.cpp:504-544 `processRealTime`, in which the stretcher has processed chunks with these increments and values of the curve.  The stretcher keeps at most 16 of them (R2Stretcher.cpp:92-93,
StretcherProcess.cpp:606-612) and gives away all it has (R2Stretcher.cpp:1101-1107, 1115-1121).  The output of the stretcher is thrown away. -/
def processRealTime (ratio : Rat) (increment : Nat) (s : Live) (chunks : List (Int × Rat)) : Live × List Feature :=
  let kept := chunks.take 16
  let r := createFeatures ratio ⟨increment, kept.map (·.1), kept.map (·.2), [], []⟩ s.counter false s.accumulated
  (⟨s.counter + kept.length, r.2⟩, r.1)

/-- Calls of `process`, one after the other; `getRemainingFeatures` adds nothing (RubberBandVampPlugin.cpp:546-550). -/
def runRealTime (ratio : Rat) (increment : Nat) : Live → List (List (Int × Rat)) → Live × List Feature
  | s, [] => (s, [])
  | s, c :: cs =>
    let r := processRealTime ratio increment s c
    let r' := runRealTime ratio increment r.1 cs
    (r'.1, r.2 ++ r'.2)

end Verif.Vamp
