import Verif.PluginProps
/-!
# The LV2 live pitch shifter plugin

Model of `ladspa-lv2/RubberBandLivePitchShifter.cpp`, with queues, memory and ports as in `Verif.Plugin`.  The live shifter is a parameter.
-/
namespace Verif.Plugin.Live
open Verif.Plugin

variable {σ ρ K : Type}

/-- The live shifter, as the plugin uses it. -/
structure Engine (σ ρ K : Type) where
  blockSize : Nat
  startDelay : σ → Nat
  shift : σ → (Nat → List K) → σ × (Nat → List K)
  reset : σ → σ
  setPitchScale : σ → ρ → σ
  setFormant : σ → Bool → σ

/-- RubberBandLivePitchShifter.cpp:269 `m_bufferSize`. -/
def bufferSize : Nat := 65536

/-- RubberBandLivePitchShifter.h:108-145, without the block for input. -/
structure Shifter (σ ρ K : Type) where
  channels : Nat
  engine : σ
  irb : Nat → Q K
  orb : Nat → Q K
  ob : Nat → List K
  delayMix : Nat → Q K
  delay : Nat
  prevRatio : ρ
  formant : Bool

/-- RubberBandLivePitchShifter.cpp:447-461 `activateImpl`. -/
def activate [Zero K] (E : Engine σ ρ K) (ratio : ρ) (s : Shifter σ ρ K) : Shifter σ ρ K :=
  { s with
    prevRatio := ratio
    engine := E.setPitchScale (E.reset s.engine) ratio
    irb := fun c => ((s.irb c).reset).zero E.blockSize
    orb := fun c => (s.orb c).reset
    delayMix := fun c => ((s.delayMix c).reset).zero s.delay }

/-- RubberBandLivePitchShifter.cpp:256-303, the constructor; `e` is a new live shifter, `junk` what is in the block for output.  The zeros written at 292 and 298 go when `activateImpl` resets the
buffer. -/
def create [Zero K] (E : Engine σ ρ K) (channels : Nat) (e : σ) (one : ρ) (junk : Nat → List K) : Shifter σ ρ K :=
  activate E one
    { channels := channels, engine := e, irb := fun _ => ((⟨bufferSize, []⟩ : Q K).zero E.blockSize).zero (E.startDelay e), orb := fun _ => ⟨bufferSize, []⟩, ob := junk,
      delayMix := fun _ => ⟨bufferSize + E.startDelay e, []⟩, delay := E.startDelay e, prevRatio := one, formant := false }

/-- RubberBandLivePitchShifter.cpp:507-510 `getLatency`. -/
def latency (E : Engine σ ρ K) (s : Shifter σ ρ K) : Nat := E.startDelay s.engine + E.blockSize

/-- RubberBandLivePitchShifter.cpp:515-519. -/
def updateRatio [DecidableEq ρ] (E : Engine σ ρ K) (p : Ports ρ K) (s : Shifter σ ρ K) : Shifter σ ρ K :=
  if p.ratio ≠ s.prevRatio then { s with engine := E.setPitchScale s.engine p.ratio, prevRatio := p.ratio } else s

/-- RubberBandLivePitchShifter.cpp:490-504 `updateFormant`. -/
def updateFormant (E : Engine σ ρ K) (p : Ports ρ K) (s : Shifter σ ρ K) : Shifter σ ρ K :=
  match p.formant with
  | none => s
  | some f => if f = s.formant then s else { s with engine := E.setFormant s.engine f, formant := f }

/-- RubberBandLivePitchShifter.cpp:534-542.  Samples that `shift` does not write stay as they were in the block for output. -/
def shiftOnce (E : Engine σ ρ K) (s : Shifter σ ρ K) : Shifter σ ρ K :=
  let r := E.shift s.engine fun c => (s.irb c).items.take E.blockSize
  let ob := fun c => overwrite 0 (r.2 c) (s.ob c)
  { s with engine := r.1, irb := fun c => (s.irb c).skip E.blockSize, ob := ob, orb := fun c => (s.orb c).write ((ob c).take E.blockSize) }

/-- RubberBandLivePitchShifter.cpp:532-543, the loop (at most one round for each sample, unless the block size is 0). -/
def shiftAll (E : Engine σ ρ K) : (rounds : Nat) → Shifter σ ρ K → Option (Shifter σ ρ K)
  | 0, s => if (s.irb 0).items.length ≥ E.blockSize then none else some s
  | k + 1, s => if (s.irb 0).items.length ≥ E.blockSize then shiftAll E k (shiftOnce E s) else some s

variable [Field K] [LinearOrder K]

/-- RubberBandLivePitchShifter.cpp:513-563 `runImpl`. -/
def run [DecidableEq ρ] (E : Engine σ ρ K) (p : Ports ρ K) (n : Nat) (s : Shifter σ ρ K) (m : Mem K) : Option (Shifter σ ρ K × Mem K) :=
  let s := updateFormant E p (updateRatio E p s)
  let s := { s with irb := fun c => (s.irb c).write ((m (p.ins c)).take n), delayMix := fun c => (s.delayMix c).write ((m (p.ins c)).take n) }
  (shiftAll E ((s.irb 0).items.length + 1) s).map fun s =>
    ({ s with orb := fun c => (s.orb c).skip n, delayMix := fun c => (s.delayMix c).skip n },
      mixAll p n s.channels s.delayMix ((List.range s.channels).foldl (fun m c => edit m (p.outs c) (overwrite 0 ((s.orb c).items.take n))) m))

/-- Some calls, and what is in the memory after each. -/
def runs [DecidableEq ρ] (E : Engine σ ρ K) (s : Shifter σ ρ K) : List (Call ρ K) → Option (Shifter σ ρ K × List (Mem K))
  | [] => some (s, [])
  | c :: cs => (run E c.ports c.n s c.mem).bind fun x => (runs E x.1 cs).map fun y => (y.1, x.2 :: y.2)

end Verif.Plugin.Live
