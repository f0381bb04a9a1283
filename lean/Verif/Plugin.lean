import Mathlib.Algebra.Order.Field.Basic
import Mathlib.Data.List.GetD
/-!
# The LADSPA and LV2 pitch shifter plugins

Model of `ladspa-lv2/RubberBandPitchShifter.cpp` and `ladspa-lv2/RubberBandR3PitchShifter.cpp`, which differ in the engine they ask for and in that the second has no crispness port.  The stretcher is
a parameter.  A `RingBuffer` is a queue with a capacity (C01 proves that it behaves like one; `RingBufferSpec`).  The memory of the host is a map from places to arrays, so that ports may be connected to
the same place.  The pitch scale `pow(2, ...)` is a parameter of a call.
-/
namespace Verif.Plugin

/-- A ring buffer, RingBuffer.h: its capacity and what it holds. -/
structure Q (K : Type) where
  cap : Nat
  items : List K

variable {σ ρ K : Type}

/-- RingBuffer.h:267 `getWriteSpace`. -/
def Q.space (q : Q K) : Nat := q.cap - q.items.length

/-- RingBuffer.h:440-473 `write`: what has no room is dropped. -/
def Q.write (q : Q K) (xs : List K) : Q K := { q with items := q.items ++ xs.take q.space }

/-- RingBuffer.h:475-508 `zero`. -/
def Q.zero [Zero K] (q : Q K) (n : Nat) : Q K := { q with items := q.items ++ List.replicate (min n q.space) 0 }

/-- RingBuffer.h:416-436 `skip`, and what a `read` does to the buffer. -/
def Q.skip (q : Q K) (n : Nat) : Q K := { q with items := q.items.drop n }

/-- RingBuffer.h:247-256 `reset`. -/
def Q.reset (q : Q K) : Q K := { q with items := [] }

/-- The stretcher, as the plugins use it.  `available` is never negative because the plugins never say that audio is final.  `retrieve` gives the number of samples and those of each channel. -/
structure Engine (σ ρ K : Type) where
  required : σ → Nat
  process : σ → (Nat → List K) → σ
  available : σ → Nat
  retrieve : σ → Nat → σ × Nat × (Nat → List K)
  reset : σ → σ
  setPitchScale : σ → ρ → σ
  setCrispness : σ → Int → σ
  setFormant : σ → Bool → σ

/-- The memory of the host. -/
abbrev Mem (K : Type) := Nat → List K

/-- Changing what is at a place. -/
def edit (m : Mem K) (p : Nat) (g : List K → List K) : Mem K := fun q => if q = p then g (m p) else m q

/-- Storing samples in an array from an offset on. -/
def overwrite (off : Nat) (xs : List K) (l : List K) : List K := l.take off ++ xs ++ l.drop (off + xs.length)

/-- RubberBandPitchShifter.cpp:280-284, 301. -/
structure Sizes where
  blockSize : Nat
  reserve : Nat
  bufsize : Nat

/-- RubberBandPitchShifter.cpp:282-283, 301; the same in RubberBandR3PitchShifter.cpp. -/
def standard : Sizes := ⟨1024, 8192, 1024 + 8192 + 8192⟩

/-- What the ports are connected to: places for audio, values for controls (`none` if not connected; the crispness port does not exist in the R3 plugin).  The pitch scale is the one
`updateRatio` (RubberBandPitchShifter.cpp:498-536) computes; a wet/dry mix that is not connected is 0 (line 612). -/
structure Ports (ρ K : Type) where
  ins : Nat → Nat
  outs : Nat → Nat
  ratio : ρ
  crispness : Option Int
  formant : Option Bool
  mix : K

/-- RubberBandPitchShifter.h:118-148, without scratch space and `m_minfill` (which is never used); with the numbers of messages about overrun and underrun. -/
structure Shifter (σ ρ K : Type) where
  channels : Nat
  engine : σ
  outputBuffer : Nat → Q K
  delayMix : Nat → Q K
  prevRatio : ρ
  crispness : Int
  formant : Bool
  overruns : Nat
  underruns : Nat

/-- RubberBandPitchShifter.cpp:464-467 `getLatency`. -/
def latency (z : Sizes) : Nat := z.reserve

/-- RubberBandPitchShifter.cpp:470-495 `activateImpl`. -/
def activate [Zero K] (E : Engine σ ρ K) (z : Sizes) (ratio : ρ) (s : Shifter σ ρ K) : Shifter σ ρ K :=
  { s with
    prevRatio := ratio
    outputBuffer := fun c => (s.outputBuffer c).reset
    delayMix := fun c => ((s.delayMix c).reset).zero (latency z)
    engine := E.process (E.setPitchScale (E.reset s.engine) ratio) fun _ => List.replicate z.reserve 0 }

/-- RubberBandPitchShifter.cpp:272-322, the constructor (no port is connected then, so that the pitch scale is 1, `one`); `e` is a new stretcher. -/
def create [Zero K] (E : Engine σ ρ K) (z : Sizes) (channels : Nat) (e : σ) (one : ρ) : Shifter σ ρ K :=
  activate E z one
    { channels := channels, engine := e, outputBuffer := fun _ => ⟨z.bufsize, []⟩, delayMix := fun _ => ⟨z.bufsize, []⟩, prevRatio := one, crispness := -1, formant := false, overruns := 0, underruns := 0 }

/-- RubberBandPitchShifter.cpp:631-635. -/
def updateRatio [DecidableEq ρ] (E : Engine σ ρ K) (p : Ports ρ K) (s : Shifter σ ρ K) : Shifter σ ρ K :=
  if p.ratio ≠ s.prevRatio then { s with engine := E.setPitchScale s.engine p.ratio, prevRatio := p.ratio } else s

/-- RubberBandPitchShifter.cpp:539-568 `updateCrispness`; the pairs of options are one setting. -/
def updateCrispness (E : Engine σ ρ K) (p : Ports ρ K) (s : Shifter σ ρ K) : Shifter σ ρ K :=
  match p.crispness with
  | none => s
  | some c => if c = s.crispness then s else if c < 0 ∨ c > 3 then s else { s with engine := E.setCrispness s.engine c, crispness := c }

/-- RubberBandPitchShifter.cpp:571-585 `updateFormant`. -/
def updateFormant (E : Engine σ ρ K) (p : Ports ρ K) (s : Shifter σ ρ K) : Shifter σ ρ K :=
  match p.formant with
  | none => s
  | some f => if f = s.formant then s else { s with engine := E.setFormant s.engine f, formant := f }

/-- RubberBandPitchShifter.cpp:656, 653-655: the samples for a call of `process`. -/
def chunk (m : Mem K) (p : Ports ρ K) (from_ n : Nat) : Nat → List K := fun c => ((m (p.ins c)).drop from_).take n

/-- RubberBandPitchShifter.cpp:657-677: `process` the samples `x`, then move what is available into the output buffers. -/
def feedOnce (E : Engine σ ρ K) (x : Nat → List K) (s : Shifter σ ρ K) : Shifter σ ρ K :=
  let e := E.process s.engine x
  let r := E.retrieve e (min (E.available e) (s.outputBuffer 0).space)
  { s with
    engine := r.1
    outputBuffer := fun c => (s.outputBuffer c).write ((r.2.2 c).take r.2.1)
    overruns := if E.available e > (s.outputBuffer 0).space then s.overruns + 1 else s.overruns }

/-- RubberBandPitchShifter.cpp:643-678, the loop; `none` if it does not end within `fuel` rounds. -/
def feed (E : Engine σ ρ K) (m : Mem K) (p : Ports ρ K) (off n : Nat) : (fuel processed : Nat) → Shifter σ ρ K → Option (Shifter σ ρ K)
  | 0, processed, s => if processed < n then none else some s
  | fuel + 1, processed, s =>
    if processed < n then
      feed E m p off n fuel (processed + min (n - processed) (E.required s.engine)) (feedOnce E (chunk m p (off + processed) (min (n - processed) (E.required s.engine))) s)
    else some s

/-- RubberBandPitchShifter.cpp:680-687: what becomes of the memory of the host. -/
def deliver (p : Ports ρ K) (off n channels : Nat) (q : Nat → Q K) (m : Mem K) : Mem K :=
  (List.range channels).foldl (fun m c => edit m (p.outs c) (overwrite off ((q c).items.take (min (q c).items.length n)))) m

/-- RubberBandPitchShifter.cpp:629-694 `runImpl(insamples, offset)`. -/
def runBlock [DecidableEq ρ] (E : Engine σ ρ K) (fuel : Nat) (p : Ports ρ K) (off n : Nat) (s : Shifter σ ρ K) (m : Mem K) : Option (Shifter σ ρ K × Mem K) :=
  (feed E m p off n fuel 0 (updateFormant E p (updateCrispness E p (updateRatio E p s)))).map fun s =>
    ({ s with
        outputBuffer := fun c => (s.outputBuffer c).skip (min (s.outputBuffer c).items.length n)
        underruns := if (s.outputBuffer 0).items.length < n then s.underruns + 1 else s.underruns },
      deliver p off n s.channels s.outputBuffer m)

/-- RubberBandPitchShifter.cpp:594-609, the loop over blocks (at most one round for each sample). -/
def blocks [DecidableEq ρ] (E : Engine σ ρ K) (z : Sizes) (fuel : Nat) (p : Ports ρ K) (n : Nat) : (rounds off : Nat) → Shifter σ ρ K → Mem K → Option (Shifter σ ρ K × Mem K)
  | 0, off, s, m => if off < n then none else some (s, m)
  | k + 1, off, s, m =>
    if off < n then (runBlock E fuel p off (min z.blockSize (n - off)) s m).bind fun x => blocks E z fuel p n k (off + min z.blockSize (n - off)) x.1 x.2
    else some (s, m)

variable [Field K] [LinearOrder K]

/-- RubberBandPitchShifter.cpp:617-620 for one channel: `readOne` gives 0 when there is nothing. -/
def mixed (mix : K) (n : Nat) (dry : List K) (l : List K) : List K := (List.range n).map (fun i => l.getD i 0 * (1 - mix) + dry.getD i 0 * mix) ++ l.drop n

/-- RubberBandPitchShifter.cpp:611-625. -/
def mixAll (p : Ports ρ K) (n channels : Nat) (d : Nat → Q K) (m : Mem K) : Mem K :=
  if p.mix > 0 then (List.range channels).foldl (fun m c => edit m (p.outs c) (mixed p.mix n (d c).items)) m else m

/-- RubberBandPitchShifter.cpp:588-626 `runImpl(insamples)`. -/
def run [DecidableEq ρ] (E : Engine σ ρ K) (z : Sizes) (fuel : Nat) (p : Ports ρ K) (n : Nat) (s : Shifter σ ρ K) (m : Mem K) : Option (Shifter σ ρ K × Mem K) :=
  (blocks E z fuel p n n 0 { s with delayMix := fun c => (s.delayMix c).write ((m (p.ins c)).take n) } m).map fun x =>
    ({ x.1 with delayMix := fun c => (x.1.delayMix c).skip n }, mixAll p n x.1.channels x.1.delayMix x.2)

/-- A call of `run` by the host: how the ports are connected, how many samples, and what is in the memory then. -/
structure Call (ρ K : Type) where
  ports : Ports ρ K
  n : Nat
  mem : Mem K

/-- Some calls, and what is in the memory after each. -/
def runs [DecidableEq ρ] (E : Engine σ ρ K) (z : Sizes) (fuel : Nat) (s : Shifter σ ρ K) : List (Call ρ K) → Option (Shifter σ ρ K × List (Mem K))
  | [] => some (s, [])
  | c :: cs => (run E z fuel c.ports c.n s c.mem).bind fun x => (runs E z fuel x.1 cs).map fun y => (y.1, x.2 :: y.2)

end Verif.Plugin
