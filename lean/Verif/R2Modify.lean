import Verif.PhaseAdvance
import Verif.Round
/-!
# Model of `R2Stretcher::modifyChunk`, `src/faster/StretcherProcess.cpp`:745-901

Phases are elements of an ordered field `K` with a floor, exact, `pi` any element above 0, `M_PI` being one.  Frequencies and ratios are exact
rationals (`0.9f` is 9/10).  Arrays are functions; the loop only uses indices up to `m_fftSize / 2`.  Logging is left out.
-/
namespace Verif.R2Modify
open Verif.Round Verif.PhaseAdvance

variable {K : Type} [Field K] [LinearOrder K] [IsStrictOrderedRing K] [FloorRing K]

/-- What `modifyChunk` reads of the stretcher: `m_sampleRate`, `m_fftSize`, `m_increment`, `getEffectiveRatio()`, the options
`OptionPhaseIndependent` (not `laminar`, 763) and `OptionTransientsMixed` (764), and the frequencies set at R2Stretcher.cpp:98-100 or
by `setFrequencyCutoff`, 352-361; `formant`: `OptionFormantPreserved` and a pitch scale other than 1 (968-969). -/
structure Conf where
  rate : Rat
  fftSize : Nat
  increment : Nat
  ratio : Rat := 1
  laminar : Bool := true
  mixed : Bool := false
  formant : Bool := false
  freq0 : Rat := 600
  freq1 : Rat := 1200
  freq2 : Rat := 12000
deriving DecidableEq

/-- What it reads and writes of a channel, StretcherChannelData.h:92-96 and 114-116. -/
structure Chan (K : Type) where
  phase : Nat → K
  prevPhase : Nat → K
  prevError : Nat → K
  unwrapped : Nat → K
  unchanged : Bool
  unityResetLow : Rat

/-- A new channel, StretcherChannelData.cpp:72-90 and 279. -/
def create : Chan K := ⟨fun _ => 0, fun _ => 0, fun _ => 0, fun _ => 0, true, 16000⟩

/-- `reset`, StretcherChannelData.cpp:255-282: of these, only `unchanged` is set. -/
def reset (c : Chan K) : Chan K := { c with unchanged := true }

/-- `setSizes`, StretcherChannelData.cpp:143-151 and 169-173: the phases are cleared. -/
def setSizes (c : Chan K) : Chan K := { c with phase := fun _ => 0, prevPhase := fun _ => 0, prevError := fun _ => 0, unwrapped := fun _ => 0 }

/-- StretcherProcess.cpp:768-770 `unity`. -/
def Conf.unity (q : Conf) : Bool := decide (|q.ratio - 1| < 1 / 1000000)

/-- `phaseReset`, `bandlimited`, `bandlow` and `bandhigh` after 786. -/
structure Bands where
  reset : Bool
  bandlimited : Bool
  low : Int
  high : Int

/-- StretcherProcess.cpp:762-786. -/
def bands (q : Conf) (unityResetLow : Rat) (phaseReset : Bool) : Bands :=
  if q.unity && !phaseReset then ⟨true, true, lrint (unityResetLow * q.fftSize / q.rate), (q.fftSize / 2 : Nat)⟩
  else ⟨phaseReset, q.mixed, lrint (150 * q.fftSize / q.rate), lrint (1000 * q.fftSize / q.rate)⟩

/-- StretcherProcess.cpp:781 and 783. -/
def nextLow (q : Conf) (unityResetLow : Rat) : Rat := if q.unity then unityResetLow * (9 / 10) else 16000

/-- StretcherProcess.cpp:786-801: `freq0`, `freq1`, `freq2`. -/
def freqs (q : Conf) : Rat × Rat × Rat :=
  if q.laminar && decide (q.ratio > 1) then
    let rf0 := 600 + 600 * ((q.ratio - 1) * (q.ratio - 1) * (q.ratio - 1) * 2)
    let f := max q.freq0 rf0
    (f, f * (q.freq1 / q.freq0), f * (q.freq2 / q.freq0))
  else (q.freq0, q.freq1, q.freq2)

/-- StretcherProcess.cpp:803-808: `limit0`, `limit1`, `limit2`. -/
def limits (q : Conf) : Int × Int × Int :=
  let f := freqs q
  let l0 := lrint (f.1 * q.fftSize / q.rate)
  let l1 := max l0 (lrint (f.2.1 * q.fftSize / q.rate))
  let l2 := max l1 (lrint (f.2.2 * q.fftSize / q.rate))
  (l0, l1, l2)

/-- StretcherProcess.cpp:838-841 `mi`. -/
def furthest (q : Conf) (i : Nat) : Nat :=
  let l := limits q
  if (i : Int) ≤ l.1 then 0 else if (i : Int) ≤ l.2.1 then 1 else if (i : Int) ≤ l.2.2 then 3 else 8

/-- StretcherProcess.cpp:823-832 `resetThis`. -/
def resetThis (b : Bands) (i : Nat) : Bool := b.reset && !(b.bandlimited && decide (b.low < i) && decide ((i : Int) < b.high))

/-- The variables of the loop, with the arrays. -/
structure Loop (K : Type) where
  phase : Nat → K
  prevPhase : Nat → K
  prevError : Nat → K
  unwrapped : Nat → K
  prevInstability : K
  prevDirection : Bool
  distance : Nat
  fullReset : Bool

/-- StretcherProcess.cpp:845 `omega`. -/
def omega (pi : K) (q : Conf) (i : Nat) : K := 2 * pi * q.increment * i / q.fftSize

/-- StretcherProcess.cpp:847-849 `perr`. -/
def perr (pi : K) (q : Conf) (s : Loop K) (i : Nat) : K := princarg pi (s.phase i - (s.prevPhase i + omega pi q i))

/-- StretcherProcess.cpp:851-852 `instability`, `direction`. -/
def instability (pi : K) (q : Conf) (s : Loop K) (i : Nat) : K × Bool :=
  (|perr pi q s i - s.prevError i|, decide (perr pi q s i > s.prevError i))

/-- StretcherProcess.cpp:854-865 `inherit`. -/
def inherits (pi : K) (q : Conf) (b : Bands) (s : Loop K) (i : Nat) : Bool :=
  q.laminar && !(decide (s.distance ≥ furthest q i) || i == q.fftSize / 2) &&
    !(b.bandlimited && (decide ((i : Int) = b.high) || decide ((i : Int) = b.low))) &&
    (decide ((instability pi q s i).1 > s.prevInstability) && (instability pi q s i).2 == s.prevDirection)

/-- StretcherProcess.cpp:867 `advance`. -/
def advance (pi : K) (q : Conf) (outputIncrement : Nat) (s : Loop K) (i : Nat) : K :=
  outputIncrement * ((omega pi q i + perr pi q s i) / q.increment)

/-- StretcherProcess.cpp:869-880: `outphase` of a bin that is not reset. -/
def outphase (pi : K) (q : Conf) (b : Bands) (outputIncrement : Nat) (s : Loop K) (i : Nat) : K :=
  if inherits pi q b s i then
    s.phase i + (advance pi q outputIncrement s i * s.distance +
      (s.unwrapped (i + 1) - s.prevPhase (i + 1)) * (8 - s.distance)) / 8
  else s.unwrapped i + advance pi q outputIncrement s i

/-- StretcherProcess.cpp:889-892. -/
def store (s : Loop K) (i : Nat) (perr outphase : K) : Loop K :=
  { s with
    prevError := Function.update s.prevError i perr
    prevPhase := Function.update s.prevPhase i (s.phase i)
    phase := Function.update s.phase i outphase
    unwrapped := Function.update s.unwrapped i outphase }

/-- StretcherProcess.cpp:821-893, one round. -/
def step (pi : K) (q : Conf) (b : Bands) (outputIncrement : Nat) (i : Nat) (s : Loop K) : Loop K :=
  let s := { s with fullReset := s.fullReset && !(b.reset && !resetThis b i) }
  if resetThis b i then { store s i 0 (s.phase i) with distance := 0 }
  else
    { store s i (perr pi q s i) (outphase pi q b outputIncrement s i) with
      distance := if inherits pi q b s i then s.distance + 1 else 0
      prevInstability := (instability pi q s i).1
      prevDirection := (instability pi q s i).2 }

/-- StretcherProcess.cpp:821-893, from bin `i` down. -/
def loop (pi : K) (q : Conf) (b : Bands) (outputIncrement : Nat) : (i : Nat) → Loop K → Loop K
  | 0, s => step pi q b outputIncrement 0 s
  | i + 1, s => loop pi q b outputIncrement i (step pi q b outputIncrement (i + 1) s)

/-- StretcherProcess.cpp:745-901 `modifyChunk`. -/
def modify (pi : K) (q : Conf) (outputIncrement : Nat) (phaseReset : Bool) (c : Chan K) : Chan K :=
  let b := bands q c.unityResetLow phaseReset
  let s := loop pi q b outputIncrement (q.fftSize / 2) {
    phase := c.phase, prevPhase := c.prevPhase, prevError := c.prevError, unwrapped := c.unwrapped,
    prevInstability := 0, prevDirection := false, distance := 0, fullReset := phaseReset }
  { phase := s.phase, prevPhase := s.prevPhase, prevError := s.prevError, unwrapped := s.unwrapped,
    unchanged := (c.unchanged && outputIncrement == q.increment) || s.fullReset,
    unityResetLow := nextLow q c.unityResetLow }

/-- A chunk: how `modifyChunk` is called, the stretcher it is called for, and the phases `analyseChunk` has put into `phase`
(StretcherProcess.cpp:742). -/
structure Frame (K : Type) where
  conf : Conf
  outputIncrement : Nat
  phaseReset : Bool
  phase : Nat → K

/-- What happens to a channel. -/
inductive Event (K : Type) where
  /-- A chunk. -/
  | frame (f : Frame K)
  /-- `reset`. -/
  | reset
  /-- `setSizes`. -/
  | sizes

/-- `modifyChunk`, and what `synthesiseChunk` does to the flag, StretcherProcess.cpp:968-971 with 959. -/
def chunk (pi : K) (c : Chan K) (f : Frame K) : Chan K :=
  let c := modify pi f.conf f.outputIncrement f.phaseReset { c with phase := f.phase }
  { c with unchanged := c.unchanged && !f.conf.formant }

/-- A channel after an event. -/
def after (pi : K) (c : Chan K) : Event K → Chan K
  | .frame f => chunk pi c f
  | .reset => reset c
  | .sizes => setSizes c

/-- A channel after some events. -/
def run (pi : K) (c : Chan K) (l : List (Event K)) : Chan K := l.foldl (after pi) c

/-- The phases of the frame that is put out: those of the input when the inverse transform is skipped because the frame is `unchanged`
(StretcherProcess.cpp:982), those calculated otherwise. -/
def put (pi : K) (c : Chan K) (f : Frame K) (i : Nat) : K :=
  let c' := chunk pi c f
  if c'.unchanged then f.phase i else c'.phase i

end Verif.R2Modify
