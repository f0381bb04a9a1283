import Verif.R3
import Verif.BQResampler
/-!
# Model of `src/finer/R3LiveShifter.cpp`: the flow of samples

What is modelled is how many sample frames are where: in the two ring buffers and in the
two resamplers.  All channels are handled alike and hold the same numbers, so one channel is
followed.  The values of the samples, the analysis and the synthesis are left out, as are logging and
mid/side processing (which works in place).  The pitch scale does not change between calls.

`double` quantities are exact rationals: `1.0 / m_pitchScale` and the quotients by it are not
rounded.  `int` is unbounded.  `none` is a loop that does not end.
-/
namespace Verif.Live

/-! ## The resamplers, as counters -/

/-- What decides the number of frames a resampler gives (BQResampler.h:88-97, 109-122): the ratio
`num / den`, how many frames of input from the centre of the filter to its end, and the first phase.
`LiveBQ.lean` proves the model of `src/common/BQResampler.cpp` to count as this does. -/
structure Rs where
  num : Nat
  den : Nat
  reach : Nat
  phase : Nat
deriving DecidableEq, Repr

/-- Frames taken and frames given since construction or `reset`. -/
structure Pos where
  taken : Nat := 0
  made : Nat := 0
deriving DecidableEq, Repr

/-- How many frames can be given when `n` have been taken: frame `k` is computed when the
buffer is full (BQResampler.cpp:184-203), and after it the buffer moves on by `den` phases of `num`
(BQResampler.cpp:407-418, 622-637). -/
def Rs.due (R : Rs) (n : Nat) : Nat :=
  if n ≤ R.reach then 0 else ((n - R.reach - 1) * R.num + R.phase) / R.den + 1

/-- BQResampler.cpp:189-195: input is taken, at most `m` frames, until `goal` frames can be given. -/
def Rs.takes (R : Rs) (goal : Nat) : (m n : Nat) → Nat
  | 0, _ => 0
  | m + 1, n => if goal ≤ R.due n then 0 else R.takes goal m (n + 1) + 1

/-- BQResampler.cpp:141-227 `resampleInterleaved` with `m` frames of input and space for `sp` frames
of output, not final; the frames given come second.  Input not taken is lost. -/
def Rs.call (R : Rs) (s : Pos) (m sp : Nat) : Pos × Nat :=
  let t := s.taken + R.takes (s.made + sp) m s.taken
  let k := min sp (R.due t - s.made)
  (⟨t, s.made + k⟩, k)

/-- The counters for parameters chosen by `pick_params`; BQResampler.cpp:486-491, 505-516. -/
def ofParams (q : BQ.Quality) (p : BQ.Params) : Rs :=
  ⟨p.num, p.den, BQ.filterLengthFor q p / 2 / p.num, BQ.filterLengthFor q p / 2 % p.num⟩

/-- R3LiveShifter.cpp:205-210, Resampler.cpp:826-866: the kind of resampler the shifter makes. -/
def resamplerCfg : BQ.Cfg Unit where
  ar := { zero := (), window := fun _ _ _ => (), lerp := fun _ _ _ => (), dot := fun _ _ => (),
          dot1 := fun _ _ => (), scaled := fun _ _ => (), mix := fun _ _ _ _ => (), mixNone := fun _ _ => () }
  quality := .fastestTolerable
  mostlyFixed := false
  smooth := false
  rate := 44100
  channels := 1

/-- The counters of the shifter's resamplers at a ratio. -/
def picked (ratio : Rat) : Option Rs :=
  (BQ.pickParams resamplerCfg ratio).map (ofParams .fastestTolerable)

/-! ## Sizes -/

/-- R3LiveShifter.h:52-60 `Parameters` (and `OptionWindowMedium`, R3LiveShifter.cpp:65-68), and the
pitch scale. -/
structure Params where
  sampleRate : Rat
  readahead : Bool := false
  pitch : Rat := 1

/-- R3LiveShifter.cpp:320-324 `getBlockSize`. -/
def blockSize : Nat := 512

namespace Params
variable (p : Params)

/-- R3LiveShifter.h:342-355 `validateSampleRate`. -/
def rate : Rat := R3.validRate p.sampleRate
/-- R3LiveShifter.h:103 `maxInhopWithReadahead`. -/
def maxInhop : Nat := R3.pow2Div p.rate 128
/-- R3LiveShifter.h:102 `maxPreferredOuthop`. -/
def maxOuthop : Nat := R3.pow2Div p.rate 128 * 5 / 4
/-- Guide.h:125-144, the classification size, which with a single window is also the longest. -/
def fftSize : Nat := if R3.pow2Div p.rate 32 < 1024 then 1024 else R3.pow2Div p.rate 32
/-- R3LiveShifter.h:406-418 `getWindowSourceSize`. -/
def windowSourceSize : Nat :=
  if p.readahead then
    if p.fftSize > p.fftSize + p.maxInhop then p.fftSize else p.fftSize + p.maxInhop
  else p.fftSize
/-- R3LiveShifter.cpp:89-90, the space in either ring buffer. -/
def ringSize : Nat := p.windowSourceSize * 4
/-- R3LiveShifter.h:390-396 `getInRatio`. -/
def inRatio : Rat := if p.pitch > 1 then 1 / p.pitch else 1
/-- R3LiveShifter.h:398-404 `getOutRatio`. -/
def outRatio : Rat := if p.pitch < 1 then 1 / p.pitch else 1
/-- R3LiveShifter.cpp:354. -/
def need : Nat := ((blockSize : Rat) / p.outRatio).ceil.toNat
/-- R3LiveShifter.cpp:612-616. -/
def feed : Nat :=
  let n := ((blockSize : Rat) / p.outRatio).floor.toNat
  if n = 0 then 1 else n
/-- R3LiveShifter.cpp:341-345. -/
def pad : Nat :=
  if p.pitch > 1 then ((p.windowSourceSize : Rat) * p.pitch).ceil.toNat else p.windowSourceSize
/-- R3LiveShifter.cpp:424. -/
def expected : Nat := ((blockSize : Rat) * p.inRatio).floor.toNat

end Params

/-! ## The calls -/

/-- R3LiveShifter.h:200-246, 262-280: the frames in `inbuf` and `outbuf`, the resamplers, and
`m_firstProcess`. -/
structure State where
  inbuf : Nat := 0
  outbuf : Nat := 0
  ins : Pos := {}
  outs : Pos := {}
  first : Bool := true
deriving DecidableEq, Repr

/-- What is observed of one call of `shift`.  `accepted`: the block of input was put into the
resampler rather than refused for want of space (R3LiveShifter.cpp:380-384).  `got`: how many frames
`readOut` gave; if fewer than a block, the rest is filled by repeating the last one quieter
(R3LiveShifter.cpp:359-367).  `lost`: frames for the second resampler that it did not take. -/
structure Report where
  accepted : Bool
  got : Nat
  lost : Nat
deriving DecidableEq, Repr

/-- RingBuffer.h:440-473 `write`, 475-507 `zero`: as many as there is space for. -/
def put (size have_ n : Nat) : Nat := have_ + min n (size - have_)

/-- R3LiveShifter.cpp:339-350, the padding before the first block. -/
def prepad (p : Params) (s : State) : State :=
  if s.first then { s with inbuf := put p.ringSize s.inbuf p.pad } else s

/-- R3LiveShifter.cpp:423-432, the padding before the first resampled block. -/
def short (p : Params) (first : Bool) (made inbuf : Nat) : Nat :=
  if first && decide (made < p.expected) then put p.ringSize inbuf (p.expected - made) else inbuf

/-- R3LiveShifter.cpp:376-440 `readIn`.  The resampler has room for as many frames as a ring
buffer (R3LiveShifter.h:225). -/
def readIn (p : Params) (R : Rs) (s : State) : State × Bool :=
  if p.ringSize - s.inbuf < blockSize then (s, false)
  else
    let r := R.call s.ins blockSize p.ringSize
    ({ s with ins := r.1, inbuf := put p.ringSize (short p s.first r.2 s.inbuf) r.2 }, true)

/-- R3LiveShifter.cpp:486-490 `hops`. -/
def hopCount (p : Params) (toConsume toGenerate : Nat) : Nat :=
  max (1 + (toConsume - 1) / p.maxInhop) (1 + (toGenerate - 1) / p.maxOuthop)

/-- R3LiveShifter.cpp:496-591, `n` rounds of the loop: `toConsume` does not change in it, so every
round has the same hops, and the tests on lines 500 and 508 fail. -/
def hopLoop (p : Params) (inhop outhop : Nat) : (n : Nat) → State → State
  | 0, s => s
  | n + 1, s => hopLoop p inhop outhop n
      { s with outbuf := put p.ringSize s.outbuf outhop, inbuf := s.inbuf - min inhop s.inbuf }

/-- R3LiveShifter.cpp:443-593 `generate`. -/
def generate (p : Params) (required : Nat) (s : State) : State :=
  if s.outbuf ≥ required then s
  else if s.inbuf ≤ p.windowSourceSize then s
  else
    let toGenerate := required - s.outbuf
    let toConsume := s.inbuf - p.windowSourceSize
    let hops := hopCount p toConsume toGenerate
    hopLoop p (1 + (toConsume - 1) / hops) (1 + (toGenerate - 1) / hops) hops s

/-- The variables of the loop in `readOut`, and the frames lost. -/
structure Out where
  outbuf : Nat
  pos : Pos
  count : Nat := 0
  lost : Nat := 0
deriving DecidableEq, Repr

/-- R3LiveShifter.cpp:620-657, one round that asks for `want` frames from `outbuf`; `false` when the
loop is left. -/
def readRound (R : Rs) (want : Nat) (o : Out) : Out × Bool :=
  let got := min want o.outbuf
  let r := R.call o.pos got (blockSize - o.count)
  (⟨o.outbuf - got, r.1, o.count + r.2, o.lost + (got - (r.1.taken - o.pos.taken))⟩,
    !(got == 0 && r.2 == 0))

/-- R3LiveShifter.cpp:605-660, the loop once `fillingTail` is set. -/
def tailLoop (R : Rs) : (fuel : Nat) → Out → Option Out
  | 0, _ => none
  | fuel + 1, o =>
    if o.count < blockSize then
      match readRound R 1 o with
      | (o', true) => tailLoop R fuel o'
      | (o', false) => some o'
    else some o

/-- R3LiveShifter.cpp:605-660, the loop. -/
def readLoop (R : Rs) (feed fuel : Nat) (o : Out) : Option Out :=
  match readRound R feed o with
  | (o', true) => tailLoop R fuel o'
  | (o', false) => some o'

/-- R3LiveShifter.cpp:674-690: at the first call what is missing is put before the output. -/
def finish (first : Bool) (count : Nat) : Nat := if count < blockSize && first then blockSize else count

/-- R3LiveShifter.cpp:327-373 `shift`, with `readOut` (596-693) in it.  Every round of the loop takes
a frame from `outbuf` or gives one. -/
def shift (p : Params) (Rin Rout : Rs) (s : State) : Option (State × Report) := do
  let r := readIn p Rin (prepad p s)
  let s1 := generate p p.need r.1
  let o ← readLoop Rout p.feed (s1.outbuf + blockSize + 2) ⟨s1.outbuf, s1.outs, 0, 0⟩
  pure ({ s1 with outbuf := o.outbuf, outs := o.pos, first := false }, ⟨r.2, finish s1.first o.count, o.lost⟩)

/-- The first `n` calls of `shift` after construction, or after `reset`. -/
def run (p : Params) (Rin Rout : Rs) : Nat → Option (State × List Report)
  | 0 => some ({}, [])
  | n + 1 => do
    let (s, rs) ← run p Rin Rout n
    let (s, r) ← shift p Rin Rout s
    pure (s, rs ++ [r])

end Verif.Live
