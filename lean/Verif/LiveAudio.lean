import Verif.Live
import Verif.R3Spectral
/-!
# Model of `src/finer/R3LiveShifter.cpp`: the samples

The calls of the live shifter with the values of the samples, as real numbers.  `Live.lean` follows how many there are.  The analysis, the phases and the synthesis (R3LiveShifter.cpp:695-1210) are line by line those
of R3Stretcher.cpp:1166-1668 with a single window in real time, the ratio being the pitch scale (`getEffectiveRatio` there, `m_pitchScale` here), so `R3.spectralRound` is used for them, as is that of the formants
(R3LiveShifter.cpp:869-872, 982-1053; there in R3Stretcher.cpp:1365-1368, 1467-1538).  The resamplers are parameters.  Logging is left out.  The pitch scale is a finite number and positive.
-/
namespace Verif.LiveAudio
open Verif.R3 (Dbl Frame Spectral Open spectralRound)
open Verif.Live (blockSize)

variable {κ ρ : Type}

/-- R3LiveShifter.h:52-60 `Parameters`: the options that matter are `OptionWindowMedium` (R3LiveShifter.cpp:65-68) and `OptionChannelsTogether`. -/
structure Conf where
  sampleRate : Rat
  channels : Nat
  readahead : Bool := false
  together : Bool := false

/-- The finer engine with a single window in real time (R3LiveShifter.h:386-388 `isSingleWindowed`). -/
def Conf.engine (c : Conf) : R3.Params := { sampleRate := c.sampleRate, channels := c.channels, realTime := true, channelsTogether := c.together, windowShort := true }

/-- The sizes at a pitch scale. -/
def Conf.sizes (c : Conf) (pitch : Rat) : Live.Params := { sampleRate := c.sampleRate, readahead := c.readahead, pitch := pitch }

/-- The resampler (src/common/Resampler.h): `resample r n b q` for room of `n` frames, frames `b` and the ratio `q`, not final. -/
structure Resampling (ρ : Type) where
  init : ρ
  reset : ρ → ρ
  resample : ρ → Nat → List (Frame ℝ) → Rat → ρ × List (Frame ℝ)

/-- R3LiveShifter.h:189-246, 300-318: the frames in `inbuf` and `outbuf`, the resamplers, the spectral part, `m_prevInhop`, `m_prevOuthop`, `m_firstProcess`, `m_pitchScale`, `m_formantScale`
and whether `OptionFormantPreserved` is on. -/
structure State (κ ρ : Type) where
  inbuf : List (Frame ℝ)
  outbuf : List (Frame ℝ)
  ins : ρ
  outs : ρ
  dsp : Spectral κ
  prevInhop : Nat
  prevOuthop : Nat
  first : Bool
  pitch : Rat
  formant : Dbl
  preserved : Bool

/-- A frame of zeros. -/
def silence : Frame ℝ := fun _ => 0

/-- RingBuffer.h:440-473 `write`, 475-507 `zero`: as much as there is space for. -/
def put (size : Nat) (buf xs : List (Frame ℝ)) : List (Frame ℝ) := buf ++ xs.take (size - buf.length)

/-- R3LiveShifter.cpp:227-250 `measureResamplerDelay`: what it leaves behind in the resamplers.  There the zeros are interleaved. -/
def measured (c : Conf) (e : Resampling ρ) (s : State κ ρ) : State κ ρ :=
  { s with
    ins := e.reset (e.resample s.ins blockSize (List.replicate blockSize silence) (c.sizes s.pitch).inRatio).1
    outs := e.reset (e.resample s.outs blockSize (List.replicate blockSize silence) (c.sizes s.pitch).outRatio).1 }

/-- R3LiveShifter.cpp:92-125: the spectral part at first, with a phase reset in the guidance (109-111). -/
noncomputable def begun (c : Conf) (o : Open κ) : Spectral κ :=
  let s := Spectral.create c.engine o
  { s with chans := s.chans.map fun d => { d with guidance := { d.guidance with phaseReset := ⟨true, 0, c.engine.guide.nyquist⟩ } } }

/-- R3LiveShifter.cpp:30-126: the constructor and `initialise`. -/
noncomputable def create (c : Conf) (o : Open κ) (e : Resampling ρ) : State κ ρ :=
  measured c e { inbuf := [], outbuf := [], ins := e.init, outs := e.init, dsp := begun c o, prevInhop := (c.sizes 1).maxInhop / 2, prevOuthop := (c.sizes 1).maxInhop / 2, first := true, pitch := 1, formant := .fin 0, preserved := o.preserved }

/-- R3LiveShifter.cpp:172-183 `setPitchScale`. -/
def setPitchScale (c : Conf) (e : Resampling ρ) (q : Rat) (s : State κ ρ) : State κ ρ :=
  if q = s.pitch then s
  else if s.first then measured c e { s with pitch := q } else { s with pitch := q }

/-- R3LiveShifter.cpp:185-190 `setFormantScale`. -/
def setFormantScale (x : Dbl) (s : State κ ρ) : State κ ρ := { s with formant := x }

/-- R3LiveShifter.cpp:192-200 `setFormantOption`. -/
def setFormantOption (on : Bool) (s : State κ ρ) : State κ ρ := { s with preserved := on }

/-- R3LiveShifter.cpp:297-318 `reset`. -/
noncomputable def reset (c : Conf) (o : Open κ) (e : Resampling ρ) (s : State κ ρ) : State κ ρ :=
  measured c e { s with
    inbuf := [], outbuf := [], ins := e.reset s.ins, outs := e.reset s.outs, dsp := Spectral.reset c.engine o s.dsp
    prevInhop := (c.sizes s.pitch).maxInhop / 2, prevOuthop := (Round.roundAway (((c.sizes s.pitch).maxInhop / 2 : Nat) * s.pitch)).toNat, first := true }

/-- R3LiveShifter.cpp:391-409: middle and side. -/
noncomputable def encode (c : Conf) (f : Frame ℝ) : Frame ℝ := if c.engine.useMidSide then fun k => if k = 0 then (f 0 + f 1) / 2 else (f 0 - f 1) / 2 else f

/-- R3LiveShifter.cpp:662-671: left and right. -/
noncomputable def decode (c : Conf) (f : Frame ℝ) : Frame ℝ := if c.engine.useMidSide then fun k => if k = 0 then f 0 + f 1 else f 0 - f 1 else f

/-- R3LiveShifter.cpp:339-350: the padding before the first block. -/
def prepad (c : Conf) (s : State κ ρ) : State κ ρ :=
  if s.first then { s with inbuf := put (c.sizes s.pitch).ringSize s.inbuf (List.replicate (c.sizes s.pitch).pad silence) } else s

/-- R3LiveShifter.cpp:376-440 `readIn`.  `none`: the resampler has written more than the room it was given, which is all of `resampled` (R3LiveShifter.h:203, 225). -/
noncomputable def readIn (c : Conf) (e : Resampling ρ) (input : List (Frame ℝ)) (s : State κ ρ) : Option (State κ ρ) :=
  let p := c.sizes s.pitch
  if p.ringSize - s.inbuf.length < blockSize then some s
  else
    let r := e.resample s.ins p.ringSize (input.map (encode c)) p.inRatio
    if r.2.length > p.ringSize then none
    else
      let padded := if s.first ∧ r.2.length < p.expected then put p.ringSize s.inbuf (List.replicate (p.expected - r.2.length) silence) else s.inbuf
      some { s with ins := r.1, inbuf := put p.ringSize padded r.2 }

/-- R3LiveShifter.cpp:702-711: the source window of each channel, with zeros where `inbuf` has less. -/
def sources (c : Conf) (s : State κ ρ) : List (List ℝ) :=
  (List.range c.channels).map fun k => (List.range (c.sizes s.pitch).windowSourceSize).map fun i => ((s.inbuf[i]?).getD silence) k

/-- R3LiveShifter.cpp:496-591: a round of the loop.  `none`: the frame ahead (R3LiveShifter.cpp:736-745) would begin too far on in the source window, or more would be made than `mixdown` and the accumulators hold. -/
noncomputable def round (c : Conf) (o : Open κ) (inhop outhop : Nat) (s : State κ ρ) : Option (State κ ρ) :=
  let p := c.sizes s.pitch
  if inhop > p.maxInhop ∨ outhop > c.engine.longestFftSize then none
  else do
    let (d, mix) ← spectralRound c.engine { o with preserved := s.preserved } s.dsp ⟨inhop, s.prevInhop, s.prevOuthop, outhop, c.readahead, false, 1, s.pitch, s.formant⟩ (sources c s)
    pure { s with
      dsp := d
      outbuf := put p.ringSize s.outbuf ((List.range outhop).map fun i k => ((mix[k]?).getD fun _ => 0) i)
      inbuf := s.inbuf.drop inhop
      prevInhop := inhop
      prevOuthop := outhop }

/-- R3LiveShifter.cpp:496-591: `n` rounds; all have the same hops, see `Live.hopLoop`. -/
noncomputable def rounds (c : Conf) (o : Open κ) (inhop outhop : Nat) : Nat → State κ ρ → Option (State κ ρ)
  | 0, s => some s
  | n + 1, s => (round c o inhop outhop s).bind (rounds c o inhop outhop n)

/-- R3LiveShifter.cpp:443-593 `generate`. -/
noncomputable def generate (c : Conf) (o : Open κ) (required : Nat) (s : State κ ρ) : Option (State κ ρ) :=
  let p := c.sizes s.pitch
  if s.outbuf.length ≥ required then some s
  else if s.inbuf.length ≤ p.windowSourceSize then some s
  else
    let toGenerate := required - s.outbuf.length
    let toConsume := s.inbuf.length - p.windowSourceSize
    let hops := Live.hopCount p toConsume toGenerate
    rounds c o (1 + (toConsume - 1) / hops) (1 + (toGenerate - 1) / hops) hops s

/-- The variables of the loop in `readOut`. -/
structure Out (ρ : Type) where
  outbuf : List (Frame ℝ)
  outs : ρ
  given : List (Frame ℝ) := []

/-- R3LiveShifter.cpp:605-660, the loop, asking for `want` frames from `outbuf` in the first round and for one in the others (`fillingTail`).  `none`: the resampler has written more than the room it was given, or the loop
does not end. -/
def readLoop (e : Resampling ρ) (ratio : Rat) : (fuel want : Nat) → Out ρ → Option (Out ρ)
  | 0, _, _ => none
  | fuel + 1, want, x =>
    if x.given.length < blockSize then
      let r := e.resample x.outs (blockSize - x.given.length) (x.outbuf.take want) ratio
      if r.2.length > blockSize - x.given.length then none
      else if (x.outbuf.take want).length = 0 ∧ r.2.length = 0 then some ⟨x.outbuf.drop want, r.1, x.given⟩
      else readLoop e ratio fuel 1 ⟨x.outbuf.drop want, r.1, x.given ++ r.2⟩
    else some x

/-- R3LiveShifter.cpp:363-364: the frame after these.  `0.9f` is taken for nine tenths. -/
noncomputable def faded (l : List (Frame ℝ)) : Frame ℝ := match l.getLast? with | some f => fun k => f k * (9 / 10) | none => silence

/-- R3LiveShifter.cpp:359-367: each missing frame is the one before it, quieter. -/
noncomputable def fill : Nat → List (Frame ℝ) → List (Frame ℝ)
  | 0, l => l
  | n + 1, l => fill n (l ++ [faded l])

/-- R3LiveShifter.cpp:662-690 and 359-367: what the caller is given. -/
noncomputable def finish (c : Conf) (first : Bool) (given : List (Frame ℝ)) : List (Frame ℝ) :=
  if given.length < blockSize then
    if first then List.replicate (blockSize - given.length) silence ++ given.map (decode c) else fill (blockSize - given.length) (given.map (decode c))
  else given.map (decode c)

/-- R3LiveShifter.cpp:327-373 `shift`, with `readOut` (596-693) in it.  The input is what is at `input[c][i]` for `i` below the block size. -/
noncomputable def shift (c : Conf) (o : Open κ) (e : Resampling ρ) (input : Nat → Frame ℝ) (s : State κ ρ) : Option (State κ ρ × List (Frame ℝ)) := do
  let s1 ← readIn c e ((List.range blockSize).map input) (prepad c s)
  let s2 ← generate c o (c.sizes s1.pitch).need s1
  let x ← readLoop e (c.sizes s2.pitch).outRatio (s2.outbuf.length + blockSize + 2) (c.sizes s2.pitch).feed ⟨s2.outbuf, s2.outs, []⟩
  pure ({ s2 with outbuf := x.outbuf, outs := x.outs, first := false }, finish c s2.first x.given)

/-- The calls. -/
inductive Call where
  | setPitchScale (q : Rat)
  | setFormantScale (x : Dbl)
  | setFormantOption (on : Bool)
  | shift (input : Nat → Frame ℝ)
  | reset

/-- A call, and what it gives to the caller. -/
noncomputable def step (c : Conf) (o : Open κ) (e : Resampling ρ) (s : State κ ρ) : Call → Option (State κ ρ × List (Frame ℝ))
  | .setPitchScale q => some (setPitchScale c e q s, [])
  | .setFormantScale x => some (setFormantScale x s, [])
  | .setFormantOption on => some (setFormantOption on s, [])
  | .shift input => shift c o e input s
  | .reset => some (reset c o e s, [])

/-- A history of calls: the state after it, and what each call gave. -/
noncomputable def run (c : Conf) (o : Open κ) (e : Resampling ρ) : State κ ρ → List Call → Option (State κ ρ × List (List (Frame ℝ)))
  | s, [] => some (s, [])
  | s, x :: xs => do
    let (s, out) ← step c o e s x
    let (s, outs) ← run c o e s xs
    pure (s, out :: outs)

end Verif.LiveAudio
