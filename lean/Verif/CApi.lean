/-!
# The C interface and the choice of the engine

src/rubberband-c.cpp (the C functions), src/RubberBandStretcher.cpp (`RubberBandStretcher` and `RubberBandStretcher::Impl`, which passes each call to the engine that was
chosen on construction), rubberband/rubberband-c.h and rubberband/RubberBandStretcher.h (the option constants).

The two engines are parameters: what each of their methods does with their state and what it returns is open (they are modelled elsewhere).  `unsigned int`, `int` and
`RubberBandOptions` are words of 32 bits, `size_t` has 64 bits; `double` and `float` are any types `D` and `F`, as they are only passed on.  Heap memory is a list of the
`RubberBandState_` objects made so far; a use of one that does not exist or was deleted, a null pointer dereferenced, and an array read beyond its end give `none`.
Not modelled: loggers, `setDefaultDebugLevel` (what is logged by stretchers made later), failing allocations; the functions for the live shifter are in `CApiLive`.
-/

namespace Verif.CApi

/-- `unsigned int`, `int`. -/
abbrev U32 := BitVec 32
/-- `size_t`. -/
abbrev U64 := BitVec 64

/-- The methods of `RubberBandStretcher`, RubberBandStretcher.h:448-1150, with their arguments; `getLatency` is left to the wrapper (RubberBandStretcher.cpp `getLatency`
calls `getStartDelay`).  The buffers given to `retrieve` are in the reply. -/
inductive Call (D F : Type) where
  | reset
  | getEngineVersion
  | setTimeRatio (r : D)
  | setPitchScale (r : D)
  | getTimeRatio
  | getPitchScale
  | setFormantScale (r : D)
  | getFormantScale
  | getPreferredStartPad
  | getStartDelay
  | getLatency
  | setTransientsOption (o : U32)
  | setDetectorOption (o : U32)
  | setPhaseOption (o : U32)
  | setFormantOption (o : U32)
  | setPitchOption (o : U32)
  | setExpectedInputDuration (n : U64)
  | getSamplesRequired
  | setMaxProcessSize (n : U64)
  | getProcessSizeLimit
  | setKeyFrameMap (m : List (U64 × U64))
  | study (input : List (List F)) (n : U64) (final : Bool)
  | process (input : List (List F)) (n : U64) (final : Bool)
  | available
  | retrieve (n : U64)
  | getFrequencyCutoff (n : U32)
  | setFrequencyCutoff (n : U32) (f : F)
  | getInputIncrement
  | getOutputIncrements
  | getPhaseResetCurve
  | getExactTimePoints
  | getChannelCount
  | calculateStretch
  | setDebugLevel (l : U32)

/-- What the methods return. -/
inductive Reply (D F : Type) where
  | void
  | int (i : U32)
  | size (n : U64)
  | double (x : D)
  | float (x : F)
  | ints (l : List U32)
  | floats (l : List F)
  | retrieved (n : U64) (audio : List (List F))

/-- What an engine is made from (R2Stretcher.h, R3Stretcher.h, their constructors). -/
structure Conf (D : Type) where
  sampleRate : U64
  channels : U64
  options : U32
  timeRatio : D
  pitchScale : D

/-- The two engines: their constructors and their methods.  `zeroD`, `zeroF` are 0.0. -/
structure Engines (D F S2 S3 : Type) where
  new2 : Conf D → S2
  new3 : Conf D → S3
  call2 : Call D F → S2 → S2 × Reply D F
  call3 : Call D F → S3 → S3 × Reply D F
  zeroD : D
  zeroF : F

/-- RubberBandStretcher.h:433 `OptionEngineFiner`. -/
def engineFiner : U32 := 0x20000000#32

/-- RubberBandStretcher.cpp:32-33 `RubberBandStretcher::Impl`: pointers to the engines. -/
structure Impl (S2 S3 : Type) where
  r2 : Option S2
  r3 : Option S3

section
variable {D F S2 S3 : Type} (E : Engines D F S2 S3)

/-- RubberBandStretcher.cpp:76-91 `Impl::Impl`. -/
def Impl.new (c : Conf D) : Impl S2 S3 where
  r2 := if c.options &&& engineFiner = 0#32 then some (E.new2 c) else none
  r3 := if c.options &&& engineFiner ≠ 0#32 then some (E.new3 c) else none

/-- `m_r2->f(...)`: undefined if the pointer is null. -/
def Impl.on2 (k : Call D F) (i : Impl S2 S3) : Option (Impl S2 S3 × Reply D F) :=
  match i.r2 with
  | some s => some ({ i with r2 := some (E.call2 k s).1 }, (E.call2 k s).2)
  | none => none

/-- `m_r3->f(...)`: undefined if the pointer is null. -/
def Impl.on3 (k : Call D F) (i : Impl S2 S3) : Option (Impl S2 S3 × Reply D F) :=
  match i.r3 with
  | some s => some ({ i with r3 := some (E.call3 k s).1 }, (E.call3 k s).2)
  | none => none

/-- `if (m_r2) return m_r2->f(...); else return m_r3->f(...);` -/
def Impl.both (k : Call D F) (i : Impl S2 S3) : Option (Impl S2 S3 × Reply D F) :=
  if i.r2.isSome then i.on2 E k else i.on3 E k

/-- `if (m_r2) return m_r2->f(...); else return {};` and `if (m_r2) m_r2->f(...);` -/
def Impl.only2 (k : Call D F) (empty : Reply D F) (i : Impl S2 S3) : Option (Impl S2 S3 × Reply D F) :=
  if i.r2.isSome then i.on2 E k else some (i, empty)

/-- `if (m_r3) m_r3->f(...);` -/
def Impl.only3 (k : Call D F) (empty : Reply D F) (i : Impl S2 S3) : Option (Impl S2 S3 × Reply D F) :=
  if i.r3.isSome then i.on3 E k else some (i, empty)

/-- RubberBandStretcher.cpp:99-344 the methods of `Impl`, and :383-610 those of `RubberBandStretcher`, which call them. -/
def Impl.call (k : Call D F) (i : Impl S2 S3) : Option (Impl S2 S3 × Reply D F) :=
  match k with
  | .getEngineVersion => some (i, .int (if i.r3.isSome then 3#32 else 2#32))
  | .setFormantScale _ => i.only3 E k .void
  | .getFormantScale => if i.r2.isSome then some (i, .double E.zeroD) else i.on3 E k
  | .getLatency => i.both E .getStartDelay
  | .setTransientsOption _ => i.only2 E k .void
  | .setDetectorOption _ => i.only2 E k .void
  | .setPhaseOption _ => i.only2 E k .void
  | .setFormantOption _ => if i.r2.isSome then i.on2 E k else i.only3 E k .void
  | .setPitchOption _ => if i.r2.isSome then i.on2 E k else i.only3 E k .void
  | .getFrequencyCutoff _ => i.only2 E k (.float E.zeroF)
  | .setFrequencyCutoff _ _ => i.only2 E k .void
  | .getInputIncrement => i.only2 E k (.size 0#64)
  | .getOutputIncrements => i.only2 E k (.ints [])
  | .getPhaseResetCurve => i.only2 E k (.floats [])
  | .getExactTimePoints => i.only2 E k (.ints [])
  | .calculateStretch => i.only2 E k .void
  | k => i.both E k

/-! ### The C functions -/

/-- The functions of rubberband-c.h that take a `RubberBandState`, with their other arguments. -/
inductive CCall (D F : Type) where
  | reset
  | getEngineVersion
  | setTimeRatio (r : D)
  | setPitchScale (r : D)
  | getTimeRatio
  | getPitchScale
  | setFormantScale (r : D)
  | getFormantScale
  | getPreferredStartPad
  | getStartDelay
  | getLatency
  | setTransientsOption (o : U32)
  | setDetectorOption (o : U32)
  | setPhaseOption (o : U32)
  | setFormantOption (o : U32)
  | setPitchOption (o : U32)
  | setExpectedInputDuration (n : U32)
  | getSamplesRequired
  | setMaxProcessSize (n : U32)
  | getProcessSizeLimit
  | setKeyFrameMap (count : U32) (from_ to_ : List U32)
  | study (input : List (List F)) (n : U32) (final : U32)
  | process (input : List (List F)) (n : U32) (final : U32)
  | available
  | retrieve (n : U32)
  | getChannelCount
  | calculateStretch
  | setDebugLevel (l : U32)

/-- What the C functions return. -/
inductive CReply (D F : Type) where
  | void
  | int (i : U32)
  | size (n : U32)
  | double (x : D)
  | retrieved (n : U32) (audio : List (List F))

/-- `kfm[k] = v` for a `std::map<size_t, size_t>`, a list in the order of the keys. -/
def insert (k v : U64) : List (U64 × U64) → List (U64 × U64)
  | [] => [(k, v)]
  | (a, b) :: m =>
    if k.toNat < a.toNat then (k, v) :: (a, b) :: m
    else if k = a then (k, v) :: m
    else (a, b) :: insert k v m

/-- rubberband-c.cpp:154-157: the loop from `i` on, `n` rounds more. -/
def keyFrames (from_ to_ : List U32) : (n i : Nat) → List (U64 × U64) → Option (List (U64 × U64))
  | 0, _, m => some m
  | n + 1, i, m => do
    let f ← from_[i]?
    let t ← to_[i]?
    keyFrames from_ to_ n (i + 1) (insert (f.setWidth 64) (t.setWidth 64) m)

/-- rubberband-c.cpp:52-194: which method the C function calls, with which arguments. -/
def CCall.call : CCall D F → Option (Call D F)
  | .reset => some .reset
  | .getEngineVersion => some .getEngineVersion
  | .setTimeRatio r => some (.setTimeRatio r)
  | .setPitchScale r => some (.setPitchScale r)
  | .getTimeRatio => some .getTimeRatio
  | .getPitchScale => some .getPitchScale
  | .setFormantScale r => some (.setFormantScale r)
  | .getFormantScale => some .getFormantScale
  | .getPreferredStartPad => some .getPreferredStartPad
  | .getStartDelay => some .getStartDelay
  | .getLatency => some .getLatency
  | .setTransientsOption o => some (.setTransientsOption o)
  | .setDetectorOption o => some (.setDetectorOption o)
  | .setPhaseOption o => some (.setPhaseOption o)
  | .setFormantOption o => some (.setFormantOption o)
  | .setPitchOption o => some (.setPitchOption o)
  | .setExpectedInputDuration n => some (.setExpectedInputDuration (n.setWidth 64))
  | .getSamplesRequired => some .getSamplesRequired
  | .setMaxProcessSize n => some (.setMaxProcessSize (n.setWidth 64))
  | .getProcessSizeLimit => some .getProcessSizeLimit
  | .setKeyFrameMap count from_ to_ => (keyFrames from_ to_ count.toNat 0 []).map .setKeyFrameMap
  | .study input n final => some (.study input (n.setWidth 64) (final != 0#32))
  | .process input n final => some (.process input (n.setWidth 64) (final != 0#32))
  | .available => some .available
  | .retrieve n => some (.retrieve (n.setWidth 64))
  | .getChannelCount => some .getChannelCount
  | .calculateStretch => some .calculateStretch
  | .setDebugLevel l => some (.setDebugLevel l)

/-- rubberband-c.cpp: what becomes of the value returned, with the casts to `unsigned int`.  The C functions have no use for the kinds of reply in the last lines. -/
def Reply.toC : Reply D F → CReply D F
  | .void => .void
  | .int i => .int i
  | .size n => .size (n.setWidth 32)
  | .double x => .double x
  | .retrieved n audio => .retrieved (n.setWidth 32) audio
  | .float _ => .void
  | .ints _ => .void
  | .floats _ => .void

/-- The arguments of `rubberband_new`. -/
structure CConf (D : Type) where
  sampleRate : U32
  channels : U32
  options : U32
  timeRatio : D
  pitchScale : D

/-- rubberband-c.cpp:33-45 `rubberband_new`: the numbers as `size_t`. -/
def CConf.conf (c : CConf D) : Conf D where
  sampleRate := c.sampleRate.setWidth 64
  channels := c.channels.setWidth 64
  options := c.options
  timeRatio := c.timeRatio
  pitchScale := c.pitchScale

/-- What a program does by way of the C interface; states are numbered in the order in which they were made. -/
inductive Op (D F : Type) where
  | new (c : CConf D)
  | call (h : Nat) (k : CCall D F)
  | delete (h : Nat)

/-- The states made so far; `none` if deleted. -/
abbrev Heap (S2 S3 : Type) := List (Option (Impl S2 S3))

/-- One step of a program; the reply, if it is a call, with the number of the state. -/
def step (o : Op D F) (m : Heap S2 S3) : Option (Heap S2 S3 × Option (Nat × CReply D F)) :=
  match o with
  | .new c => some (m ++ [some (Impl.new E c.conf)], none)
  | .call h k => do
    let i ← (m[h]?).join
    let k ← k.call
    let (i', r) ← i.call E k
    some (m.set h (some i'), some (h, r.toC))
  | .delete h => do
    let _ ← (m[h]?).join
    some (m.set h none, none)

/-- A program, with all replies in the order in which they were given. -/
def run : List (Op D F) → Heap S2 S3 → Option (Heap S2 S3 × List (Nat × CReply D F))
  | [], m => some (m, [])
  | o :: os, m => do
    let (m', r) ← step E o m
    let (m'', rs) ← run os m'
    some (m'', r.toList ++ rs)

end

/-! ### The option constants -/

/-- The names of the options, RubberBandStretcher.h:392-434 and rubberband-c.h:62-104, without `Option` and `RubberBandOption`. -/
inductive Name where
  | ProcessOffline | ProcessRealTime | StretchElastic | StretchPrecise
  | TransientsCrisp | TransientsMixed | TransientsSmooth
  | DetectorCompound | DetectorPercussive | DetectorSoft
  | PhaseLaminar | PhaseIndependent
  | ThreadingAuto | ThreadingNever | ThreadingAlways
  | WindowStandard | WindowShort | WindowLong
  | SmoothingOff | SmoothingOn
  | FormantShifted | FormantPreserved
  | PitchHighSpeed | PitchHighQuality | PitchHighConsistency
  | ChannelsApart | ChannelsTogether
  | EngineFaster | EngineFiner
  deriving DecidableEq

/-- RubberBandStretcher.h:392-434 `enum Option`. -/
def Name.cpp : Name → U32
  | ProcessOffline => 0x00000000#32
  | ProcessRealTime => 0x00000001#32
  | StretchElastic => 0x00000000#32
  | StretchPrecise => 0x00000010#32
  | TransientsCrisp => 0x00000000#32
  | TransientsMixed => 0x00000100#32
  | TransientsSmooth => 0x00000200#32
  | DetectorCompound => 0x00000000#32
  | DetectorPercussive => 0x00000400#32
  | DetectorSoft => 0x00000800#32
  | PhaseLaminar => 0x00000000#32
  | PhaseIndependent => 0x00002000#32
  | ThreadingAuto => 0x00000000#32
  | ThreadingNever => 0x00010000#32
  | ThreadingAlways => 0x00020000#32
  | WindowStandard => 0x00000000#32
  | WindowShort => 0x00100000#32
  | WindowLong => 0x00200000#32
  | SmoothingOff => 0x00000000#32
  | SmoothingOn => 0x00800000#32
  | FormantShifted => 0x00000000#32
  | FormantPreserved => 0x01000000#32
  | PitchHighSpeed => 0x00000000#32
  | PitchHighQuality => 0x02000000#32
  | PitchHighConsistency => 0x04000000#32
  | ChannelsApart => 0x00000000#32
  | ChannelsTogether => 0x10000000#32
  | EngineFaster => 0x00000000#32
  | EngineFiner => 0x20000000#32

/-- rubberband-c.h:62-104 `enum RubberBandOption`. -/
def Name.c : Name → U32
  | ProcessOffline => 0x00000000#32
  | ProcessRealTime => 0x00000001#32
  | StretchElastic => 0x00000000#32
  | StretchPrecise => 0x00000010#32
  | TransientsCrisp => 0x00000000#32
  | TransientsMixed => 0x00000100#32
  | TransientsSmooth => 0x00000200#32
  | DetectorCompound => 0x00000000#32
  | DetectorPercussive => 0x00000400#32
  | DetectorSoft => 0x00000800#32
  | PhaseLaminar => 0x00000000#32
  | PhaseIndependent => 0x00002000#32
  | ThreadingAuto => 0x00000000#32
  | ThreadingNever => 0x00010000#32
  | ThreadingAlways => 0x00020000#32
  | WindowStandard => 0x00000000#32
  | WindowShort => 0x00100000#32
  | WindowLong => 0x00200000#32
  | SmoothingOff => 0x00000000#32
  | SmoothingOn => 0x00800000#32
  | FormantShifted => 0x00000000#32
  | FormantPreserved => 0x01000000#32
  | PitchHighSpeed => 0x00000000#32
  | PitchHighQuality => 0x02000000#32
  | PitchHighConsistency => 0x04000000#32
  | ChannelsApart => 0x00000000#32
  | ChannelsTogether => 0x10000000#32
  | EngineFaster => 0x00000000#32
  | EngineFiner => 0x20000000#32

end Verif.CApi
