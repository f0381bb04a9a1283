import Verif.CApi
/-!
# The Java classes: objects, handles and numbers

Model of `com/breakfastquay/rubberband/RubberBandStretcher.java` and `RubberBandLiveShifter.java` with `src/jni/RubberBandStretcherJNI.cpp`, of whole programs with any number of objects of both classes.  What becomes of the samples
in the arrays is in `Jni`; here a call has the samples themselves.

The C++ stretcher is the one of `CApi` (the two engines are parameters), the live shifter is a parameter.  `jint` is a word of 32 bits, `jlong` and `size_t` have 64.  Native memory is a function from addresses, and the allocator is
a parameter: it gives an address that is not null and not in use, which may be one that was in use before.  A null pointer dereferenced, and a pointer to what is not there or is of another class, give `none`.
Not modelled: failing allocations, negative array lengths (there are none), objects used by several threads at once, and the methods of Java that call others with the whole arrays.
-/
namespace Verif.JavaApi
open Verif.CApi (U32 U64 Call Reply Conf Engines Impl Name)

/-- The methods of the Java class `RubberBandStretcher` but `dispose` (RubberBandStretcher.java:42-99). -/
inductive JCall (D F : Type) where
  | reset
  | setTimeRatio (r : D)
  | setPitchScale (r : D)
  | getChannelCount
  | getTimeRatio
  | getPitchScale
  | getPreferredStartPad
  | getStartDelay
  | getLatency
  | setTransientsOption (o : U32)
  | setDetectorOption (o : U32)
  | setPhaseOption (o : U32)
  | setFormantOption (o : U32)
  | setPitchOption (o : U32)
  | setExpectedInputDuration (n : U64)
  | setMaxProcessSize (n : U32)
  | getProcessSizeLimit
  | getSamplesRequired
  | setKeyFrameMap (from_ to_ : List U64)
  | study (input : List (List F)) (n : U32) (final : Bool)
  | process (input : List (List F)) (n : U32) (final : Bool)
  | available
  | retrieve (n : U32)

/-- The methods of the Java class `RubberBandLiveShifter` but `dispose` (RubberBandLiveShifter.java:38-53), and those of C++ that they call. -/
inductive LCall (D F : Type) where
  | reset
  | setPitchScale (r : D)
  | getChannelCount
  | getPitchScale
  | getStartDelay
  | setFormantOption (o : U32)
  | getBlockSize
  | shift (input : List (List F))

/-- What the methods of the live shifter return in C++. -/
inductive LReply (D F : Type) where
  | void
  | size (n : U64)
  | double (x : D)
  | shifted (audio : List (List F))

/-- What the methods return in Java. -/
inductive JReply (D F : Type) where
  | void
  | int (i : U32)
  | double (x : D)
  | retrieved (n : U32) (audio : List (List F))
  | shifted (audio : List (List F))

/-- The arguments of the constructor of the live shifter in C++ (RubberBandLiveShifter.cpp:171-176). -/
structure LConf where
  sampleRate : U64
  channels : U64
  options : U32

/-- The live shifter: constructor and methods. -/
structure Live (D F L : Type) where
  new : LConf → L
  call : LCall D F → L → L × LReply D F

/-- The arguments of the Java constructors (RubberBandStretcher.java:31-38, RubberBandLiveShifter.java:31-35). -/
inductive JConf (D : Type) where
  | stretcher (sampleRate channels options : U32) (timeRatio pitchScale : D)
  | live (sampleRate channels options : U32)

section
variable {D F S2 S3 L : Type}

/-- RubberBandStretcherJNI.cpp:464-466: `m[farr[i]] = tarr[i]` while there is both. -/
def keyMap : List U64 → List U64 → List (U64 × U64) → List (U64 × U64)
  | f :: from_, t :: to_, m => keyMap from_ to_ (CApi.insert f t m)
  | _, _, m => m

/-- RubberBandStretcherJNI.cpp:349-541: the method of C++ that is called.  `jint` as `size_t` keeps the sign. -/
def JCall.call : JCall D F → Call D F
  | .reset => .reset
  | .setTimeRatio r => .setTimeRatio r
  | .setPitchScale r => .setPitchScale r
  | .getChannelCount => .getChannelCount
  | .getTimeRatio => .getTimeRatio
  | .getPitchScale => .getPitchScale
  | .getPreferredStartPad => .getPreferredStartPad
  | .getStartDelay => .getStartDelay
  | .getLatency => .getLatency
  | .setTransientsOption o => .setTransientsOption o
  | .setDetectorOption o => .setDetectorOption o
  | .setPhaseOption o => .setPhaseOption o
  | .setFormantOption o => .setFormantOption o
  | .setPitchOption o => .setPitchOption o
  | .setExpectedInputDuration n => .setExpectedInputDuration n
  | .setMaxProcessSize n => .setMaxProcessSize (n.signExtend 64)
  | .getProcessSizeLimit => .getProcessSizeLimit
  | .getSamplesRequired => .getSamplesRequired
  | .setKeyFrameMap from_ to_ => .setKeyFrameMap (keyMap from_ to_ [])
  | .study input n final => .study input (n.signExtend 64) final
  | .process input n final => .process input (n.signExtend 64) final
  | .available => .available
  | .retrieve n => .retrieve (n.signExtend 64)

/-- RubberBandStretcherJNI.cpp:349-541: the value returned, `size_t` as `jint`.  No method called has the kinds of reply in the last lines. -/
def toJ : Reply D F → JReply D F
  | .void => .void
  | .int i => .int i
  | .size n => .int (n.setWidth 32)
  | .double x => .double x
  | .retrieved n audio => .retrieved (n.setWidth 32) audio
  | .float _ => .void
  | .ints _ => .void
  | .floats _ => .void

/-- RubberBandStretcherJNI.cpp:575-649: the value returned, `size_t` as `jint`. -/
def liveToJ : LReply D F → JReply D F
  | .void => .void
  | .size n => .int (n.setWidth 32)
  | .double x => .double x
  | .shifted audio => .shifted audio

/-- A C++ object. -/
inductive Object (S2 S3 L : Type) where
  | stretcher (i : Impl S2 S3)
  | live (l : L)

/-- RubberBandStretcherJNI.cpp:335-340, 561-566: the `new` in `initialise`; `int` as `size_t` keeps the sign. -/
def JConf.object (E : Engines D F S2 S3) (V : Live D F L) : JConf D → Object S2 S3 L
  | .stretcher rate channels options r p => .stretcher (Impl.new E ⟨rate.signExtend 64, channels.signExtend 64, options, r, p⟩)
  | .live rate channels options => .live (V.new ⟨rate.signExtend 64, channels.signExtend 64, options⟩)

/-- A call in Java, for an object of either class. -/
inductive AnyCall (D F : Type) where
  | stretcher (k : JCall D F)
  | live (k : LCall D F)

/-- The call on a C++ object: undefined if it is of the other class. -/
def Object.call (E : Engines D F S2 S3) (V : Live D F L) : AnyCall D F → Object S2 S3 L → Option (Object S2 S3 L × JReply D F)
  | .stretcher k, .stretcher i => (i.call E k.call).map fun p => (.stretcher p.1, toJ p.2)
  | .live k, .live l => some (.live (V.call k l).1, liveToJ (V.call k l).2)
  | _, _ => none

/-- Native memory: what is at an address. -/
abbrev Memory (S2 S3 L : Type) := Nat → Option (Object S2 S3 L)

/-- Something is put at an address, or what is there deleted. -/
def write (m : Memory S2 S3 L) (a : Nat) (x : Option (Object S2 S3 L)) : Memory S2 S3 L := fun b => if b = a then x else m b

/-- A program: native memory, and the field `handle` of each of the Java objects made so far (RubberBandStretcher.java:102, RubberBandLiveShifter.java:55). -/
structure State (S2 S3 L : Type) where
  memory : Memory S2 S3 L
  handles : List Nat

/-- Before anything is made. -/
def State.start : State S2 S3 L := ⟨fun _ => none, []⟩

/-- What a Java program does; objects are numbered in the order in which they were made. -/
inductive Op (D F : Type) where
  | new (c : JConf D)
  | call (h : Nat) (k : AnyCall D F)
  | dispose (h : Nat)

/-- One step; the reply, if it is a call, with the number of the object.  `dispose` (RubberBandStretcherJNI.cpp:342-347, 568-573): `delete` does nothing for a null pointer; then the handle is null. -/
def step (E : Engines D F S2 S3) (V : Live D F L) (alloc : Memory S2 S3 L → Nat) (o : Op D F) (s : State S2 S3 L) : Option (State S2 S3 L × Option (Nat × JReply D F)) :=
  match o with
  | .new c => some (⟨write s.memory (alloc s.memory) (some (c.object E V)), s.handles ++ [alloc s.memory]⟩, none)
  | .call h k =>
    (s.handles[h]?).bind fun a =>
      if a = 0 then none
      else (s.memory a).bind fun x => (x.call E V k).map fun p => (⟨write s.memory a (some p.1), s.handles⟩, some (h, p.2))
  | .dispose h =>
    (s.handles[h]?).bind fun a =>
      if a = 0 then some (⟨s.memory, s.handles.set h 0⟩, none)
      else (s.memory a).map fun _ => (⟨write s.memory a none, s.handles.set h 0⟩, none)

/-- A program, with all replies in the order in which they were given. -/
def run (E : Engines D F S2 S3) (V : Live D F L) (alloc : Memory S2 S3 L → Nat) : List (Op D F) → State S2 S3 L → Option (State S2 S3 L × List (Nat × JReply D F))
  | [], s => some (s, [])
  | o :: os, s => (step E V alloc o s).bind fun p => (run E V alloc os p.1).map fun q => (q.1, p.2.toList ++ q.2)

end

/-! ### The option constants -/

/-- RubberBandStretcher.java:104-143. -/
def java : Name → U32
  | .ProcessOffline => 0x00000000#32
  | .ProcessRealTime => 0x00000001#32
  | .StretchElastic => 0x00000000#32
  | .StretchPrecise => 0x00000010#32
  | .TransientsCrisp => 0x00000000#32
  | .TransientsMixed => 0x00000100#32
  | .TransientsSmooth => 0x00000200#32
  | .DetectorCompound => 0x00000000#32
  | .DetectorPercussive => 0x00000400#32
  | .DetectorSoft => 0x00000800#32
  | .PhaseLaminar => 0x00000000#32
  | .PhaseIndependent => 0x00002000#32
  | .ThreadingAuto => 0x00000000#32
  | .ThreadingNever => 0x00010000#32
  | .ThreadingAlways => 0x00020000#32
  | .WindowStandard => 0x00000000#32
  | .WindowShort => 0x00100000#32
  | .WindowLong => 0x00200000#32
  | .SmoothingOff => 0x00000000#32
  | .SmoothingOn => 0x00800000#32
  | .FormantShifted => 0x00000000#32
  | .FormantPreserved => 0x01000000#32
  | .PitchHighSpeed => 0x00000000#32
  | .PitchHighQuality => 0x02000000#32
  | .PitchHighConsistency => 0x04000000#32
  | .ChannelsApart => 0x00000000#32
  | .ChannelsTogether => 0x10000000#32
  | .EngineFaster => 0x00000000#32
  | .EngineFiner => 0x20000000#32

/-- RubberBandStretcher.java:146 `PercussiveOptions`. -/
def javaPercussive : U32 := 0x00102000#32

/-- The options of the live shifter, RubberBandLiveShifter.h:96-104. -/
inductive LName where
  | WindowShort | WindowMedium | FormantShifted | FormantPreserved | ChannelsApart | ChannelsTogether
  deriving DecidableEq

/-- RubberBandLiveShifter.h:97-104. -/
def LName.cpp : LName → U32
  | .WindowShort => 0x00000000#32
  | .WindowMedium => 0x00100000#32
  | .FormantShifted => 0x00000000#32
  | .FormantPreserved => 0x01000000#32
  | .ChannelsApart => 0x00000000#32
  | .ChannelsTogether => 0x10000000#32

/-- rubberband-c.h:165-175 `enum RubberBandLiveOption`. -/
def LName.c : LName → U32
  | .WindowShort => 0x00000000#32
  | .WindowMedium => 0x00100000#32
  | .FormantShifted => 0x00000000#32
  | .FormantPreserved => 0x01000000#32
  | .ChannelsApart => 0x00000000#32
  | .ChannelsTogether => 0x10000000#32

/-- RubberBandLiveShifter.java:57-64. -/
def LName.java : LName → U32
  | .WindowShort => 0x00000000#32
  | .WindowMedium => 0x00100000#32
  | .FormantShifted => 0x00000000#32
  | .FormantPreserved => 0x01000000#32
  | .ChannelsApart => 0x00000000#32
  | .ChannelsTogether => 0x10000000#32

end Verif.JavaApi
