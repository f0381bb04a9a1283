/-!
# The C interface of the live shifter

src/rubberband-c.cpp (the functions `rubberband_live_...`) and src/RubberBandLiveShifter.cpp (`RubberBandLiveShifter` and its `Impl`, which pass each call on to the
`R3LiveShifter`).

The shifter is a parameter: what each of its methods does with its state and what it returns is open (it is modelled elsewhere).  `unsigned int`, `int` and
`RubberBandOptions` are words of 32 bits, `size_t` has 64 bits; `double` and `float` are any types `D` and `F`, as they are only passed on.  Heap memory is a list of the
`RubberBandLiveState_` objects made so far; a use of one that does not exist or was deleted gives `none`.
Not modelled: loggers, `rubberband_live_set_default_debug_level` (what is logged by shifters made later), failing allocations.
-/

namespace Verif.CApiLive

/-- `unsigned int`, `int`. -/
abbrev U32 := BitVec 32
/-- `size_t`. -/
abbrev U64 := BitVec 64

/-- The methods of `RubberBandLiveShifter`, RubberBandLiveShifter.h:180-332, and of `R3LiveShifter`, with their arguments.  The buffers given to `shift` for output are in the reply. -/
inductive Call (D F : Type) where
  | reset
  | setPitchScale (r : D)
  | getPitchScale
  | setFormantScale (r : D)
  | getFormantScale
  | getStartDelay
  | setFormantOption (o : U32)
  | getBlockSize
  | shift (input : List (List F))
  | getChannelCount
  | setDebugLevel (l : U32)

/-- What the methods return. -/
inductive Reply (D F : Type) where
  | void
  | size (n : U64)
  | double (x : D)
  | shifted (audio : List (List F))

/-- What the shifter is made from. -/
structure Conf where
  sampleRate : U64
  channels : U64
  options : U32

/-- The shifter (src/finer/R3LiveShifter.h): constructor and methods. -/
structure Shifter (D F L : Type) where
  new : Conf → L
  call : Call D F → L → L × Reply D F

variable {D F L : Type} (V : Shifter D F L)

/-- RubberBandLiveShifter.cpp:89-166 the methods of `Impl`, each of which calls one of `m_s`. -/
def Impl.call (k : Call D F) (s : L) : L × Reply D F :=
  match k with
  | .reset => V.call .reset s
  | .setPitchScale r => V.call (.setPitchScale r) s
  | .getPitchScale => V.call .getPitchScale s
  | .setFormantScale r => V.call (.setFormantScale r) s
  | .getFormantScale => V.call .getFormantScale s
  | .getStartDelay => V.call .getStartDelay s
  | .setFormantOption o => V.call (.setFormantOption o) s
  | .getBlockSize => V.call .getBlockSize s
  | .shift input => V.call (.shift input) s
  | .getChannelCount => V.call .getChannelCount s
  | .setDebugLevel l => V.call (.setDebugLevel l) s

/-- The C functions that take a `RubberBandLiveState`, rubberband-c.h:182-206, with their other arguments. -/
inductive CCall (D F : Type) where
  | reset
  | setPitchScale (r : D)
  | getPitchScale
  | setFormantScale (r : D)
  | getFormantScale
  | getStartDelay
  | setFormantOption (o : U32)
  | getBlockSize
  | shift (input : List (List F))
  | getChannelCount
  | setDebugLevel (l : U32)

/-- What the C functions return. -/
inductive CReply (D F : Type) where
  | void
  | size (n : U32)
  | double (x : D)
  | shifted (audio : List (List F))

/-- rubberband-c.cpp:222-275: which method the C function calls, with which arguments, by way of
RubberBandLiveShifter.cpp:191-264. -/
def CCall.call : CCall D F → L → L × Reply D F
  | .reset => Impl.call V .reset
  | .setPitchScale r => Impl.call V (.setPitchScale r)
  | .getPitchScale => Impl.call V .getPitchScale
  | .setFormantScale r => Impl.call V (.setFormantScale r)
  | .getFormantScale => Impl.call V .getFormantScale
  | .getStartDelay => Impl.call V .getStartDelay
  | .setFormantOption o => Impl.call V (.setFormantOption o)
  | .getBlockSize => Impl.call V .getBlockSize
  | .shift input => Impl.call V (.shift input)
  | .getChannelCount => Impl.call V .getChannelCount
  | .setDebugLevel l => Impl.call V (.setDebugLevel l)

/-- rubberband-c.cpp:222-275: what becomes of the value returned, with the casts to `unsigned int`. -/
def Reply.toC : Reply D F → CReply D F
  | .void => .void
  | .size n => .size (n.setWidth 32)
  | .double x => .double x
  | .shifted audio => .shifted audio

/-- The arguments of `rubberband_live_new`. -/
structure CConf where
  sampleRate : U32
  channels : U32
  options : U32

/-- rubberband-c.cpp:206-214 `rubberband_live_new`: the numbers as `size_t`. -/
def CConf.conf (c : CConf) : Conf where
  sampleRate := c.sampleRate.setWidth 64
  channels := c.channels.setWidth 64
  options := c.options

/-- What a program does by way of the C interface; states are numbered in the order in which they were made. -/
inductive Op (D F : Type) where
  | new (c : CConf)
  | call (h : Nat) (k : CCall D F)
  | delete (h : Nat)

/-- The states made so far; `none` if deleted. -/
abbrev Heap (L : Type) := List (Option L)

/-- One step of a program; the reply, if it is a call, with the number of the state.  rubberband-c.cpp:206-220 `rubberband_live_new`, `rubberband_live_delete`. -/
def step (o : Op D F) (m : Heap L) : Option (Heap L × Option (Nat × CReply D F)) :=
  match o with
  | .new c => some (m ++ [some (V.new c.conf)], none)
  | .call h k => (m[h]?).join.map fun s => (m.set h (some (k.call V s).1), some (h, (k.call V s).2.toC))
  | .delete h => (m[h]?).join.map fun _ => (m.set h none, none)

/-- A program, with all replies in the order in which they were given. -/
def run : List (Op D F) → Heap L → Option (Heap L × List (Nat × CReply D F))
  | [], m => some (m, [])
  | o :: os, m => (step V o m).bind fun p => (run os p.1).map fun q => (q.1, p.2.toList ++ q.2)

end Verif.CApiLive
