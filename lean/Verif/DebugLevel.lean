/-!
# What is reported at which level

src/common/Log.h, Log.cpp; `setDebugLevel` and `setDefaultDebugLevel` of both engines and of the live shifter, and where the copies of the log come from that their parts have.

`Log` is copied by value, with its level, into the parts of a stretcher (guide, guided phase advances, stretch calculator), and resamplers are given a number made from it.
What the messages are and when they are given is open: a program has messages of any part at any level at any time.  Left out: the text and numbers of the messages and the
function called with them, and the ticks that the faster engine adds to its output above level 2.
-/

namespace Verif.DebugLevel

/-- The classes that have a debug level; the faster engine in real time or offline. -/
inductive Kind where
  | faster (realTime : Bool)
  | finer
  | live
deriving DecidableEq

/-- Log.h:51-59: a message of level `k` is reported. -/
def reports (debugLevel k : Int) : Bool := decide (k ≤ debugLevel)

/-- The level that a resampler is given: R2Stretcher.cpp:670-671, 807-808; R3Stretcher.cpp:303-305, R3LiveShifter.cpp:214-216. -/
def resamplerLevel (kind : Kind) (l : Int) : Int :=
  match kind with
  | .faster _ => if l > 0 then l - 1 else 0
  | _ => if l > 0 then l - 1 else l

/-- A stretcher or live shifter, with the levels of the logs in its parts. -/
structure Obj where
  kind : Kind
  /-- R2Stretcher.h:178, R3Stretcher.h:325, R3LiveShifter.h:300 `m_log`. -/
  engine : Int
  /-- Guide.h:470 `m_log`. -/
  guide : Option Int
  /-- PhaseAdvance.h:253 `m_log`, one for each FFT size. -/
  guided : List Int
  /-- StretchCalculator.h:115 `m_log`. -/
  calculator : Option Int
  /-- StretchCalculator.h:109 `m_debugLevel`, which nothing reads. -/
  unread : Int
  /-- Resampler.cpp:158, 583, 812, 966 `m_debugLevel`. -/
  resamplers : List Int

/-- Made when the default level is `d`, with `bands` FFT sizes and `n` resamplers.  Log.h:34-40; R2Stretcher.cpp:63-159 with `configure`:670-701; R3Stretcher.cpp:36-150;
R3LiveShifter.cpp:33-126. -/
def Obj.new (d : Int) (kind : Kind) (bands n : Nat) : Obj :=
  match kind with
  | .faster rt => ⟨.faster rt, d, none, [], some d, d, List.replicate n (resamplerLevel (.faster rt) d)⟩
  | .finer => ⟨.finer, d, some d, List.replicate bands d, some d, 0, List.replicate n (resamplerLevel .finer d)⟩
  | .live => ⟨.live, d, some d, List.replicate bands d, none, 0, List.replicate n (resamplerLevel .live d)⟩

/-- `setDebugLevel`: R2Stretcher.cpp:1178-1185, R3Stretcher.h:98-105, R3LiveShifter.h:82-88, with Guide.h:464-466, PhaseAdvance.h:247-249, StretchCalculator.h:86. -/
def Obj.setDebugLevel (o : Obj) (l : Int) : Obj :=
  { o with engine := l, guide := o.guide.map fun _ => l, guided := o.guided.map fun _ => l, unread := l }

/-- What makes parts anew: `reconfigure` of the faster engine, with a new calculator offline (R2Stretcher.cpp:734-738, 695-701), and `n` resamplers more (R2Stretcher.cpp:653-673,
795-810; R3Stretcher.cpp:748-756, 303-309). -/
def Obj.reconfigure (o : Obj) (n : Nat) : Obj :=
  { o with
    calculator := if o.kind = .faster false then some o.engine else o.calculator
    resamplers := o.resamplers ++ List.replicate n (resamplerLevel o.kind o.engine) }

/-- The parts that report. -/
inductive Part where
  | engine
  | guide
  | guided (b : Nat)
  | calculator
  | resampler (c : Nat)
deriving DecidableEq

/-- Is a message of level `k` from this part reported?  `none` if there is no such part.  A resampler tells what it tells if its level is above a number, 0, 1 or 2
(Resampler.cpp:172, 210, 311, 599, 824, 991); as it has one less than the stretcher, these are messages of levels 2, 3 and 4. -/
def Obj.reports (o : Obj) (part : Part) (k : Int) : Option Bool :=
  match part with
  | .engine => some (DebugLevel.reports o.engine k)
  | .guide => o.guide.map fun l => DebugLevel.reports l k
  | .guided b => (o.guided[b]?).map fun l => DebugLevel.reports l k
  | .calculator => o.calculator.map fun l => DebugLevel.reports l k
  | .resampler c => (o.resamplers[c]?).map fun l => decide (l > k - 2)

/-- What a program does; objects are numbered in the order in which they were made. -/
inductive Op where
  | setDefaultDebugLevel (l : Int)
  | new (kind : Kind) (bands n : Nat)
  | setDebugLevel (h : Nat) (l : Int)
  | reconfigure (h : Nat) (n : Nat)
deriving DecidableEq

/-- Log.cpp:30 `m_defaultDebugLevel`, and the objects. -/
structure State where
  default : Int
  objs : List Obj

/-- Log.cpp:30. -/
def State.start : State := ⟨0, []⟩

/-- One step.  (Simplified: objects that do not exist are passed over.) -/
def State.step (s : State) : Op → State
  | .setDefaultDebugLevel l => { s with default := l }
  | .new kind bands n => { s with objs := s.objs ++ [Obj.new s.default kind bands n] }
  | .setDebugLevel h l => { s with objs := s.objs.modify h fun o => o.setDebugLevel l }
  | .reconfigure h n => { s with objs := s.objs.modify h fun o => o.reconfigure n }

/-- After a program. -/
def after (ops : List Op) : State := ops.foldl State.step .start

/-- After a program: is a message of level `k` from a part of the object `h` reported?  `none` if there is no such object or part. -/
def reported (ops : List Op) (h : Nat) (part : Part) (k : Int) : Option Bool :=
  ((after ops).objs[h]?).bind fun o => o.reports part k

end Verif.DebugLevel
