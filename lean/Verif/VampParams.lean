import Verif.Vamp
import Verif.CApi
import Mathlib.Data.Rat.Floor
/-!
# The Vamp plugin: parameters, outputs, and the stretcher it makes

Model of `getParameterDescriptors`, `getParameter`, `setParameter`, `getOutputDescriptors` and of the choice of options in `initialise` in `vamp/RubberBandVampPlugin.cpp`.

Simplified: `float` values are exact rationals, so that `value / 100 * 100.f` is `value`; of the descriptors the texts for the user, the units, and what is said about the values of the outputs are left out; the buffer sizes that
`initialise` keeps, and what a stretcher does, are in `Vamp`.
-/
namespace Verif.VampParams
open Verif.Vamp (Output)
open Verif.CApi (U32 Name)

/-- RubberBandVampPlugin.cpp:238-329: a `ParameterDescriptor`: range, default, whether only whole numbers are meant (`isQuantized` with a `quantizeStep` of 1), and the names of the values from the least one on. -/
structure Parameter where
  id : String
  min : Int
  max : Int
  default : Int
  quantized : Bool
  names : List String

/-- RubberBandVampPlugin.cpp:234-332 `getParameterDescriptors`. -/
def parameters : List Parameter :=
  [⟨"timeratio", 1, 500, 100, false, []⟩,
    ⟨"pitchratio", 1, 500, 100, false, []⟩,
    ⟨"mode", 0, 1, 0, true, ["Offline", "Real Time"]⟩,
    ⟨"stretchtype", 0, 1, 0, true, ["Elastic", "Precise"]⟩,
    ⟨"transientmode", 0, 2, 0, true, ["Mixed", "Smooth", "Crisp"]⟩,
    ⟨"phasemode", 0, 1, 0, true, ["Laminar", "Independent"]⟩,
    ⟨"windowmode", 0, 2, 0, true, ["Standard", "Short", "Long"]⟩]

/-- RubberBandVampPlugin.cpp:45-51: the members the parameters are kept in. -/
structure Settings where
  timeRatio : ℚ
  pitchRatio : ℚ
  realtime : Bool
  elasticTiming : Bool
  transientMode : Int
  phaseIndependent : Bool
  windowLength : Int

/-- RubberBandVampPlugin.cpp:88-102: the constructor. -/
def Settings.start : Settings := ⟨1, 1, false, true, 0, false, 0⟩

/-- RubberBandVampPlugin.cpp:335-346 `getParameter`. -/
def getParameter (s : Settings) (id : String) : ℚ :=
  if id = "timeratio" then s.timeRatio * 100
  else if id = "pitchratio" then s.pitchRatio * 100
  else if id = "mode" then (if s.realtime then 1 else 0)
  else if id = "stretchtype" then (if s.elasticTiming then 0 else 1)
  else if id = "transientmode" then s.transientMode
  else if id = "phasemode" then (if s.phaseIndependent then 1 else 0)
  else if id = "windowmode" then s.windowLength
  else 0

/-- `int(value)`: without the part after the point; undefined if that is no `int`. -/
def toInt (x : ℚ) : Option Int :=
  let n := if 0 ≤ x then ⌊x⌋ else ⌈x⌉
  if -2147483648 ≤ n ∧ n ≤ 2147483647 then some n else none

/-- RubberBandVampPlugin.cpp:348-363 `setParameter`. -/
def setParameter (id : String) (value : ℚ) (s : Settings) : Option Settings :=
  if id = "timeratio" then some { s with timeRatio := value / 100 }
  else if id = "pitchratio" then some { s with pitchRatio := value / 100 }
  else
    let set := decide (value > 1 / 2)
    if id = "mode" then some { s with realtime := set }
    else if id = "stretchtype" then some { s with elasticTiming := !set }
    else if id = "transientmode" then (toInt (value + 1 / 2)).map fun n => { s with transientMode := n }
    else if id = "phasemode" then some { s with phaseIndependent := set }
    else if id = "windowmode" then (toInt (value + 1 / 2)).map fun n => { s with windowLength := n }
    else some s

/-- RubberBandVampPlugin.cpp:374-401: the options in `initialise`. -/
def options (s : Settings) : U32 :=
  let o : U32 := 0#32
  let o := if s.realtime then o ||| Name.ProcessRealTime.cpp else o ||| Name.ProcessOffline.cpp
  let o := if s.elasticTiming then o ||| Name.StretchElastic.cpp else o ||| Name.StretchPrecise.cpp
  let o := if s.transientMode = 0 then o ||| Name.TransientsMixed.cpp else if s.transientMode = 1 then o ||| Name.TransientsSmooth.cpp else o ||| Name.TransientsCrisp.cpp
  let o := if s.phaseIndependent then o ||| Name.PhaseIndependent.cpp else o ||| Name.PhaseLaminar.cpp
  if s.windowLength = 0 then o ||| Name.WindowStandard.cpp else if s.windowLength = 1 then o ||| Name.WindowShort.cpp else o ||| Name.WindowLong.cpp

/-- What a stretcher was made with and set to (RubberBandVampPlugin.cpp:403-408). -/
structure Stretcher where
  channels : Nat
  options : U32
  timeRatio : ℚ
  pitchScale : ℚ

/-- RubberBandVampPlugin.cpp:155-231: the identifiers of the outputs in the order of the list, each with the member that gets its number. -/
def identifiers : List (Output × String) :=
  [(.increments, "increments"), (.aggregate, "aggregate_increments"), (.divergence, "divergence"), (.curve, "phaseresetdf"), (.smoothed, "smoothedphaseresetdf"), (.resets, "phaseresetpoints"), (.syncs, "timesyncpoints")]

/-- `m_x = list.size(); list.push_back(d);` for each of them. -/
def number : List (Output × String) → List String → (Output → Nat) → List String × (Output → Nat)
  | [], list, f => (list, f)
  | (o, id) :: rest, list, f => number rest (list ++ [id]) (fun x => if x = o then list.length else f x)

/-- A plugin: parameters, the numbers of the outputs, and the stretcher if there is one. -/
structure State where
  settings : Settings
  output : Output → Nat
  stretcher : Option Stretcher

/-- RubberBandVampPlugin.cpp:88-102 the constructor; `new Impl()` has zeroes where nothing is set. -/
def State.start : State := ⟨.start, fun _ => 0, none⟩

/-- What a host does. -/
inductive Op where
  | set (id : String) (value : ℚ)
  | describe
  | initialise (channels : Nat)

/-- One call.  `initialise` (RubberBandVampPlugin.cpp:365-413) takes one channel, as the plugin leaves the least and greatest numbers of channels as they are in `Vamp::Plugin`: 1. -/
def step (s : State) : Op → Option State
  | .set id value => (setParameter id value s.settings).map fun p => { s with settings := p }
  | .describe => some { s with output := (number identifiers [] s.output).2 }
  | .initialise channels =>
    if channels < 1 ∨ channels > 1 then some s
    else some { s with stretcher := some ⟨channels, options s.settings, s.settings.timeRatio, s.settings.pitchRatio⟩ }

/-- All calls of a host. -/
def run : List Op → State → Option State
  | [], s => some s
  | o :: os, s => (step s o).bind (run os)

/-- RubberBandVampPlugin.cpp:600-670: where in the set of features a feature goes, `features[m_x]`. -/
def place (s : State) (f : Vamp.Feature) : Nat := s.output f.output

end Verif.VampParams
