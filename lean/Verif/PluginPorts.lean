import Mathlib.Analysis.SpecialFunctions.Pow.Real
/-!
# The plugins: what they announce, ports, and the pitch they are set to

Model of the tables and of `getDescriptor`, `instantiate`, `connectPort` and `updateRatio` of `ladspa-lv2/RubberBandPitchShifter.cpp`, `RubberBandR3PitchShifter.cpp` and `RubberBandLivePitchShifter.cpp` (each in both
formats), of `ladspa-lv2/libmain-ladspa.cpp` and `libmain-lv2.cpp`, and of `ladspa-lv2/rubberband.lv2/lv2-rubberband.ttl`.

Simplified: numbers are exact reals (no values that are not numbers or not finite); a place in the memory of the host is a number, and what is there a real.  What the plugin does with the audio is in `Plugin` and
`PluginLive`.
-/
namespace Verif.PluginPorts

/-- The three plugins: RubberBandPitchShifter, RubberBandR3PitchShifter, RubberBandLivePitchShifter. -/
inductive Kind where
  | faster | finer | live
  deriving DecidableEq, Repr

/-- RB_PLUGIN_LADSPA or RB_PLUGIN_LV2 (libmain-ladspa.cpp:24-28, libmain-lv2.cpp:24-28). -/
inductive Format where
  | ladspa | lv2
  deriving DecidableEq, Repr

/-- The pointers of a plugin (RubberBandPitchShifter.h:119-127). -/
inductive Field where
  | latency | cents | semitones | octaves | crispness | formant | wetDry
  | input (c : Nat)
  | output (c : Nat)
  deriving DecidableEq, Repr

/-- What is announced about a port, but its index: a name (LADSPA) or symbol (LV2), its direction, whether it is for audio, and its range if it has one. -/
structure Port where
  name : String
  input : Bool
  audio : Bool
  range : Option (Int × Int)
  deriving DecidableEq, Repr

/-! ## LADSPA -/

/-- RubberBandPitchShifter.cpp:40-67 `portNamesMono`, `portNamesStereo`; RubberBandR3PitchShifter.cpp:39-64 and RubberBandLivePitchShifter.cpp:39-64. -/
def portNames : Kind → Bool → List String
  | .faster, false => ["latency", "Cents", "Semitones", "Octaves", "Crispness", "Formant Preserving", "Wet-Dry Mix", "Input", "Output"]
  | .faster, true => ["latency", "Cents", "Semitones", "Octaves", "Crispness", "Formant Preserving", "Wet-Dry Mix", "Input L", "Output L", "Input R", "Output R"]
  | .finer, false => ["latency", "Cents", "Semitones", "Octaves", "Formant Preserving", "Wet-Dry Mix", "Input", "Output"]
  | .finer, true => ["latency", "Cents", "Semitones", "Octaves", "Formant Preserving", "Wet-Dry Mix", "Input L", "Output L", "Input R", "Output R"]
  | .live, false => ["latency", "Cents", "Semitones", "Octaves", "Formant Preserving", "Wet-Dry Mix", "Input", "Output"]
  | .live, true => ["latency", "Cents", "Semitones", "Octaves", "Formant Preserving", "Wet-Dry Mix", "Input L", "Output L", "Input R", "Output R"]

/-- RubberBandPitchShifter.cpp:70-98 `portsMono`, `portsStereo`; RubberBandR3PitchShifter.cpp:66-92 and RubberBandLivePitchShifter.cpp:66-92: whether a port is for input, and whether it is for audio. -/
def portDescriptors : Kind → Bool → List (Bool × Bool)
  | .faster, false => [(false, false), (true, false), (true, false), (true, false), (true, false), (true, false), (true, false), (true, true), (false, true)]
  | .faster, true => [(false, false), (true, false), (true, false), (true, false), (true, false), (true, false), (true, false), (true, true), (false, true), (true, true), (false, true)]
  | .finer, false => [(false, false), (true, false), (true, false), (true, false), (true, false), (true, false), (true, true), (false, true)]
  | .finer, true => [(false, false), (true, false), (true, false), (true, false), (true, false), (true, false), (true, true), (false, true), (true, true), (false, true)]
  | .live, false => [(false, false), (true, false), (true, false), (true, false), (true, false), (true, false), (true, true), (false, true)]
  | .live, true => [(false, false), (true, false), (true, false), (true, false), (true, false), (true, false), (true, true), (false, true), (true, true), (false, true)]

/-- RubberBandPitchShifter.cpp:100-173 `hintsMono`, `hintsStereo`; RubberBandR3PitchShifter.cpp:94-157 and RubberBandLivePitchShifter.cpp:94-157: the ranges (defaults are left out). -/
def hints : Kind → Bool → List (Option (Int × Int))
  | .faster, false => [none, some (-100, 100), some (-12, 12), some (-2, 2), some (0, 3), some (0, 1), some (0, 1), none, none]
  | .faster, true => [none, some (-100, 100), some (-12, 12), some (-2, 2), some (0, 3), some (0, 1), some (0, 1), none, none, none, none]
  | .finer, false => [none, some (-100, 100), some (-12, 12), some (-2, 2), some (0, 1), some (0, 1), none, none]
  | .finer, true => [none, some (-100, 100), some (-12, 12), some (-2, 2), some (0, 1), some (0, 1), none, none, none, none]
  | .live, false => [none, some (-100, 100), some (-12, 12), some (-2, 2), some (0, 1), some (0, 1), none, none]
  | .live, true => [none, some (-100, 100), some (-12, 12), some (-2, 2), some (0, 1), some (0, 1), none, none, none, none]

/-- RubberBandPitchShifter.h:63-77 and the like: `PortCountMono`, `PortCountStereo`. -/
def portCount : Kind → Bool → Nat
  | .faster, false => 9
  | .faster, true => 11
  | .finer, false => 8
  | .finer, true => 10
  | .live, false => 8
  | .live, true => 10

/-- A LADSPA descriptor (RubberBandPitchShifter.cpp:178-224 and the like): identification, label, number of ports, and the ports. -/
structure LadspaDescriptor where
  kind : Kind
  id : Nat
  label : String
  count : Nat
  names : List String
  descriptors : List (Bool × Bool)
  hints : List (Option (Int × Int))

/-- RubberBandPitchShifter.cpp:178-224, RubberBandR3PitchShifter.cpp:162-208, RubberBandLivePitchShifter.cpp:162-208. -/
def ladspaDescriptor (k : Kind) (stereo : Bool) : LadspaDescriptor :=
  let (id, label) := match k, stereo with
    | .faster, false => (2979, "rubberband-pitchshifter-mono")
    | .faster, true => (9792, "rubberband-pitchshifter-stereo")
    | .finer, false => (29790, "rubberband-r3-pitchshifter-mono")
    | .finer, true => (97920, "rubberband-r3-pitchshifter-stereo")
    | .live, false => (29791, "rubberband-live-pitchshifter-mono")
    | .live, true => (97921, "rubberband-live-pitchshifter-stereo")
  ⟨k, id, label, portCount k stereo, portNames k stereo, portDescriptors k stereo, hints k stereo⟩

/-- `getDescriptor` of a plugin (RubberBandPitchShifter.cpp:226-232, 262-268 and the like): which of its two descriptors. -/
def getDescriptor (k : Kind) (index : Nat) : Option (Kind × Bool) := if index = 0 then some (k, false) else if index = 1 then some (k, true) else none

/-- libmain-ladspa.cpp:34-43 `ladspa_descriptor`, libmain-lv2.cpp:35-44 `lv2_descriptor`. -/
def descriptor (index : Nat) : Option (Kind × Bool) :=
  if index < 2 then getDescriptor .faster index else if index < 4 then getDescriptor .finer (index - 2) else getDescriptor .live (index - 4)

/-- A port of a LADSPA plugin as the host sees it. -/
def LadspaDescriptor.port (d : LadspaDescriptor) (i : Nat) : Option Port :=
  if i < d.count then (d.names[i]?).bind fun name => (d.descriptors[i]?).bind fun x => (d.hints[i]?).map fun range => ⟨name, x.1, x.2, range⟩ else none

/-! ## LV2 -/

/-- RubberBandPitchShifter.cpp:236-260 and the like: the URIs. -/
def uri : Kind → Bool → String
  | .faster, false => "http://breakfastquay.com/rdf/lv2-rubberband#mono"
  | .faster, true => "http://breakfastquay.com/rdf/lv2-rubberband#stereo"
  | .finer, false => "http://breakfastquay.com/rdf/lv2-rubberband#r3mono"
  | .finer, true => "http://breakfastquay.com/rdf/lv2-rubberband#r3stereo"
  | .live, false => "http://breakfastquay.com/rdf/lv2-rubberband#livemono"
  | .live, true => "http://breakfastquay.com/rdf/lv2-rubberband#livestereo"

/-- lv2-rubberband.ttl:18-107: ports that the plugins share, with their indices. -/
def latencyPort : Nat × Port := (0, ⟨"latency", false, false, none⟩)
/-- lv2-rubberband.ttl:27-35. -/
def centsPort : Nat × Port := (1, ⟨"cents", true, false, some (-100, 100)⟩)
/-- lv2-rubberband.ttl:37-45. -/
def semitonesPort : Nat × Port := (2, ⟨"semitones", true, false, some (-12, 12)⟩)
/-- lv2-rubberband.ttl:47-55. -/
def octavesPort : Nat × Port := (3, ⟨"octaves", true, false, some (-2, 2)⟩)
/-- lv2-rubberband.ttl:57-69. -/
def crispnessPort : Nat × Port := (4, ⟨"crispness", true, false, some (0, 3)⟩)
/-- lv2-rubberband.ttl:71-79. -/
def formantPort : Nat × Port := (5, ⟨"formant", true, false, some (0, 1)⟩)
/-- lv2-rubberband.ttl:81-89. -/
def formantPortR3 : Nat × Port := (4, ⟨"formant", true, false, some (0, 1)⟩)
/-- lv2-rubberband.ttl:91-98. -/
def wetDryPort : Nat × Port := (6, ⟨"wetdry", true, false, some (0, 1)⟩)
/-- lv2-rubberband.ttl:100-107. -/
def wetDryPortR3 : Nat × Port := (5, ⟨"wetdry", true, false, some (0, 1)⟩)

/-- An LV2 plugin as described in the file: the LADSPA plugin it stands for (`dc:replaces`), and its ports. -/
structure Lv2Description where
  uri : String
  replaces : Nat
  ports : List (Nat × Port)

/-- lv2-rubberband.ttl:129-397 (`rubberband:` is the prefix of the URIs, line 9). -/
def ttl : List Lv2Description :=
  [⟨"http://breakfastquay.com/rdf/lv2-rubberband#mono", 2979,
      [latencyPort, centsPort, semitonesPort, octavesPort, crispnessPort, formantPort, wetDryPort, (7, ⟨"input", true, true, none⟩), (8, ⟨"output", false, true, none⟩)]⟩,
    ⟨"http://breakfastquay.com/rdf/lv2-rubberband#r3mono", 29790,
      [latencyPort, centsPort, semitonesPort, octavesPort, formantPortR3, wetDryPortR3, (6, ⟨"input", true, true, none⟩), (7, ⟨"output", false, true, none⟩)]⟩,
    ⟨"http://breakfastquay.com/rdf/lv2-rubberband#livemono", 29791,
      [latencyPort, centsPort, semitonesPort, octavesPort, formantPortR3, wetDryPortR3, (6, ⟨"input", true, true, none⟩), (7, ⟨"output", false, true, none⟩)]⟩,
    ⟨"http://breakfastquay.com/rdf/lv2-rubberband#stereo", 9792,
      [latencyPort, centsPort, semitonesPort, octavesPort, crispnessPort, formantPort, wetDryPort, (7, ⟨"input_l", true, true, none⟩), (8, ⟨"output_l", false, true, none⟩),
        (9, ⟨"input_r", true, true, none⟩), (10, ⟨"output_r", false, true, none⟩)]⟩,
    ⟨"http://breakfastquay.com/rdf/lv2-rubberband#r3stereo", 97920,
      [latencyPort, centsPort, semitonesPort, octavesPort, formantPortR3, wetDryPortR3, (6, ⟨"input_l", true, true, none⟩), (7, ⟨"output_l", false, true, none⟩),
        (8, ⟨"input_r", true, true, none⟩), (9, ⟨"output_r", false, true, none⟩)]⟩,
    ⟨"http://breakfastquay.com/rdf/lv2-rubberband#livestereo", 97921,
      [latencyPort, centsPort, semitonesPort, octavesPort, formantPortR3, wetDryPortR3, (6, ⟨"input_l", true, true, none⟩), (7, ⟨"output_l", false, true, none⟩),
        (8, ⟨"input_r", true, true, none⟩), (9, ⟨"output_r", false, true, none⟩)]⟩]

/-- A port of an LV2 plugin as the host sees it: the one with this index. -/
def Lv2Description.port (d : Lv2Description) (i : Nat) : Option Port := (d.ports.find? fun x => x.1 == i).map Prod.snd

/-! ## Instances -/

/-- A place in the memory of the host. -/
abbrev Place := Nat

/-- An instance of a plugin: its pointers (`none` is null). -/
structure Instance where
  kind : Kind
  format : Format
  rate : Int
  channels : Nat
  pointer : Field → Option Place

/-- RubberBandPitchShifter.cpp:272-324 and the like, what matters here: the constructor. -/
def make (k : Kind) (f : Format) (rate : Int) (channels : Nat) : Instance := ⟨k, f, rate, channels, fun _ => none⟩

/-- `round` of C: to the nearest, halves away from zero. -/
noncomputable def roundC (x : ℝ) : Int := if 0 ≤ x then ⌊x + 1 / 2⌋ else ⌈x - 1 / 2⌉

/-- RubberBandPitchShifter.cpp:342-351 and the like: `instantiate` (LADSPA) of the plugin `k`, with the descriptor `d`. -/
def instantiateLadspa (k : Kind) (d : LadspaDescriptor) (rate : Nat) : Option Instance :=
  if d.count = (ladspaDescriptor k false).count then some (make k .ladspa rate 1)
  else if d.count = (ladspaDescriptor k true).count then some (make k .ladspa rate 2)
  else none

/-- RubberBandPitchShifter.cpp:355-374 and the like: `instantiate` (LV2) of the plugin `k`, with a descriptor of this URI. -/
noncomputable def instantiateLv2 (k : Kind) (u : String) (rate : ℝ) : Option Instance :=
  if rate < 1 then none
  else if u = uri k false then some (make k .lv2 (roundC rate) 1)
  else if u = uri k true then some (make k .lv2 (roundC rate) 2)
  else none

/-- RubberBandPitchShifter.cpp:389-401, RubberBandR3PitchShifter.cpp:373-384, RubberBandLivePitchShifter.cpp:374-385: the table in `connectPort`. -/
def table : Kind → List Field
  | .faster => [.latency, .cents, .semitones, .octaves, .crispness, .formant, .wetDry, .input 0, .output 0, .input 1, .output 1]
  | .finer => [.latency, .cents, .semitones, .octaves, .formant, .wetDry, .input 0, .output 0, .input 1, .output 1]
  | .live => [.latency, .cents, .semitones, .octaves, .formant, .wetDry, .input 0, .output 0, .input 1, .output 1]

/-- Whether there is such a pointer: those of audio are in arrays with one for each channel (RubberBandPitchShifter.cpp:298-299). -/
def Instance.has (s : Instance) : Field → Bool
  | .input c => decide (c < s.channels)
  | .output c => decide (c < s.channels)
  | _ => true

/-- The host's memory with a number stored at a place. -/
def store (mem : Place → ℝ) (p : Place) (v : ℝ) : Place → ℝ := fun q => if q = p then v else mem q

/-- RubberBandPitchShifter.cpp:378-413, RubberBandR3PitchShifter.cpp:361-397, RubberBandLivePitchShifter.cpp:362-398 `connectPort`; `lat` is what `getLatency` gives.  `none` if something is read or written beyond the end
of an array. -/
def connectPort (lat : ℝ) (port : Nat) (location : Option Place) (s : Instance) (mem : Place → ℝ) : Option (Instance × (Place → ℝ)) :=
  if port ≥ (if s.channels = 1 then portCount s.kind false else portCount s.kind true) then some (s, mem)
  else ((table s.kind)[port]?).bind fun f =>
    if s.has f then
      let s := { s with pointer := fun g => if g = f then location else s.pointer g }
      some (s, match s.pointer .latency with
        | some p => store mem p lat
        | none => mem)
    else none

/-- A call of `connectPort` by the host. -/
structure Connection where
  port : Nat
  location : Option Place
  /-- The latency at the time. -/
  latency : ℝ

/-- Any number of them. -/
def connects : List Connection → Instance → (Place → ℝ) → Option (Instance × (Place → ℝ))
  | [], s, mem => some (s, mem)
  | c :: cs, s, mem => (connectPort c.latency c.port c.location s mem).bind fun x => connects cs x.1 x.2

/-! ## The pitch -/

/-- `(m_octaves ? *m_octaves : 0.0)` and the like (RubberBandPitchShifter.cpp:509-511, 518-528). -/
def Instance.value (s : Instance) (mem : Place → ℝ) (f : Field) : ℝ :=
  match s.pointer f with
  | some p => mem p
  | none => 0

/-- RubberBandPitchShifter.cpp:518-520: rounded, and no less than `-b` and no more than `b`. -/
noncomputable def limited (b : Int) (x : ℝ) : ℝ :=
  let y : ℝ := roundC x
  let y := if y < -b then -(b : ℝ) else y
  if y > b then b else y

/-- RubberBandPitchShifter.cpp:497-536, RubberBandR3PitchShifter.cpp:479-518, RubberBandLivePitchShifter.cpp:463-487 `updateRatio` (the live one does not go by the format). -/
noncomputable def ratio (s : Instance) (mem : Place → ℝ) : ℝ :=
  if s.format = .ladspa ∧ s.kind ≠ .live then
    (2 : ℝ) ^ (s.value mem .octaves + s.value mem .semitones / 12 + s.value mem .cents / 1200)
  else
    (2 : ℝ) ^ (limited 2 (s.value mem .octaves) + limited 12 (s.value mem .semitones) / 12 + limited 100 (s.value mem .cents) / 1200)

end Verif.PluginPorts
