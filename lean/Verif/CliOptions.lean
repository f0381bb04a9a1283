import Verif.R3
import Mathlib.Algebra.Order.Field.Basic
/-!
# The command-line utility: the options

Model of `main/main.cpp` from the options to the making of the stretcher.  What `getopt_long` makes of the arguments is given as a list of options, with the numbers that `atof` and `atoi` make of their arguments;
`pow(2.0, x / 12.0)` is a parameter.  Left out: messages, files that cannot be opened, the format of the output file (main.cpp:597-622), and the rounding of numbers.
-/
namespace Verif.CliOptions

variable {K : Type}

/-- main.cpp:145-181, 188-223: the options.  `tempos` is `--tempo` with a colon in its argument. -/
inductive Opt (K : Type) where
  | help | fullHelp | version
  | time (x : K) | tempo (x : K) | tempos (x y : K) | duration (x : K) | pitch (x : K) | frequency (x : K)
  | debug (n : Int) | realtime | loose | precise | formant | noThreads | threads
  | noTransients | noLamination | windowLong | windowShort | detectorPerc | detectorSoft | centreFocus | blTransients | smoothing
  | pitchHq | crisp (n : Int) | quiet | timemap (file : List Char) | freqmap (file : List Char) | pitchmap (file : List Char)
  | ignoreClipping | fast | fine | unknown
deriving DecidableEq

/-- main.cpp:118-122. -/
inductive Transients where
  | none | bandLimited | all
deriving DecidableEq

/-- main.cpp:124-128. -/
inductive Detector where
  | compound | percussive | soft
deriving DecidableEq

/-- main.cpp:87-130: the variables. -/
structure Settings (K : Type) where
  ratio : K
  duration : K
  pitchshift : K
  frequencyshift : K
  debug : Int := 0
  realtime : Bool := false
  precisiongiven : Bool := false
  threading : Nat := 0
  lamination : Bool := true
  longwin : Bool := false
  shortwin : Bool := false
  smoothing : Bool := false
  hqpitch : Bool := false
  formant : Bool := false
  together : Bool := false
  crispchanged : Bool := false
  crispness : Int := -1
  faster : Bool := false
  finer : Bool := false
  help : Bool := false
  fullHelp : Bool := false
  version : Bool := false
  quiet : Bool := false
  haveRatio : Bool := false
  timeMapFile : List Char := []
  freqMapFile : List Char := []
  pitchMapFile : List Char := []
  mapSpecified : Bool := false
  transients : Transients := .all
  detector : Detector := .compound
  ignoreClipping : Bool := false

section
variable [Field K] [DecidableEq K]

/-- main.cpp:68-72: `tempo_convert` of a number. -/
def tempoConvert (m : K) : K := if m ≠ 0 then 1 / m else 1

/-- main.cpp:74-82: `tempo_convert` of two numbers. -/
def temposConvert (m n : K) : K := if n ≠ 0 ∧ m ≠ 0 then m / n else 1

/-- main.cpp:188-223: the `switch`. -/
def Settings.apply (s : Settings K) : Opt K → Settings K
  | .help => { s with help := true }
  | .fullHelp => { s with fullHelp := true }
  | .version => { s with version := true }
  | .time x => { s with ratio := s.ratio * x, haveRatio := true }
  | .tempo x => { s with ratio := s.ratio * tempoConvert x, haveRatio := true }
  | .tempos x y => { s with ratio := s.ratio * temposConvert x y, haveRatio := true }
  | .duration x => { s with duration := x, haveRatio := true }
  | .pitch x => { s with pitchshift := x, haveRatio := true }
  | .frequency x => { s with frequencyshift := x, haveRatio := true }
  | .debug n => { s with debug := n }
  | .realtime => { s with realtime := true }
  | .loose => { s with precisiongiven := true }
  | .precise => { s with precisiongiven := true }
  | .formant => { s with formant := true }
  | .noThreads => { s with threading := 1 }
  | .threads => { s with threading := 2 }
  | .noTransients => { s with transients := .none, crispchanged := true }
  | .noLamination => { s with lamination := false, crispchanged := true }
  | .windowLong => { s with longwin := true, crispchanged := true }
  | .windowShort => { s with shortwin := true, crispchanged := true }
  | .detectorPerc => { s with detector := .percussive, crispchanged := true }
  | .detectorSoft => { s with detector := .soft, crispchanged := true }
  | .centreFocus => { s with together := true }
  | .blTransients => { s with transients := .bandLimited, crispchanged := true }
  | .smoothing => { s with smoothing := true, crispchanged := true }
  | .pitchHq => { s with hqpitch := true }
  | .crisp n => { s with crispness := n }
  | .quiet => { s with quiet := true }
  | .timemap f => { s with timeMapFile := f }
  | .freqmap f => { s with freqMapFile := f, mapSpecified := true }
  | .pitchmap f => { s with pitchMapFile := f, mapSpecified := true }
  | .ignoreClipping => { s with ignoreClipping := true }
  | .fast => { s with faster := true }
  | .fine => { s with finer := true }
  | .unknown => { s with help := true }

/-- main.cpp:142-224: the loop over the options. -/
def settings (opts : List (Opt K)) : Settings K := opts.foldl Settings.apply { ratio := 1, duration := 0, pitchshift := 0, frequencyshift := 1 }

end

/-- main.cpp:134-140 `isR3`. -/
def isR3 (name : List Char) : Bool :=
  (decide (name.length > 3) && name.drop (name.length - 3) == "-r3".toList) || (decide (name.length > 7) && name.drop (name.length - 7) == "-r3.exe".toList) ||
    (decide (name.length > 7) && name.drop (name.length - 7) == "-R3.EXE".toList)

/-- main.cpp:386-401: whether the finer engine is used. -/
def useFiner (r3 : Bool) (s : Settings K) : Bool :=
  let both := s.faster && s.finer
  let faster := s.faster && !both
  let finer := s.finer && !both
  if r3 then (if !faster then true else finer) else finer

/-- main.cpp:419-428: the `switch` on the crispness. -/
def crisped (s : Settings K) : Settings K :=
  if s.crispness = -1 then { s with crispness := 5 }
  else if s.crispness = 0 then { s with detector := .compound, transients := .none, lamination := false, longwin := true, shortwin := false }
  else if s.crispness = 1 then { s with detector := .soft, transients := .all, lamination := false, longwin := true, shortwin := false }
  else if s.crispness = 2 then { s with detector := .compound, transients := .none, lamination := false, longwin := false, shortwin := false }
  else if s.crispness = 3 then { s with detector := .compound, transients := .none, lamination := true, longwin := false, shortwin := false }
  else if s.crispness = 4 then { s with detector := .compound, transients := .bandLimited, lamination := true, longwin := false, shortwin := false }
  else if s.crispness = 5 then { s with detector := .compound, transients := .all, lamination := true, longwin := false, shortwin := false }
  else if s.crispness = 6 then { s with detector := .compound, transients := .all, lamination := false, longwin := false, shortwin := true }
  else s

/-- An option of the stretcher, if it is to be set. -/
def bit (b : Bool) (n : Nat) : Nat := if b then 2 ^ n else 0

/-- main.cpp:631-684: the options of the stretcher, with the values of RubberBandStretcher.h:394-433. -/
def word (finer realtime : Bool) (s : Settings K) : Nat :=
  bit finer 29 ||| bit realtime 0 ||| bit (!s.lamination) 13 ||| bit s.longwin 21 ||| bit s.shortwin 20 ||| bit s.smoothing 23 ||| bit s.formant 24 ||| bit s.together 28 |||
    (if s.mapSpecified then bit true 26 else bit s.hqpitch 25) |||
    (if s.threading = 1 then bit true 16 else bit (s.threading == 2) 17) |||
    (match s.transients with
      | .none => bit true 9
      | .bandLimited => bit true 8
      | .all => 0) |||
    (match s.detector with
      | .compound => 0
      | .percussive => bit true 10
      | .soft => bit true 11)

/-- With what the passes begin. -/
structure Run (K : Type) where
  /-- main.cpp:726-727: the options, the time ratio and the pitch scale of the stretcher. -/
  options : Nat
  ratio : K
  frequencyshift : K
  realtime : Bool
  ignoreClipping : Bool
  timeMapFile : List Char
  freqMapFile : List Char
  pitchMapFile : List Char

/-- What the utility does. -/
inductive Outcome (K : Type) where
  /-- main.cpp:226-229. -/
  | version
  /-- main.cpp:232-235. -/
  | bothMaps
  /-- main.cpp:240-379. -/
  | help
  /-- main.cpp:381-384. -/
  | badRatio
  /-- main.cpp:575-578. -/
  | noRate
  /-- main.cpp:581-584. -/
  | noFrames
  | run (r : Run K)

variable [Field K] [LinearOrder K]

/-- main.cpp:580-587: the time ratio, once the input file is open. -/
def finalRatio (ratio duration : K) (rate frames : Nat) : K :=
  if duration ≠ 0 then (if (frames : K) / (rate : K) ≠ 0 then duration / ((frames : K) / (rate : K)) else ratio) else ratio

/-- main.cpp:85-727: `files` is how many arguments are not options; `rate` and `frames` are what is in the header of the input file; `pow` is `pow(2.0, x / 12.0)`. -/
def start (pow : K → K) (name : List Char) (opts : List (Opt K)) (files rate frames : Nat) : Outcome K :=
  let s := settings opts
  if s.version then .version
  else if s.mapSpecified && (s.freqMapFile != [] && s.pitchMapFile != []) then .bothMaps
  else if s.help || s.fullHelp || !(s.haveRatio || s.mapSpecified) || files != 2 then .help
  else if s.ratio ≤ 0 then .badRatio
  else if rate = 0 then .noRate
  else if s.duration ≠ 0 ∧ frames = 0 then .noFrames
  else
    let t := crisped s
    let realtime := s.realtime || s.mapSpecified
    .run {
      options := word (useFiner (isR3 name) s) realtime t
      ratio := finalRatio s.ratio s.duration rate frames
      frequencyshift := if s.pitchshift ≠ 0 then s.frequencyshift * pow s.pitchshift else s.frequencyshift
      realtime := realtime
      ignoreClipping := s.ignoreClipping
      timeMapFile := s.timeMapFile
      freqMapFile := s.freqMapFile
      pitchMapFile := s.pitchMapFile }

/-- The options that the finer engine looks at: `m_parameters.options` in R3Stretcher.h:123, 427-429, 459-468, 488-495 and R3Stretcher.cpp:45, 1340, 1395; the last is whether formants are preserved. -/
def finerSees (options : Nat) (rate channels : Nat) : R3.Params × Bool :=
  ({ sampleRate := rate, channels := channels, realTime := options.testBit 0, highConsistency := options.testBit 26, highQuality := options.testBit 25, channelsTogether := options.testBit 28,
     windowShort := options.testBit 20 }, options.testBit 24)

end Verif.CliOptions
