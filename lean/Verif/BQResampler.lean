import Verif.MathMisc
import Verif.VectorOps
/-!
# Model of `src/common/BQResampler.cpp`

The sample type `α` and the arithmetic on samples are left open: `Arith` holds the
operations the code performs on them, about which nothing is assumed, so that what
is proved holds for single-precision arithmetic with any rounding.  Ratios and
the other `double` quantities that decide sizes and positions are exact rationals.
`int` is unbounded.  `none` is undefined behaviour: an access outside an array, a
division by zero in `int`, or a loop that does not end.

Allocation (`reserve`), debug output and the copy constructor are left out.
-/
namespace Verif.BQ
open Verif.MovingMedian (setAt)

/-- What the code computes with samples.
`window n ptz i` is value `i` of `make_filter(n, ptz)` (BQResampler.cpp:447-475);
`lerp` is the interpolation on lines 612-616; `dot` is the sum of products on
lines 601-605 and 607-618, `dot1` the one on lines 596-599 (mono, fixed ratio),
which accumulates in single precision; `scaled` is the multiplication on line 639;
`mix count length r f` is lines 211-214 for `length ≠ 0`, and `mixNone` is the same
for `length = 0`, a division by zero. -/
structure Arith (α : Type) where
  zero : α
  window : Nat → Rat → Nat → α
  lerp : α → α → Rat → α
  dot : List α → List α → α
  dot1 : List α → List α → α
  scaled : Rat → α → α
  mix : Nat → Nat → α → α → α
  mixNone : α → α → α

/-- BQResampler.h:37 `Quality`. -/
inductive Quality where
  | fastest | fastestTolerable | best

/-- BQResampler.cpp:121 etc. -/
def Quality.pMultiple : Quality → Nat
  | .fastest => 12 | .fastestTolerable => 62 | .best => 122
/-- BQResampler.cpp:122 etc. -/
def Quality.protoP : Quality → Nat
  | .fastest => 160 | .fastestTolerable => 160 | .best => 800
/-- BQResampler.cpp:125 etc. -/
def Quality.cut : Quality → Rat
  | .fastest => 9 / 10 | .fastestTolerable => 975 / 1000 | .best => 995 / 1000
/-- BQResampler.cpp:126 etc. -/
def Quality.rationalMax : Quality → Nat
  | .fastest => 48000 | .fastestTolerable => 96000 | .best => 192000

/-- BQResampler.h:81-86, the constant members. -/
structure Cfg (α : Type) where
  ar : Arith α
  quality : Quality
  mostlyFixed : Bool
  smooth : Bool
  rate : Rat
  channels : Nat

/-- BQResampler.h:88-97 `params`, without `effective`. -/
structure Params where
  ratio : Rat := 1
  num : Nat := 1
  den : Nat := 1
  peakToZero : Rat := 0
  scale : Rat := 1

/-- BQResampler.h:99-105 `phase_rec`. -/
structure PhaseRec where
  next : Nat := 0
  length : Nat := 0
  start : Nat := 0
  drop : Nat := 0

/-- BQResampler.h:109-122 `state`. -/
structure State (α : Type) where
  params : Params := {}
  initialPhase : Nat := 0
  currentPhase : Nat := 0
  currentChannel : Nat := 0
  filterLength : Nat := 0
  phaseInfo : List PhaseRec := []
  sorted : List α := []
  buffer : List α := []
  left : Nat := 0
  centre : Nat := 0
  fill : Nat := 0

/-- BQResampler.h:124-135, the variable members.  `m_s` and `m_fade` are the two
states the pointers point at, so that exchanging the pointers is exchanging them. -/
structure Res (α : Type) where
  s : State α := {}
  fade : State α := {}
  fadeCount : Nat := 0
  initialised : Bool := false

/-- BQResampler.cpp:45-85, the constructor. -/
def init {α : Type} : Res α := {}

variable {α : Type}

/-- BQResampler.cpp:111-116 `reset`. -/
def reset (r : Res α) : Res α := { r with initialised := false, fadeCount := 0 }

/-- BQResampler.cpp:238-244 `gcd`. -/
def gcd : (fuel a b : Nat) → Option Nat
  | 0, _, _ => none
  | fuel + 1, a, b => if b = 0 then none else if a % b = 0 then some b else gcd fuel b (a % b)

/-- BQResampler.cpp:350-376 `fill_params`. -/
def fillParams (q : Quality) (ratio : Rat) (num den : Nat) : Option Params := do
  let g ← gcd (num + den + 1) num den
  let n := num / g
  let d := den / g
  let ptz : Rat := ((max d n : Nat) : Rat) / q.cut
  pure { ratio := ratio, num := n, den := d, peakToZero := ptz, scale := (n : Rat) / ptz }

/-- BQResampler.cpp:381-389. -/
def maxDenom (cfg : Cfg α) (ratio : Rat) : Nat :=
  if cfg.mostlyFixed then 192000
  else if ratio > 1 then ((cfg.quality.rationalMax : Rat) / ratio).ceil.toNat
  else cfg.quality.rationalMax

/-- BQResampler.cpp:378-393 `pick_params`. -/
def pickParams (cfg : Cfg α) (ratio : Rat) : Option Params := do
  let (num, den) ← MathMisc.pickNearestRational ratio (maxDenom cfg ratio)
  fillParams cfg.quality ratio num den

/-- BQResampler.cpp:409 `while (next_phase < 0) next_phase += input_spacing;`. -/
def raisePhase (spacing : Nat) : (fuel : Nat) → Int → Option Int
  | 0, p => if p < 0 then none else some p
  | fuel + 1, p => if p < 0 then raisePhase spacing fuel (p + spacing) else some p

/-- `int(ceil(double(a) / double(b)))`, BQResampler.cpp:412-413; exact for `int`s. -/
def ceilDiv (a b : Nat) : Nat := (a + b - 1) / b

/-- BQResampler.cpp:408-418, the entry for phase `p`. -/
def phaseRec (filterLength inSpacing outSpacing p : Nat) : Option PhaseRec := do
  let next ← raisePhase inSpacing outSpacing ((p : Int) - outSpacing)
  pure { next := next.toNat % inSpacing, drop := ceilDiv (outSpacing - p) inSpacing,
         length := ceilDiv (filterLength - p) inSpacing, start := 0 }

/-- BQResampler.cpp:407-420, the table from phase `p` on. -/
def phaseTable (filterLength inSpacing outSpacing : Nat) : (rounds p : Nat) → Option (List PhaseRec)
  | 0, _ => some []
  | rounds + 1, p => do
    let r ← phaseRec filterLength inSpacing outSpacing p
    let rest ← phaseTable filterLength inSpacing outSpacing rounds (p + 1)
    pure (r :: rest)

/-- BQResampler.cpp:435-438, the part of the filter used in phase `p`, from index `i`. -/
def component (filter : List α) (inSpacing p : Nat) : (rounds i : Nat) → Option (List α)
  | 0, _ => some []
  | rounds + 1, i => do
    let x ← filter[i * inSpacing + p]?
    let rest ← component filter inSpacing p rounds (i + 1)
    pure (x :: rest)

/-- BQResampler.cpp:432-443, the loop that sorts the filter by phase. -/
def sortFilter (filter : List α) (inSpacing initial : Nat) :
    (fuel p : Nat) → List PhaseRec → List α → Option (List PhaseRec × List α)
  | 0, _, _, _ => none
  | fuel + 1, p, table, sorted => do
    let rec_ ← table[p]?
    let table ← setAt table p { rec_ with start := sorted.length }
    let part ← component filter inSpacing p rec_.length 0
    if rec_.next = initial then pure (table, sorted ++ part)
    else sortFilter filter inSpacing initial fuel rec_.next table (sorted ++ part)

/-- BQResampler.cpp:395-445 `phase_data_for`; `filter` is absent unless the ratio is
mostly fixed, and `sorted` is what the sorted filter was before. -/
def phaseDataFor (mostlyFixed : Bool) (sorted : List α) (filterLength : Nat)
    (filter : Nat → α) (initial inSpacing outSpacing : Nat) :
    Option (List PhaseRec × List α) := do
  let table ← phaseTable filterLength inSpacing outSpacing inSpacing 0
  if mostlyFixed then
    sortFilter ((List.range filterLength).map filter) inSpacing initial inSpacing initial table []
  else pure (table, sorted)

/-- BQResampler.cpp:486-491. -/
def filterLengthFor (q : Quality) (p : Params) : Nat :=
  let n := (p.peakToZero * q.pMultiple + 1).floor.toNat
  if n % 2 = 0 then n + 1 else n

/-- BQResampler.cpp:557-564, the copying of the previous buffer. -/
def carryLoop (prev : State α) (centre len : Nat) : (rounds i : Nat) → (buffer : List α) →
    (fill : Nat) → Option (List α × Nat)
  | 0, _, buffer, fill => some (buffer, fill)
  | rounds + 1, i, buffer, fill => do
    let ix : Int := (i : Int) - prev.centre + centre
    if 0 ≤ ix ∧ ix < len then do
      let x ← prev.buffer[i]?
      let buffer ← setAt buffer ix.toNat x
      carryLoop prev centre len rounds (i + 1) buffer (ix.toNat + 1)
    else carryLoop prev centre len rounds (i + 1) buffer fill

/-- BQResampler.cpp:551-565, the new buffer and fill when there is a previous buffer. -/
def carry (zero : α) (prev : State α) (centre len : Nat) : Option (List α × Nat) :=
  if prev.buffer.length = len then some (prev.buffer, prev.fill)
  else carryLoop prev centre len prev.fill 0 (List.replicate len zero) centre

/-- `round`, half away from zero, of a non-negative number. -/
def roundNat (x : Rat) : Nat := (x + 1 / 2).floor.toNat

/-- BQResampler.cpp:567-573, the new phase when there is a previous buffer. -/
def carryPhase (prev : State α) (phases : Nat) : Option Nat :=
  if prev.phaseInfo.length = 0 then none
  else
    let p := roundNat (phases * ((prev.currentPhase : Rat) / prev.phaseInfo.length))
    some (if p ≥ phases then phases - 1 else p)

/-- BQResampler.cpp:477-580 `state_for_ratio`: the new `target_state`. -/
def stateForRatio (cfg : Cfg α) (target : State α) (ratio : Rat) (prev : State α) :
    Option (State α) := do
  let params ← pickParams cfg ratio
  let filterLength := filterLengthFor cfg.quality params
  let half := filterLength / 2
  if params.num = 0 then none
  else do
    let initial := half % params.num
    let (table, sorted) ← phaseDataFor cfg.mostlyFixed target.sorted filterLength
      (cfg.ar.window filterLength params.peakToZero) initial params.num params.den
    if cfg.channels = 0 then none
    else do
      let bl := half / params.num
      let frames := max (bl + (bl + 1)) (prev.buffer.length / cfg.channels)
      let c := frames / 2
      let len := frames * cfg.channels
      let centre := c * cfg.channels
      let target := { target with
        params := params, filterLength := filterLength, initialPhase := initial,
        currentPhase := initial, phaseInfo := table, sorted := sorted,
        left := (c - bl) * cfg.channels, centre := centre, fill := centre }
      if prev.buffer.length > 0 then do
        let (buffer, fill) ← carry cfg.ar.zero prev centre len
        let phase ← carryPhase prev table.length
        pure { target with buffer := buffer, fill := fill, currentPhase := phase }
      else pure { target with buffer := List.replicate len cfg.ar.zero }

/-- BQResampler.cpp:602-604, 608-609: the samples of channel `channel` under the
filter, from the `i`-th on. -/
def gather (buffer : List α) (left channels channel : Nat) : (rounds i : Nat) → Option (List α)
  | 0, _ => some []
  | rounds + 1, i => do
    let x ← buffer[left + i * channels + channel]?
    let rest ← gather buffer left channels channel rounds (i + 1)
    pure (x :: rest)

/-- BQResampler.cpp:610-616, the interpolated filter values, from the `i`-th on.
`m_prototype` (lines 63-70) has `protoLength + 1` values, the last of them 0. -/
def protoCoefs (cfg : Cfg α) (s : State α) : (rounds i : Nat) → Option (List α)
  | 0, _ => some []
  | rounds + 1, i => do
    let protoLength := cfg.quality.protoP * cfg.quality.pMultiple + 1
    let proto := fun k => if k = protoLength then cfg.ar.zero
      else cfg.ar.window protoLength cfg.quality.protoP k
    let ix : Rat := ((protoLength - 1 : Nat) : Rat) / ((s.filterLength - 1 : Nat) : Rat) *
      ((i * s.params.num + s.currentPhase : Nat) : Rat)
    let iix := ix.floor.toNat
    if iix + 1 < protoLength + 1 then do
      let rest ← protoCoefs cfg s rounds (i + 1)
      pure (cfg.ar.lerp (proto iix) (proto (iix + 1)) (ix - iix) :: rest)
    else none

/-- BQResampler.cpp:592-619, the sum. -/
def convolve (cfg : Cfg α) (s : State α) (pr : PhaseRec) : Option α := do
  let n := min pr.length ((s.buffer.length - s.left) / cfg.channels)
  let xs ← gather s.buffer s.left cfg.channels s.currentChannel n 0
  if cfg.mostlyFixed then do
    let coefs ← RingBuffer.load s.sorted pr.start n
    pure (if cfg.channels = 1 then cfg.ar.dot1 coefs xs else cfg.ar.dot coefs xs)
  else do
    let coefs ← protoCoefs cfg s n 0
    pure (cfg.ar.dot coefs xs)

/-- BQResampler.cpp:625-634, dropping `drop` samples; `none` if there are not so many. -/
def dropFront (zero : α) (s : State α) (drop : Nat) : Option (State α) :=
  if drop = 0 then some s
  else if drop ≤ s.buffer.length ∧ drop ≤ s.fill then
    some { s with buffer := s.buffer.drop drop ++ List.replicate drop zero, fill := s.fill - drop }
  else none

/-- BQResampler.cpp:621-637, moving on. -/
def advance (cfg : Cfg α) (s : State α) (pr : PhaseRec) : Option (State α) :=
  let ch := (s.currentChannel + 1) % cfg.channels
  let s := { s with currentChannel := ch }
  if ch = 0 then do
    let s ← dropFront cfg.ar.zero s (pr.drop * cfg.channels)
    pure { s with currentPhase := pr.next }
  else some s

/-- BQResampler.cpp:582-640 `reconstruct_one`. -/
def reconstructOne (cfg : Cfg α) (s : State α) : Option (State α × α) := do
  let pr ← s.phaseInfo[s.currentPhase]?
  let x ← convolve cfg s pr
  let s' ← advance cfg s pr
  pure (s', cfg.ar.scaled s.params.scale x)

/-- BQResampler.cpp:190-192 and 204-206: the loop that takes input in.  `left` input
samples are left, the next being `i`. -/
def fillLoop (inp : List α) : (left i : Nat) → State α → Option (Nat × State α)
  | 0, i, s => some (i, s)
  | left + 1, i, s =>
    if s.fill < s.buffer.length then do
      let x ← inp[i]?
      let buffer ← setAt s.buffer s.fill x
      fillLoop inp left (i + 1) { s with buffer := buffer, fill := s.fill + 1 }
    else some (i, s)

/-- BQResampler.cpp:193-199, the conditions for another sample. -/
def ready (final : Bool) (s : State α) : Bool :=
  s.fill == s.buffer.length ||
  (final && decide (s.fill > s.centre)) ||
  (final && s.fill == s.centre && s.currentPhase != s.initialPhase)

/-- BQResampler.cpp:189-203, the main loop, for at most `space` more samples of
output; `o` is the place of the next. -/
def mainLoop (cfg : Cfg α) (final : Bool) (inp : List α) (count : Nat) :
    (space i o : Nat) → State α → List α → Option (State α × Nat × List α)
  | 0, _, o, s, out => some (s, o, out)
  | space + 1, i, o, s, out => do
    let (i, s) ← fillLoop inp (count - i) i s
    if ready final s then do
      let (s, x) ← reconstructOne cfg s
      let out ← setAt out o x
      mainLoop cfg final inp count space i (o + 1) s out
    else some (s, o, out)

/-- BQResampler.cpp:210-215, the mixed sample. -/
def mixed (ar : Arith α) (fadeCount fadeLength : Nat) (r f : α) : α :=
  if fadeLength = 0 then ar.mixNone r f else ar.mix (fadeCount - 1) fadeLength r f

/-- BQResampler.cpp:205-224, the cross-fade, for at most `space` more samples. -/
def fadeLoop (cfg : Cfg α) (inp : List α) (count fadeLength : Nat) :
    (space fi fo : Nat) → State α → (fadeCount : Nat) → List α →
    Option (State α × Nat × List α)
  | 0, _, _, s, fadeCount, out => some (s, fadeCount, out)
  | space + 1, fi, fo, s, fadeCount, out =>
    if fadeCount = 0 then some (s, fadeCount, out)
    else do
      let (fi, s) ← fillLoop inp (count - fi) fi s
      if s.fill = s.buffer.length then do
        let (s, r) ← reconstructOne cfg s
        let f ← out[fo]?
        let out ← setAt out fo (mixed cfg.ar fadeCount fadeLength r f)
        fadeLoop cfg inp count fadeLength space fi (fo + 1) s
          (if s.currentChannel = 0 then fadeCount - 1 else fadeCount) out
      else some (s, fadeCount, out)

/-- BQResampler.cpp:157-164, the length of a cross-fade.  `round` of a non-negative
rate. -/
def fadeLengthFor (cfg : Cfg α) (outspace incount : Nat) (ratio : Rat) : Nat :=
  min (max (roundNat (cfg.rate / 1000)) 6) (min outspace ((incount : Rat) * ratio).floor.toNat / 2)

/-- BQResampler.cpp:166-183, the choice of state. -/
def prepare (cfg : Cfg α) (r : Res α) (ratio : Rat) (fadeLength : Nat) : Option (Res α) :=
  if ¬ r.initialised then do
    let s ← stateForRatio cfg r.s ratio r.fade
    pure { r with s := s, initialised := true }
  else if ratio ≠ r.s.params.ratio then do
    let s ← stateForRatio cfg r.fade ratio r.s
    pure { r with s := s, fade := r.s, fadeCount := if cfg.smooth then fadeLength else r.fadeCount }
  else some r

/-- BQResampler.cpp:149-227 `resampleInterleaved`: the resampler, the output buffer and
the number of frames returned. -/
def resample (cfg : Cfg α) (r : Res α) (out : List α) (outspace : Nat) (inp : List α)
    (incount : Nat) (ratio : Rat) (final : Bool) : Option (Res α × List α × Nat) := do
  let fadeLength := fadeLengthFor cfg outspace incount ratio
  let r ← prepare cfg r ratio fadeLength
  let count := incount * cfg.channels
  let (s, o, out) ← mainLoop cfg final inp count (outspace * cfg.channels) 0 0 r.s out
  let (fade, fadeCount, out) ← fadeLoop cfg inp count fadeLength o 0 0 r.fade r.fadeCount out
  pure ({ r with s := s, fade := fade, fadeCount := fadeCount }, out, o / cfg.channels)

/-- Resampler.cpp:877-904 `D_BQResampler::resample`.  `iin` and `iout` are `m_iin` and
`m_iout` after the reallocations on lines 888-895, of which only the sizes matter here. -/
def resamplePlanar (cfg : Cfg α) (r : Res α) (iin iout : List α) (out : List (List α))
    (outcount : Nat) (inp : List (List α)) (incount : Nat) (ratio : Rat) (final : Bool) :
    Option (Res α × List (List α) × Nat) :=
  if cfg.channels = 1 then do
    let o ← out[0]?
    let i ← inp[0]?
    let (r, o, n) ← resample cfg r o outcount i incount ratio final
    let out ← setAt out 0 o
    pure (r, out, n)
  else do
    let iin ← VectorOps.v_interleave iin inp cfg.channels incount
    let (r, iout, n) ← resample cfg r iout outcount iin incount ratio final
    let out ← VectorOps.v_deinterleave out iout cfg.channels n
    pure (r, out, n)

end Verif.BQ
