import Verif.R3
/-!
# Model of `src/faster/R2Stretcher.cpp`: `calculateSizes`

`float` and `double` are exact rationals.  `size_t` is unbounded except as an argument of `roundUp`.  `none` is a loop that does
not end, a division by zero or a conversion out of range.  Logging is left out.
-/
namespace Verif.R2
open Verif.Round

/-- The options that matter, the sample rate and the number of channels. -/
structure Params where
  rate : Nat
  channels : Nat := 1
  channelsTogether : Bool := false
  transientsSmooth : Bool := false
  realTime : Bool := false
  windowShort : Bool := false
  windowLong : Bool := false
  smoothing : Bool := false
  highQuality : Bool := false
  highConsistency : Bool := false

/-- `int(x)` of a number that is not negative. -/
def toInt (x : Rat) : Option Nat := if x < 2 ^ 31 then some x.floor.toNat else none

/-- `roundUp(n)` (mathmisc.cpp:69-76) of what `lrint` gives. -/
def roundUpInt (n : Int) : Option Nat := if n < 2 ^ 63 then MathMisc.roundUp n.toNat else none

/-- R2Stretcher.cpp:112-135 `m_baseFftSize`. -/
def baseFftSize (p : Params) : Option Nat := do
  let n ← MathMisc.roundUp ((2048 * ((p.rate : Rat) / 48000)).floor.toNat)
  pure (if p.windowShort = p.windowLong then n else if p.windowShort then n / 2 else n * 2)

/-- StretcherProcess.cpp:113-127 `resampleBeforeStretching`. -/
def resampleBefore (p : Params) (pitchScale : Rat) : Bool :=
  if !p.realTime then false
  else if p.highQuality then decide (pitchScale < 1)
  else if p.highConsistency then false
  else decide (pitchScale > 1)

/-- The local variables `inputIncrement`, `outputIncrement`, `windowSize`. -/
structure Local where
  inc : Nat
  out : Nat
  window : Nat
deriving DecidableEq, Repr

/-- R2Stretcher.cpp:435-440, the loop. -/
def lengthen (base : Nat) (incrRatio r : Rat) : (fuel : Nat) → Local → Option Local
  | 0, _ => none
  | fuel + 1, l =>
    if l.out < 64 ∧ l.window < base * 4 then do
      let inc := (lrint (((l.out * 2 : Nat) : Rat) / r).ceil).toNat
      let window ← roundUpInt (lrint ((inc : Rat) * incrRatio).ceil)
      lengthen base incrRatio r fuel ⟨inc, l.out * 2, window⟩
    else some l

/-- R2Stretcher.cpp:419-442: in real time, shortening. -/
def squashRT (p : Params) (base : Nat) (pitchScale r : Rat) : Option Local := do
  let incrRatio : Rat := if decide (pitchScale < 1) && !resampleBefore p pitchScale then 9 / 2 else 6
  let inc ← toInt ((base : Rat) / incrRatio)
  let out ← toInt ((inc : Rat) * r).floor
  lengthen base incrRatio r 64 ⟨inc, if out < 64 ∧ out < 1 then 1 else out, base⟩

/-- R2Stretcher.cpp:454-458 and 500-503: `outputIncrement` is halved while it is above `limit`. -/
def halve (limit r : Rat) : (fuel : Nat) → (out inc : Nat) → Option (Nat × Nat)
  | 0, _, _ => none
  | fuel + 1, out, inc =>
    if (out : Rat) > limit ∧ inc > 1 then do
      let inc ← toInt (((out / 2 : Nat) : Rat) / r)
      halve limit r fuel (out / 2) inc
    else some (out, inc)

/-- R2Stretcher.cpp:459-462 and 504-507: `outputIncrement` is doubled until `inputIncrement` is not 0. -/
def double (r : Rat) : (fuel : Nat) → (out inc : Nat) → Option (Nat × Nat)
  | 0, _, _ => none
  | fuel + 1, out, inc =>
    if inc < 1 then do
      let inc ← toInt (((out * 2 : Nat) : Rat) / r)
      double r fuel (out * 2) inc
    else some (out, inc)

/-- R2Stretcher.cpp:452-462, 498-507: from `outputIncrement`, both increments. -/
def increments (limit r : Rat) (out : Nat) : Option (Nat × Nat) := do
  let inc ← toInt ((out : Rat) / r)
  let (out, inc) ← halve limit r (out + 1) out inc
  double r (r.ceil.toNat + 1) out inc

/-- R2Stretcher.cpp:466-480: the reduction for input that has been resampled. -/
def reduce (pitchScale : Rat) (l : Local) : Option Local := do
  let new ← roundUpInt (lrint ((l.window : Rat) / pitchScale))
  let new := if new < 512 then 512 else new
  let div := l.window / new
  if l.inc > div ∧ l.out > div then
    if div = 0 then none else some ⟨l.inc / div, l.out / div, l.window / div⟩
  else some l

/-- R2Stretcher.cpp:444-480: in real time, otherwise. -/
def stretchRT (p : Params) (base : Nat) (pitchScale r : Rat) : Option Local := do
  let rsb := decide (pitchScale > 1) && resampleBefore p pitchScale
  let incrRatio : Rat := if r = 1 then 4 else if rsb then 9 / 2 else 8
  let out ← toInt ((base : Rat) / incrRatio)
  let (out, inc) ← increments (1024 * ((p.rate : Rat) / 48000)) r out
  let minwin ← roundUpInt (lrint ((out : Rat) * incrRatio))
  let l : Local := ⟨inc, out, if base < minwin then minwin else base⟩
  if rsb then reduce pitchScale l else some l

/-- R2Stretcher.cpp:487 `while (inputIncrement >= 512) inputIncrement /= 2`. -/
def below512 : (fuel : Nat) → Nat → Option Nat
  | 0, _ => none
  | fuel + 1, inc => if inc ≥ 512 then below512 fuel (inc / 2) else some inc

/-- R2Stretcher.cpp:485-493: offline, shortening. -/
def squashOffline (base : Nat) (r : Rat) : Option Local := do
  let inc ← below512 (base + 1) (base / 4)
  let out ← toInt ((inc : Rat) * r).floor
  if out < 1 then do
    let inc ← roundUpInt (lrint ((1 : Rat) / r).ceil)
    pure ⟨inc, 1, inc * 4⟩
  else pure ⟨inc, out, base⟩

/-- R2Stretcher.cpp:509 `while (windowSize < 8192) windowSize *= 2`. -/
def upTo8192 : (fuel : Nat) → Nat → Option Nat
  | 0, _ => none
  | fuel + 1, w => if w < 8192 then upTo8192 fuel (w * 2) else some w

/-- R2Stretcher.cpp:494-510: offline, otherwise. -/
def stretchOffline (base : Nat) (r : Rat) : Option Local := do
  let (out, inc) ← increments 1024 r (base / 6)
  let minwin ← MathMisc.roundUp (out * 6)
  let window := max base minwin
  let window ← if r > 5 then upTo8192 8192 window else some window
  pure ⟨inc, out, window⟩

/-- R2Stretcher.cpp:514-519. -/
def forDuration (duration : Nat) : (fuel : Nat) → Nat → Option Nat
  | 0, _ => none
  | fuel + 1, inc =>
    if duration > 0 ∧ inc * 4 > duration ∧ inc > 1 then forDuration duration fuel (inc / 2) else some inc

/-- What `calculateSizes` decides: `m_timeRatio`, `m_pitchScale`, `m_increment`, `m_fftSize`, and `m_aWindowSize`, which is the
same as `m_sWindowSize`. -/
structure Sizes where
  timeRatio : Rat
  pitchScale : Rat
  increment : Nat
  fftSize : Nat
  window : Nat
deriving DecidableEq, Repr

/-- R2Stretcher.cpp:410-511. -/
def chosen (p : Params) (base : Nat) (pitchScale r : Rat) : Option Local :=
  if p.realTime then if r < 1 then squashRT p base pitchScale r else stretchRT p base pitchScale r
  else if r < 1 then squashOffline base r else stretchOffline base r

/-- R2Stretcher.cpp:381-536 `calculateSizes`, without the size of the output buffer.  The ratios are corrected as in the
other engine (R2Stretcher.cpp:387-408, R3Stretcher.cpp:326-350). -/
def calculateSizes (p : Params) (duration : Nat) (timeRatio pitchScale : R3.Dbl) : Option Sizes := do
  let (t, s) := R3.fixRatios timeRatio pitchScale
  let base ← baseFftSize p
  let l ← chosen p base s (t * s)
  let inc ← forDuration duration (l.inc + 1) l.inc
  pure ⟨t, s, inc, l.window, if p.smoothing then l.window * 2 else l.window⟩

end Verif.R2
