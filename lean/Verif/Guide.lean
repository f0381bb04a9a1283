import Verif.Round
import Verif.MathMisc
/-!
# Model of `src/finer/Guide.h`

`double` is exact rationals, `float` magnitudes are rationals.  `none` is an access outside an array.  Logging is left out.
-/
namespace Verif.Guide
open Verif.Round

/-- Guide.h:39-47 `FftBand`; `f0` and `f1` are 0 at first. -/
structure FftBand where
  fftSize : Nat := 0
  f0 : Rat := 0
  f1 : Rat := 0
deriving DecidableEq

/-- Guide.h:49-58 `PhaseLockBand`. -/
structure LockBand where
  p : Nat := 0
  beta : Rat := 1
  f0 : Rat := 0
  f1 : Rat := 0
deriving DecidableEq

/-- Guide.h:60-68 `Range`. -/
structure Range where
  present : Bool := false
  f0 : Rat := 0
  f1 : Rat := 0
deriving DecidableEq

/-- Guide.h:70-80 `Guidance`, with the elements of the arrays one by one.  The counts have no initial value in the
code; they are set by every update. -/
structure Guidance where
  fft0 : FftBand := {}
  fft1 : FftBand := {}
  fft2 : FftBand := {}
  fftBandCount : Nat := 0
  lock0 : LockBand := {}
  lock1 : LockBand := {}
  lock2 : LockBand := {}
  lock3 : LockBand := {}
  lockBandCount : Nat := 0
  kick : Range := {}
  preKick : Range := {}
  highUnlocked : Range := {}
  phaseReset : Range := {}
  channelLock : Range := {}
deriving DecidableEq

/-- The bands in use. -/
def Guidance.fftBands (g : Guidance) : List FftBand := [g.fft0, g.fft1, g.fft2].take g.fftBandCount
def Guidance.lockBands (g : Guidance) : List LockBand := [g.lock0, g.lock1, g.lock2, g.lock3].take g.lockBandCount

/-- BinSegmenter.h:41-48 `Segmentation`. -/
structure Segmentation where
  percussiveBelow : Rat := 0
  percussiveAbove : Rat := 0
  residualAbove : Rat := 0
deriving DecidableEq

/-- Guide.h:107-113 `Parameters`. -/
structure Params where
  rate : Rat
  single : Bool := false

namespace Params
variable (p : Params)

def nyquist : Rat := p.rate / 2

/-- Guide.h:125-134. -/
def classify : Nat :=
  let n := (MathMisc.roundUpDiv p.rate 32).getD 0
  if n < 1024 then 1024 else n

/-- Guide.h:145-146, 163-164. -/
def longest : Nat := if p.single then p.classify else p.classify * 2
def shortest : Nat := if p.single then p.classify else p.classify / 2

/-- Guide.h:148-154, 166-172. -/
def defaultLower : Rat := if p.single then p.nyquist else 700
def minLower : Rat := if p.single then p.nyquist else 500
def maxLower : Rat := if p.single then p.nyquist else 1100
def defaultHigher : Rat := if p.single then p.nyquist else 4800
def minHigher : Rat := if p.single then p.nyquist else 4000
def maxHigher : Rat := if p.single then p.nyquist else 7000
end Params

/-- Guide.h:82-94 `BandLimits`: the FFT size and `b0min`, `b1max`. -/
structure Limits where
  fftSize : Nat
  b0min : Int
  b1max : Int
deriving DecidableEq

/-- Guide.h:88-91. -/
def limits (fftSize : Nat) (rate f0min f1max : Rat) : Limits := ⟨fftSize, (f0min * fftSize / rate).floor, (f1max * fftSize / rate).ceil⟩

/-- Guide.h:156-159, 174-192 `fftBandLimits`. -/
def bandLimits (p : Params) : List Limits :=
  if p.single then [limits p.classify p.rate 0 p.nyquist]
  else [limits p.longest p.rate 0 p.maxLower, limits p.classify p.rate 0 p.nyquist, limits p.shortest p.rate p.minHigher p.nyquist]

/-- mathmisc.h:49-51 `binForFrequency`. -/
def binForFrequency (f : Rat) (fftSize : Nat) (rate : Rat) : Int := roundAway (f * fftSize / rate)

/-- mathmisc.h:52-54 `frequencyForBin`. -/
def frequencyForBin (b : Int) (fftSize : Nat) (rate : Rat) : Rat := (b * rate) / fftSize

/-- Guide.h:598-606 `betaFor`. -/
def betaFor (f ratio : Rat) : Rat :=
  let b := (2 + ratio) / 3
  if f > 10000 then b else 1 + f * (b - 1) / 10000

/-- An element of an array, at an `int` index. -/
def at? (l : List Rat) (i : Int) : Option Rat := if i < 0 then none else l[i.toNat]?

/-- Guide.h:566-571: the sum of the elements from 1 to `b`. -/
def sumTo (l : List Rat) : (b : Nat) → Option Rat
  | 0 => some 0
  | b + 1 => do
    let s ← sumTo l b
    let x ← l[b + 1]?
    pure (s + x)

/-- Guide.h:561-573 `checkPotentialKick`. -/
def checkPotentialKick (p : Params) (mags prevMags : List Rat) : Option Bool := do
  let b := (binForFrequency 200 p.classify p.rate).toNat
  let here ← sumTo mags b
  let there ← sumTo prevMags b
  pure (decide (here > 10 / 1000) && decide (here > there * (14 / 10)))

/-- Guide.h:585, 587: `cond && magnitudes[i] < here`. -/
def isLower (mags : List Rat) (here : Rat) (cond : Bool) (i : Int) : Option Bool :=
  if cond then (at? mags i).map fun x => decide (x < here) else some false

/-- Guide.h:584-592, a round of the loop: the next bin, or none if it is to stop.  The neighbour below is read even when
the one above decides. -/
def downhill (mags : List Rat) (n b : Int) : Option (Option Int) := do
  let here ← at? mags b
  let up ← isLower mags here (decide (b < n)) (b + 1)
  let down ← isLower mags here (decide (b > 0)) (b - 1)
  pure (if up then some (b + 1) else if down then some (b - 1) else none)

/-- Guide.h:584-592, the loop. -/
def descend (mags : List Rat) (n : Int) : (rounds : Nat) → Int → Option Int
  | 0, b => some b
  | rounds + 1, b => do
    match ← downhill mags n b with
    | some b' => descend mags n rounds b'
    | none => pure b

/-- Guide.h:575-596 `descendToValley`. -/
def descendToValley (p : Params) (f : Rat) (mags : List Rat) : Option Rat :=
  if f = 0 ∨ f = p.nyquist then some f
  else
    let n : Int := (p.classify / 2 : Nat)
    let b := binForFrequency f p.classify p.rate
    (descend mags n 3 (if b > n then n else b)).map fun b => frequencyForBin b p.classify p.rate

/-- Guide.h:218-222: nothing present. -/
def cleared (g : Guidance) : Guidance :=
  { g with
    phaseReset := { g.phaseReset with present := false }
    kick := { g.kick with present := false }
    preKick := { g.preKick with present := false }
    highUnlocked := { g.highUnlocked with present := false }
    channelLock := { g.channelLock with present := false } }

/-- `if (x > nyquist) x = nyquist`, Guide.h:259-264. -/
def cap (nyquist x : Rat) : Rat := if x > nyquist then nyquist else x

/-- Guide.h:226-265: the fixed bands of single-window mode. -/
def singleBands (p : Params) (ratio : Rat) (outhop : Nat) (g : Guidance) : Guidance :=
  { g with
    fftBandCount := 1, fft0 := ⟨p.classify, 0, p.nyquist⟩,
    lockBandCount := 3,
    lock0 := ⟨1, betaFor 1200 ratio, cap p.nyquist 0, cap p.nyquist 1600⟩,
    lock1 := ⟨2, betaFor 5000 ratio, cap p.nyquist 1600, cap p.nyquist 7000⟩,
    lock2 := ⟨if outhop > 256 then 4 else 5, betaFor 10000 ratio, cap p.nyquist 7000, cap p.nyquist p.nyquist⟩ }

/-- Guide.h:267-280: what is fixed in multi-window mode. -/
def multiSizes (p : Params) (g : Guidance) : Guidance :=
  { g with
    fftBandCount := 3,
    fft0 := { g.fft0 with fftSize := p.longest }, fft1 := { g.fft1 with fftSize := p.classify }, fft2 := { g.fft2 with fftSize := p.shortest },
    lockBandCount := 4, lock3 := { g.lock3 with f1 := p.nyquist } }

/-- The limits of the FFT bands set, Guide.h:380-387, 485-492, 510-517, 524-531. -/
def withBands (a b top : Rat) (g : Guidance) : Guidance :=
  { g with fft0 := ⟨g.fft0.fftSize, 0, a⟩, fft1 := ⟨g.fft1.fftSize, a, b⟩, fft2 := ⟨g.fft2.fftSize, b, top⟩ }

/-- Guide.h:480-496 `updateForSilence`. -/
def updateForSilence (p : Params) (g : Guidance) : Guidance :=
  { (if p.single then g else withBands 0 p.nyquist p.nyquist g) with phaseReset := ⟨true, 0, p.nyquist⟩ }

/-- Guide.h:541-556: the range at unity in real time, after the first time. -/
def widened (p : Params) (seg : Segmentation) (r : Range) : Range :=
  let f0 := r.f0 * (9 / 10)
  let f1 := r.f1 * (11 / 10)
  let f0 := if f0 < seg.residualAbove then min f0 seg.percussiveAbove else f0
  let f1 := if f1 > 16000 then p.nyquist else f1
  let f0 := if f0 < 100 then 0 else f0
  ⟨true, f0, f1⟩

/-- Guide.h:498-559 `updateForUnity`. -/
def updateForUnity (p : Params) (hadPhaseReset : Bool) (seg : Segmentation) (realTime : Bool) (g : Guidance) : Guidance :=
  if !realTime then updateForSilence p g
  else
    { (if p.single then g else withBands p.minLower p.minHigher p.nyquist g) with
      phaseReset := if hadPhaseReset then widened p seg g.phaseReset else ⟨true, 16000, p.nyquist⟩ }

/-- The arguments of an update that are not the guidance itself; `next` is the magnitudes of the following frame. -/
structure Frame where
  ratio : Rat
  outhop : Nat
  mags : List Rat
  prev : List Rat
  next : List Rat
  seg : Segmentation := {}
  prevSeg : Segmentation := {}
  nextSeg : Segmentation := {}
  mean : Rat
  unityCount : Nat := 0
  realTime : Bool := false
  tighterChannelLock : Bool := false
  resetOnSilence : Bool := true

/-- Guide.h:310-318 `kick` and `futureKick`.  The sums are taken even when the other conditions decide. -/
def kickTest (p : Params) (f : Frame) : Option (Bool × Bool) := do
  let isKick ← checkPotentialKick p f.mags f.prev
  let willBe ← checkPotentialKick p f.next f.mags
  let kick := decide (f.seg.percussiveBelow > 40) && decide (f.prevSeg.percussiveBelow < 40) && isKick
  pure (kick, !kick && decide (f.nextSeg.percussiveBelow > 40) && decide (f.seg.percussiveBelow < 40) && willBe)

/-- Guide.h:320-328: what they give rise to. -/
def setKick (f : Frame) (kicks : Bool × Bool) (g : Guidance) : Guidance :=
  if kicks.1 then { g with kick := ⟨true, 0, f.seg.percussiveBelow⟩ }
  else if kicks.2 then { g with preKick := ⟨true, 0, f.nextSeg.percussiveBelow⟩ }
  else g

/-- Guide.h:342-361: the unlocked range and the phase reset. -/
def setRanges (f : Frame) (g : Guidance) : Guidance :=
  { g with
    highUnlocked :=
      if f.seg.residualAbove > f.seg.percussiveAbove then ⟨true, f.seg.percussiveAbove, f.seg.residualAbove⟩ else g.highUnlocked
    phaseReset :=
      if f.seg.residualAbove > f.seg.percussiveAbove + 4000 ∧ f.prevSeg.residualAbove < f.prevSeg.percussiveAbove + 4000 then
        let f0 := min f.seg.percussiveAbove f.nextSeg.percussiveAbove
        ⟨true, if f0 < 200 then 0 else f0, max f.seg.residualAbove f.nextSeg.residualAbove⟩
      else g.phaseReset }

/-- Guide.h:370-378: a limit within its bounds, or the default. -/
def bounded (x lo hi default : Rat) : Rat := if x > hi ∨ x < lo then default else x

/-- Guide.h:380-419: the bands of multi-window mode, from the limits found. -/
def multiBands (p : Params) (f : Frame) (lower higher : Rat) (g : Guidance) : Guidance :=
  let mid := max lower 1600
  { (if f.outhop > 256 then
        { withBands lower higher p.nyquist g with fft1 := ⟨g.fft1.fftSize, lower, p.nyquist⟩, fft2 := ⟨g.fft2.fftSize, p.nyquist, p.nyquist⟩ }
      else withBands lower higher p.nyquist g) with
    lock0 := ⟨1, betaFor 300 f.ratio, 0, lower⟩
    lock1 := ⟨2, betaFor 1600 f.ratio, lower, mid⟩
    lock2 := ⟨3, betaFor 5000 f.ratio, mid, higher⟩
    lock3 := ⟨if f.outhop > 256 then 3 else 4, betaFor 10000 f.ratio, higher, p.nyquist⟩ }

/-- Guide.h:421-443: long stretches. -/
def unlock (p : Params) (ratio : Rat) (g : Guidance) : Guidance :=
  if ratio > 2 then
    let limit := g.channelLock.f1 - (ratio - 2) * 150
    let limit := if limit < 100 then 100 else limit
    let above := 12000 - (ratio - 2) * 400
    let above := if above < limit then limit else above
    { g with
      channelLock := { g.channelLock with f1 := limit }
      highUnlocked := ⟨true, if g.highUnlocked.present then min g.highUnlocked.f0 above else above, p.nyquist⟩ }
  else g

/-- Guide.h:299-419: a frame that is neither silent nor at unity. -/
def updateNormal (p : Params) (f : Frame) (g : Guidance) : Option Guidance :=
  let g := { g with channelLock := ⟨true, 0, if f.tighterChannelLock then p.nyquist else 600⟩ }
  if p.single then some (setRanges f g)
  else do
    let kicks ← kickTest p f
    let g := setRanges f (setKick f kicks g)
    let lower ← descendToValley p g.fft0.f1 f.mags
    let higher ← descendToValley p g.fft1.f1 f.mags
    pure (multiBands p f (bounded lower p.minLower p.maxLower p.defaultLower) (bounded higher p.minHigher p.maxHigher p.defaultHigher) g)

/-- Guide.h:199-462 `updateGuidance`. -/
def updateGuidance (p : Params) (f : Frame) (g : Guidance) : Option Guidance :=
  let hadPhaseReset := g.phaseReset.present
  let g := cleared g
  let g := if p.single then singleBands p f.ratio f.outhop g else multiSizes p g
  if f.resetOnSilence && decide (f.mean < 1 / 1000000) then some (updateForSilence p g)
  else if f.unityCount > 0 then some (updateForUnity p hadPhaseReset f.seg f.realTime g)
  else (updateNormal p f g).map (unlock p f.ratio)

end Verif.Guide
