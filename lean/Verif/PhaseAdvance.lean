import Mathlib.Algebra.Order.Floor.Ring
import Mathlib.Algebra.Order.Field.Basic
import Mathlib.Algebra.Field.Rat
import Verif.Guide
import Verif.Peak
/-!
# Model of `src/finer/PhaseAdvance.h`

Phases and magnitudes are elements of an ordered field `K` with a floor (the rationals or the reals), exact; `pi` is any element of it above 0, `M_PI` being one.
Frequencies are exact rationals.  `none` is an access outside an array.  The greatest of the magnitudes of the channels is not rounded to `float`.
Logging is left out.
-/
namespace Verif.PhaseAdvance
open Verif.Guide

variable {K : Type} [Field K] [LinearOrder K] [IsStrictOrderedRing K] [FloorRing K]

/-- mathmisc.h:35-37 `mod`. -/
def mod (x y : K) : K := x - y * (⌊x / y⌋ : Int)

/-- mathmisc.h:42-44 `princarg`. -/
def princarg (pi a : K) : K := mod (a + pi) (-2 * pi) + pi

/-- PhaseAdvance.h:256-261: the arrays kept for a channel. -/
structure Chan (K : Type) where
  currentPeaks : List Int
  prevPeaks : List Int
  prevIn : List K
  prevOut : List K
  unlocked : List K
deriving DecidableEq

/-- PhaseAdvance.h:42-51, 53-56 `Parameters` and the constructor's `m_binCount`; `guide` stands for the configuration passed to `advance`. -/
structure Params where
  guide : Guide.Params
  fftSize : Nat

/-- The number of bins. -/
def Params.bins (p : Params) : Nat := p.fftSize / 2 + 1

/-- PhaseAdvance.h:53-72, the arrays of a channel at first. -/
def create (p : Params) : Chan K :=
  ⟨List.replicate p.bins 0, (List.range p.bins).map Int.ofNat, List.replicate p.bins 0, List.replicate p.bins 0, List.replicate p.bins 0⟩

/-- PhaseAdvance.h:84-89 `reset`, of a channel. -/
def reset (p : Params) (c : Chan K) : Chan K :=
  { c with prevPeaks := List.replicate p.bins 0, prevIn := List.replicate p.bins 0, prevOut := List.replicate p.bins 0 }

/-- What is passed to `advance` for a channel. -/
structure Input (K : Type) where
  mag : List K
  phase : List K
  prevMag : List K
  guidance : Guidance

/-- PhaseAdvance.h:103-111: which band has this FFT size. -/
def bandOf (p : Params) (g : Guidance) : Nat :=
  if g.fft0.fftSize = p.fftSize then 0 else if g.fft1.fftSize = p.fftSize then 1 else if g.fft2.fftSize = p.fftSize then 2 else 0

/-- A loop from `i` on that stores what `f` gives. -/
def fill {α : Type} (f : Nat → Option α) : (rounds i : Nat) → List α → Option (List α)
  | 0, _, l => some l
  | rounds + 1, i, l => do
    let x ← f i
    let l ← MovingMedian.setAt l i x
    fill f rounds (i + 1) l

/-- An element of an array at an `int` index. -/
def get {α : Type} (l : List α) (i : Int) : Option α := if i < 0 then none else l[i.toNat]?

/-- PhaseAdvance.h:140-152: the peaks found in a band. -/
def bandPeaks (p : Params) (lowest highest : Int) (mag : List K) (b : LockBand) (peaks : List Int) : Option (List Int) :=
  let startBin := binForFrequency b.f0 p.fftSize p.guide.rate
  let endBin := binForFrequency b.f1 p.fftSize p.guide.rate
  if startBin > highest ∨ endBin < lowest then some peaks
  else
    let endBin := if endBin > highest then highest else endBin
    let count := endBin - startBin + 1
    if count < 1 then some peaks
    else if startBin < 0 then none
    else (Peak.findNearestAndNextPeaks (fun a b => decide (a > b)) p.bins mag startBin.toNat count.toNat b.p (some peaks) none).bind fun r => r.1

/-- PhaseAdvance.h:139-153, the loop over the bands. -/
def allPeaks (p : Params) (lowest highest : Int) (mag : List K) : List LockBand → List Int → Option (List Int)
  | [], peaks => some peaks
  | b :: bs, peaks => (bandPeaks p lowest highest mag b peaks).bind (allPeaks p lowest highest mag bs)

/-- PhaseAdvance.h:135-158: the peaks of a channel, of this frame and of the one before. -/
def findPeaks (p : Params) (lo n : Nat) (c : Chan K) (x : Input K) : Option (Chan K) := do
  let current ← fill (fun i => some (i : Int)) n lo c.currentPeaks
  let current ← allPeaks p lo ((lo : Int) + n - 1) x.mag x.guidance.lockBands current
  let prev ← (Peak.findNearestAndNextPeaks (fun a b => decide (a > b)) p.bins x.prevMag lo n 1 (some c.prevPeaks) none).bind fun r => r.1
  pure { c with currentPeaks := current, prevPeaks := prev }

/-- PhaseAdvance.h:162-169: the first channel with the greatest magnitude, from channel `c` on. -/
def greatest (i : Nat) : List (Input K) → (c gc : Nat) → (gmag : K) → Option Nat
  | [], _, gc, _ => some gc
  | x :: xs, c, gc, gmag => (x.mag[i]?).bind fun m => if m > gmag then greatest i xs (c + 1) c m else greatest i xs (c + 1) gc gmag

/-- PhaseAdvance.h:160-174 `m_greatestChannel[i]`. -/
def greatestChannel (xs : List (Input K)) (i : Nat) : Option Nat :=
  match xs with
  | [] => some 0
  | [_] => some 0
  | x :: xs => (x.mag[i]?).bind fun m => greatest i xs 1 0 m

/-- PhaseAdvance.h:176-184: the phase a bin advances to by itself. -/
def unlock (pi : K) (p : Params) (inhop outhop : Nat) (c : Chan K) (x : Input K) (i : Nat) : Option K := do
  let prevIn ← c.prevIn[i]?
  let phase ← x.phase[i]?
  let prevOut ← c.prevOut[i]?
  let omega := 2 * pi * inhop / p.fftSize * i
  let error := princarg pi (phase - (prevIn + omega))
  pure (prevOut + outhop / inhop * (omega + error))

/-- PhaseAdvance.h:178-186, for a channel. -/
def unlockAll (pi : K) (p : Params) (inhop outhop lo n : Nat) (c : Chan K) (x : Input K) : Option (Chan K) :=
  (fill (unlock pi p inhop outhop c x) n lo c.unlocked).map fun u => { c with unlocked := u }

/-- PhaseAdvance.h:264-266 `inRange`. -/
def inRange (f : Rat) (r : Range) : Bool := r.present && decide (f ≥ r.f0) && decide (f < r.f1)

/-- The elements of the array of bands. -/
def lockAt (g : Guidance) (b : Nat) : Option LockBand := [g.lock0, g.lock1, g.lock2, g.lock3][b]?

/-- PhaseAdvance.h:194-197: the band of a frequency, from band `b` on; there are at most four. -/
def seekBand (g : Guidance) (f : Rat) : (rounds b : Nat) → Option Nat
  | 0, b => some b
  | rounds + 1, b => (lockAt g b).bind fun band => if f > band.f1 ∧ b + 1 < g.lockBandCount then seekBand g f rounds (b + 1) else some b

/-- The frequency of a bin, PhaseAdvance.h:192-193. -/
def freq (p : Params) (i : Nat) : Rat := frequencyForBin i p.fftSize p.guide.rate

/-- PhaseAdvance.h:190-197: the band reached at the `k`-th bin above `lo`, the loop going on from that of the bin before. -/
def bandAt (p : Params) (g : Guidance) (lo : Nat) : Nat → Option Nat
  | 0 => seekBand g (freq p lo) 4 0
  | k + 1 => (bandAt p g lo k).bind (seekBand g (freq p (lo + (k + 1))) 4)

/-- PhaseAdvance.h:215-220, in a channel other than `c`: whether it is to be locked to. -/
def follows (f : Rat) (i : Nat) (prevPeak : Int) (c : Chan K) (x : Input K) : Option Bool :=
  if inRange f x.guidance.channelLock then do
    let otherPeak ← c.currentPeaks[i]?
    let otherPrevPeak ← get c.prevPeaks otherPeak
    pure (decide (otherPrevPeak = prevPeak))
  else some false

/-- PhaseAdvance.h:211-222: the channel whose peak is locked to. -/
def peakChannel (cs : List (Chan K)) (xs : List (Input K)) (f : Rat) (c i : Nat) (g : Guidance) (prevPeak : Int) : Option Nat :=
  if inRange f g.channelLock then do
    let other ← greatestChannel xs i
    if other = c then pure c
    else do
      let oc ← cs[other]?
      let ox ← xs[other]?
      let b ← follows f i prevPeak oc ox
      pure (if b then other else c)
  else some c

/-- PhaseAdvance.h:209-231: the phase of a bin that is locked to a peak. -/
def lockedPhase (p : Params) (lo : Nat) (cs : List (Chan K)) (xs : List (Input K)) (c i : Nat) (ch : Chan K) (x : Input K) : Option K := do
  let peak ← ch.currentPeaks[i]?
  let prevPeak ← get ch.prevPeaks peak
  let peakCh ← peakChannel cs xs (freq p i) c i x.guidance prevPeak
  let pc ← cs[peakCh]?
  let px ← xs[peakCh]?
  let unlocked ← get pc.unlocked peak
  let prevOut ← get pc.prevOut peak
  let prevOutPrev ← get pc.prevOut prevPeak
  let phase ← x.phase[i]?
  let peakPhase ← get px.phase peak
  let b ← bandAt p x.guidance lo (i - lo)
  let band ← lockAt x.guidance b
  pure (prevOutPrev + (unlocked - prevOut) + (band.beta : K) * (phase - peakPhase))

/-- PhaseAdvance.h:201-202: a reset in the side channel is one in the mid channel too. -/
def sideReset (midSide : Bool) (xs : List (Input K)) (f : Rat) (c : Nat) : Bool :=
  midSide && decide (xs.length = 2) && decide (c = 0) && (xs[1]?.elim false fun x => inRange f x.guidance.phaseReset)

/-- PhaseAdvance.h:198-232: the phase of a bin. -/
def binPhase (p : Params) (midSide : Bool) (inhop outhop lo : Nat) (cs : List (Chan K)) (xs : List (Input K)) (c : Nat) (ch : Chan K) (x : Input K) (i : Nat) : Option K :=
  let f := freq p i
  if inRange f x.guidance.phaseReset || inRange f x.guidance.kick then x.phase[i]?
  else if sideReset midSide xs f c then x.phase[i]?
  else if inhop = outhop then ch.unlocked[i]?
  else if inRange f x.guidance.highUnlocked then ch.unlocked[i]?
  else lockedPhase p lo cs xs c i ch x

/-- PhaseAdvance.h:189-234: the phases put out for a channel. -/
def outPhases (pi : K) (p : Params) (midSide : Bool) (inhop outhop lo n : Nat) (cs : List (Chan K)) (xs : List (Input K)) (c : Nat) (ch : Chan K) (x : Input K) (out : List K) :
    Option (List K) :=
  fill (fun i => (binPhase p midSide inhop outhop lo cs xs c ch x i).map (princarg pi)) n lo out

/-- PhaseAdvance.h:237-244: what is kept for the next time. -/
def keep (lo n : Nat) (x : Input K) (out : List K) (c : Chan K) : Option (Chan K) := do
  let prevIn ← fill (fun i => x.phase[i]?) n lo c.prevIn
  let prevOut ← fill (fun i => out[i]?) n lo c.prevOut
  pure { c with prevIn := prevIn, prevOut := prevOut }

/-- The same done for each of two lists of channels. -/
def each {α β γ : Type} (f : α → β → Option γ) : List α → List β → Option (List γ)
  | [], [] => some []
  | a :: as, b :: bs => do
    let x ← f a b
    let xs ← each f as bs
    pure (x :: xs)
  | _, _ => none

/-- The phases of each channel, from channel `c` on. -/
def eachOut (pi : K) (p : Params) (midSide : Bool) (inhop outhop lo n : Nat) (cs : List (Chan K)) (xs : List (Input K)) : (c : Nat) → List (Chan K) → List (Input K) → List (List K) →
    Option (List (List K))
  | _, [], [], [] => some []
  | c, ch :: chs, x :: ins, o :: os => do
    let r ← outPhases pi p midSide inhop outhop lo n cs xs c ch x o
    let rs ← eachOut pi p midSide inhop outhop lo n cs xs (c + 1) chs ins os
    pure (r :: rs)
  | _, _, _, _ => none

/-- PhaseAdvance.h:117-118: the bins the size is ever used for, as the lowest and their number. -/
def binRange (p : Params) (g : Guidance) : Option (Nat × Nat) :=
  (bandLimits p.guide)[bandOf p g]?.bind fun l => if l.b0min < 0 ∨ l.b1max < l.b0min then none else some (l.b0min.toNat, (l.b1max - l.b0min + 1).toNat)

/-- PhaseAdvance.h:91-245 `advance`; `outs` is the array written to. -/
def advance (pi : K) (p : Params) (midSide : Bool) (inhop outhop : Nat) (cs : List (Chan K)) (xs : List (Input K)) (outs : List (List K)) : Option (List (Chan K) × List (List K)) := do
  let g ← xs.head?
  let (lo, n) ← binRange p g.guidance
  let cs ← each (findPeaks p lo n) cs xs
  let cs ← each (unlockAll pi p inhop outhop lo n) cs xs
  let outs ← eachOut pi p midSide inhop outhop lo n cs xs 0 cs xs outs
  let cs ← each (fun c (xo : Input K × List K) => keep lo n xo.1 xo.2 c) cs (xs.zip outs)
  pure (cs, outs)

end Verif.PhaseAdvance
