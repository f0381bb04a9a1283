import Verif.Round
/-!
# Model of `src/common/StretchCalculator.cpp`

`float` and `double` computations are exact rationals (so 1.1f is 11/10), and values of
detection functions are rationals.  `int`, `int64_t` and `size_t` do not overflow.  `none` is
undefined behaviour: an access outside a container, or the conversion of a negative
number to `size_t`.  Logging is left out.
-/
namespace Verif.StretchCalc
open Verif.Round

/-- StretchCalculator.h:86-89 `Peak`. -/
structure Peak where
  chunk : Nat
  hard : Bool
deriving DecidableEq, Repr

/-- StretchCalculator.h:102-120, the members.  `m_keyFrameMap` is a list of pairs in the
order of its keys.  `m_peaks` is left out: it is only used within `calculate`. -/
structure Calc where
  sampleRate : Nat
  increment : Nat
  useHardPeaks : Bool
  prevDf : Rat := 0
  prevRatio : Rat := 1
  prevTimeRatio : Rat := 1
  justReset : Bool := true
  amnesty : Nat := 0
  inFrame : Int := 0
  checkpoint : Int × Int := (0, 0)
  outFrame : Rat := 0
  keyFrameMap : List (Nat × Nat) := []

/-- StretchCalculator.cpp:64-78 `setKeyFrameMap`. -/
def setKeyFrameMap (s : Calc) (mapping : List (Nat × Nat)) : Calc :=
  { s with keyFrameMap :=
      match mapping with
      | [] => []
      | (k, t) :: rest => if k = 0 then (k, t) :: rest else (0, 0) :: (k, t) :: rest }

/-- StretchCalculator.cpp:516-530 `reset`. -/
def reset (s : Calc) : Calc :=
  { s with prevDf := 0, prevRatio := 1, prevTimeRatio := 1, inFrame := 0, checkpoint := (0, 0),
           outFrame := 0, amnesty := 0, keyFrameMap := [], justReset := true }

/-! ## Real time -/

/-- StretchCalculator.cpp:318-324 `expectedOutFrame`. -/
def expectedOutFrame (checkpoint : Int × Int) (inFrame : Int) (timeRatio : Rat) : Int :=
  roundAway (checkpoint.2 + (inFrame - checkpoint.1 : Int) * timeRatio)

/-- StretchCalculator.cpp:336-337. -/
def incrementFor (s : Calc) (inIncrement : Nat) : Nat := if inIncrement = 0 then s.increment else inIncrement

/-- StretchCalculator.cpp:369-386, the checkpoint after a change of ratio. -/
def checkpointFor (s : Calc) (ratio : Rat) : Int × Int :=
  if ¬ s.justReset ∧ ratio ≠ s.prevRatio then
    (s.inFrame, expectedOutFrame s.checkpoint s.inFrame s.prevTimeRatio)
  else s.checkpoint

/-- StretchCalculator.cpp:411-424 `divergence`. -/
def divergenceFor (checkpoint : Int × Int) (inFrame : Int) (outFrame timeRatio pitchRatio : Rat)
    (analysisWindowSize synthesisWindowSize : Nat) (alignFrameStarts : Bool) : Int :=
  if alignFrameStarts then
    roundAway outFrame - expectedOutFrame checkpoint inFrame timeRatio
  else
    roundAway (outFrame + (synthesisWindowSize / 4 : Nat) * pitchRatio) -
      expectedOutFrame checkpoint (inFrame + (analysisWindowSize / 4 : Nat)) timeRatio

/-- StretchCalculator.cpp:437-444, `isTransient` before the amnesty. -/
def transientAt (s : Calc) (df : Rat) (divergence : Int) : Bool :=
  decide (s.useHardPeaks ∧ df > s.prevDf * (11 / 10) ∧ df > 35 / 100 ∧
    ¬ (divergence > 1000 ∨ divergence < -1000))

/-- StretchCalculator.cpp:462-463 (and 554-555, 631-632): 0.05 s in increments. -/
def spacing (sampleRate increment : Nat) : Nat := ((sampleRate : Rat) / (20 * increment)).ceil.toNat

/-- StretchCalculator.cpp:469-476 `recovery`. -/
def recoveryFor (sampleRate increment : Nat) (divergence : Int) : Rat :=
  if divergence > 1000 ∨ divergence < -1000 then divergence / (((sampleRate : Rat) / 10) / increment)
  else if divergence > 100 ∨ divergence < -100 then divergence / (((sampleRate : Rat) / 20) / increment)
  else divergence / 4

/-- StretchCalculator.cpp:478-501, the increment when there is no transient. -/
def clampedIncrement (increment : Nat) (ratio recovery : Rat) : Int :=
  let incr := lrint (lrint (increment * ratio) - recovery)
  let minIncr := lrint (increment * ratio * (3 / 10))
  let maxIncr := lrint (increment * ratio * 2)
  let incr := if incr < minIncr then minIncr else if incr > maxIncr then maxIncr else incr
  if incr < 0 then 0 else incr

/-- The arguments of `calculateSingle`. -/
structure Single where
  timeRatio : Rat
  pitchRatio : Rat
  df : Rat
  inIncrement : Nat
  analysisWindowSize : Nat
  synthesisWindowSize : Nat
  alignFrameStarts : Bool

/-- StretchCalculator.cpp:326-514 `calculateSingle`: the new state and the result. -/
def calculateSingle (s : Calc) (a : Single) : Calc × Int :=
  let ratio := a.timeRatio / a.pitchRatio
  let increment := incrementFor s a.inIncrement
  let checkpoint := checkpointFor s ratio
  let divergence := divergenceFor checkpoint s.inFrame s.outFrame a.timeRatio a.pitchRatio
    a.analysisWindowSize a.synthesisWindowSize a.alignFrameStarts
  let isTransient := transientAt s a.df divergence && s.amnesty == 0
  let outIncrement : Int := if isTransient then increment
    else clampedIncrement increment ratio (recoveryFor s.sampleRate increment divergence)
  ({ s with
      justReset := false, prevRatio := ratio, prevTimeRatio := a.timeRatio,
      checkpoint := checkpoint, prevDf := a.df,
      amnesty := if isTransient then spacing s.sampleRate increment else s.amnesty - 1,
      inFrame := s.inFrame + a.inIncrement,
      outFrame := s.outFrame + outIncrement * a.pitchRatio },
   if isTransient then -outIncrement else outIncrement)

/-! ## Offline: peaks -/

/-- StretchCalculator.cpp:779-785, the mean of up to three values around `i`. -/
def smoothAt (df : List Rat) (i : Nat) : Rat :=
  let total := (if i > 0 then df.getD (i - 1) 0 else 0) + df.getD i 0 +
    (if i + 1 < df.length then df.getD (i + 1) 0 else 0)
  let count : Rat := (if i > 0 then 1 else 0) + 1 + (if i + 1 < df.length then 1 else 0)
  total / count

/-- StretchCalculator.cpp:772-789 `smoothDF`. -/
def smoothDF (df : List Rat) : List Rat := (List.range df.length).map (smoothAt df)

/-- Insertion into a `std::set<size_t>`, kept as an increasing list. -/
def insertSet (x : Nat) : List Nat → List Nat
  | [] => [x]
  | y :: l => if x < y then x :: y :: l else if x = y then y :: l else y :: insertSet x l

/-- StretchCalculator.cpp:562-564 (negated). -/
def rises (df : List Rat) (i : Nat) : Option Bool := do
  let x ← df[i]?
  let y ← df[i - 1]?
  pure (decide (¬ x < 1 / 10 ∧ ¬ x ≤ y * (11 / 10) ∧ ¬ x < 22 / 100))

/-- StretchCalculator.cpp:581-583, two rises of 20%. -/
def twoRises (df : List Rat) (i : Nat) : Option Bool :=
  if 1 < i then do
    let x ← df[i]?
    let y ← df[i - 1]?
    let z ← df[i - 2]?
    pure (decide (x > y * (12 / 10) ∧ y > z * (12 / 10)))
  else some false

/-- StretchCalculator.cpp:590-594, three rises of 10%. -/
def threeRises (df : List Rat) (i : Nat) : Option Bool :=
  if 2 < i then do
    let x ← df[i]?
    let y ← df[i - 1]?
    let z ← df[i - 2]?
    let w ← df[i - 3]?
    pure (decide (x > 3 / 10 ∧ y > z * (11 / 10) ∧ z > w * (11 / 10)))
  else some false

/-- StretchCalculator.cpp:571-604 `hard`. -/
def isHard (df : List Rat) (i : Nat) : Option Bool := do
  let x ← df[i]?
  let y ← df[i - 1]?
  let two ← twoRises df i
  let three ← threeRises df i
  pure (decide (x > 4 / 10) || decide (x > y * (14 / 10)) || two || three)

/-- StretchCalculator.cpp:607-615 `peakLocation`. -/
def hardLocation (rawDf : List Rat) (i : Nat) : Option Nat :=
  if i + 1 < rawDf.length then do
    let x ← rawDf[i]?
    let y ← rawDf[i + 1]?
    pure (if y > x * (14 / 10) then i + 1 else i)
  else some i

/-- StretchCalculator.cpp:562-618, one round of the loop. -/
def hardTurn (rawDf df : List Rat) (amnesty i : Nat) (cands : List Nat) (prev : Nat) :
    Option (List Nat × Nat) := do
  let r ← rises df i
  let h ← isHard df i
  let p ← hardLocation rawDf i
  pure (if r ∧ ¬ (cands ≠ [] ∧ i < prev + amnesty) ∧ h then (insertSet p cands, p) else (cands, prev))

/-- StretchCalculator.cpp:560-619, the loop from `i` on. -/
def hardLoop (rawDf df : List Rat) (amnesty : Nat) : (rounds i : Nat) → List Nat → (prev : Nat) →
    Option (List Nat)
  | 0, _, cands, _ => some cands
  | rounds + 1, i, cands, prev => do
    let (cands, prev) ← hardTurn rawDf df amnesty i cands prev
    hardLoop rawDf df amnesty rounds (i + 1) cands prev

/-- StretchCalculator.cpp:622-629 `medianmaxsize`. -/
def medianMaxSize (sampleRate increment : Nat) : Nat :=
  max 7 ((sampleRate : Rat) / increment).ceil.toNat

/-- Insertion into a sorted list. -/
def insertSorted (x : Rat) : List Rat → List Rat
  | [] => [x]
  | y :: l => if x ≤ y then x :: y :: l else y :: insertSorted x l

/-- `std::sort` (StretchCalculator.cpp:676); how it sorts does not matter. -/
def sortValues : List Rat → List Rat
  | [] => []
  | x :: l => insertSorted x (sortValues l)

/-- StretchCalculator.cpp:672-682 `thresh`. -/
def threshold (win : List Rat) : Option Rat :=
  let sorted := sortValues win
  let index := (sorted.length * 90) / 100
  let index := if index ≥ sorted.length then sorted.length - 1 else index
  let index := if index = sorted.length - 1 ∧ index > 0 then index - 1 else index
  sorted[index]?

/-- StretchCalculator.cpp:684-686, read from left to right. -/
def softTest (win : List Rat) (middle : Nat) (thresh : Rat) : Option Bool := do
  let x ← win[middle]?
  if x > thresh then do
    let y ← win[middle - 1]?
    if x > y then do
      let z ← win[middle + 1]?
      pure (decide (x > z))
    else pure false
  else pure false

/-- StretchCalculator.cpp:689-699, looking for the highest value; gives `maxindex`. -/
def climb (win : List Rat) (middle : Nat) : (rounds j maxindex : Nat) → (maxval : Rat) → Option Nat
  | 0, _, maxindex, _ => some maxindex
  | rounds + 1, j, maxindex, maxval => do
    let x ← win[j]?
    let m ← win[middle]?
    if x > maxval then climb win middle rounds (j + 1) j x
    else if x < m then some maxindex
    else climb win middle rounds (j + 1) maxindex maxval

/-- The variables of the loop on lines 647-726. -/
structure Soft where
  win : List Rat
  amnesty : Nat := 0
  cands : List Nat := []
  last : Nat := 0

/-- StretchCalculator.cpp:718-725 (and 660-669): the window moves on. -/
def shiftWindow (df win : List Rat) (pop : Bool) (nextDf : Nat) : List Rat :=
  (if pop then win.drop 1 else win) ++ [df.getD nextDf 0]

/-- StretchCalculator.cpp:701-711, noting a peak. -/
def notePeak (df : List Rat) (s : Soft) (peak : Nat) : Soft :=
  if s.cands = [] ∨ s.last ≠ peak then
    if peak ≥ df.length then s else { s with cands := insertSet peak s.cands, last := peak }
  else s

/-- StretchCalculator.cpp:684-716, the test of the middle of the window. -/
def softPick (df : List Rat) (minspacing mediansize middle i : Nat) (s : Soft) : Option Soft := do
  let thresh ← threshold (s.win.take mediansize)
  let t ← softTest s.win middle thresh
  if t ∧ s.amnesty = 0 then do
    let m ← s.win[middle]?
    let maxindex ← climb s.win middle (mediansize - (middle + 1)) (middle + 1) middle m
    pure { notePeak df s (i + maxindex - middle) with amnesty := minspacing + maxindex - middle }
  else pure { s with amnesty := s.amnesty - 1 }

/-- StretchCalculator.cpp:649-725, one round. -/
def softTurn (df : List Rat) (maxsize minspacing i : Nat) (s : Soft) : Option Soft :=
  let mediansize := min maxsize s.win.length
  let middle := if maxsize / 2 ≥ mediansize then mediansize - 1 else maxsize / 2
  let nextDf := i + mediansize - middle
  if mediansize < 2 then
    some { s with win := shiftWindow df s.win (mediansize > maxsize) nextDf }
  else do
    let s ← softPick df minspacing mediansize middle i s
    pure { s with win := shiftWindow df s.win (mediansize ≥ maxsize) nextDf }

/-- StretchCalculator.cpp:647-726, the loop from `i` on. -/
def softLoop (df : List Rat) (maxsize minspacing : Nat) : (rounds i : Nat) → Soft → Option Soft
  | 0, _, s => some s
  | rounds + 1, i, s => do
    let s ← softTurn df maxsize minspacing i s
    softLoop df maxsize minspacing rounds (i + 1) s

/-- StretchCalculator.cpp:638-643, the window at first. -/
def firstWindow (df : List Rat) (maxsize : Nat) : List Rat :=
  List.replicate (maxsize / 2) 0 ++ df.take (maxsize / 2)

/-- StretchCalculator.cpp:752-757 `ignore`; `peaks` is newest first. -/
def ignored (softPeak : Nat) : (peaks : List Peak) → Bool
  | [] => false
  | p :: _ => p.hard && decide (p.chunk + 3 ≥ softPeak)

/-- StretchCalculator.cpp:728-767, the merging of the sets; `peaks` is newest first. -/
def merge : (fuel : Nat) → (hard soft : List Nat) → (peaks : List Peak) → List Peak
  | 0, _, _, peaks => peaks
  | _ + 1, [], [], peaks => peaks
  | fuel + 1, h :: hard, [], peaks => merge fuel hard [] (⟨h, true⟩ :: peaks)
  | fuel + 1, h :: hard, p :: soft, peaks =>
    if h ≤ p then merge fuel hard (if h = p then soft else p :: soft) (⟨h, true⟩ :: peaks)
    else merge fuel (h :: hard) soft (if ignored p peaks then peaks else ⟨p, false⟩ :: peaks)
  | fuel + 1, [], p :: soft, peaks =>
    merge fuel [] soft (if ignored p peaks then peaks else ⟨p, false⟩ :: peaks)

/-- StretchCalculator.cpp:549-620, the hard peaks. -/
def hardPeaks (s : Calc) (rawDf df : List Rat) : Option (List Nat) :=
  if s.useHardPeaks then
    hardLoop rawDf df (spacing s.sampleRate s.increment) (df.length - 2) 1 [] 0
  else some []

/-- StretchCalculator.cpp:532-770 `findPeaks`. -/
def findPeaks (s : Calc) (rawDf : List Rat) : Option (List Peak) := do
  let df := smoothDF rawDf
  let hard ← hardPeaks s rawDf df
  let maxsize := medianMaxSize s.sampleRate s.increment
  let soft ← softLoop df maxsize (spacing s.sampleRate s.increment) df.length 0
    { win := firstWindow df maxsize }
  pure (merge (hard.length + soft.cands.length) hard soft.cands []).reverse

/-! ## Offline: increments -/

/-- StretchCalculator.cpp:293-300, the target of a peak between two key frames. -/
def interpolate (sc ec ts te chunk : Nat) : Nat :=
  ts + (lrint (((chunk - sc : Nat) : Rat) / ((ec - sc : Nat) : Rat) * ((te - ts : Nat) : Rat))).toNat

/-- StretchCalculator.cpp:282: the last peak made hard (newest first). -/
def hardenLast : List (Peak × Nat) → List (Peak × Nat)
  | [] => []
  | (p, t) :: rest => ({ p with hard := true }, t) :: rest

/-- `targets[targets.size()-1]` (newest first). -/
def lastTarget : List (Peak × Nat) → Nat
  | [] => 0
  | (_, t) :: _ => t

/-- StretchCalculator.cpp:270-312, the inner loop: the computed peaks left, and the peaks
with their targets, newest first. -/
def peakLoop (increment sc ec ts te : Nat) : List Peak → List (Peak × Nat) →
    List Peak × List (Peak × Nat)
  | [], acc => ([], acc)
  | q :: qs, acc =>
    if q.chunk < sc then peakLoop increment sc ec ts te qs acc
    else if q.chunk = sc then peakLoop increment sc ec ts te qs (hardenLast acc)
    else if q.chunk ≥ ec then (q :: qs, acc)
    else
      let target := interpolate sc ec ts te q.chunk
      if target ≤ lastTarget acc + increment then peakLoop increment sc ec ts te qs acc
      else peakLoop increment sc ec ts te qs ((q, target) :: acc)

/-- StretchCalculator.cpp:230-313, the loop over key frames; the result is newest first. -/
def keyLoop (increment outputDuration totalCount : Nat) : List (Nat × Nat) → List Peak →
    List (Peak × Nat) → List (Peak × Nat)
  | [], _, acc => acc
  | (src, tgt) :: rest, qs, acc =>
    let sc := src / increment
    let (ec, te) := match rest with
      | [] => (totalCount, outputDuration)
      | (src', tgt') :: _ => (src' / increment, tgt')
    if sc ≥ totalCount ∨ sc ≥ ec ∨ tgt ≥ outputDuration ∨ tgt ≥ te then
      keyLoop increment outputDuration totalCount rest qs acc
    else
      let (qs, acc) := peakLoop increment sc ec tgt te qs ((⟨sc, false⟩, tgt) :: acc)
      keyLoop increment outputDuration totalCount rest qs acc

/-- StretchCalculator.cpp:198-314 `mapPeaks`: each peak with its target. -/
def mapPeaks (s : Calc) (peaks : List Peak) (outputDuration totalCount : Nat) : List (Peak × Nat) :=
  if s.keyFrameMap = [] then
    peaks.map fun p => (p, (lrint (((p.chunk : Rat) * outputDuration) / totalCount)).toNat)
  else (keyLoop s.increment outputDuration totalCount s.keyFrameMap peaks []).reverse

/-- StretchCalculator.cpp:172-178, the loop over the chunks of a region but the last: the
increments and the total. -/
def evenLoop (per : Rat) : (rounds : Nat) → (acc : Rat) → (total : Nat) → Option (List Int × Nat)
  | 0, _, total => some ([], total)
  | rounds + 1, acc, total => do
    let acc := acc + per
    let incr := roundAway (acc - total)
    if incr < 0 then none
    else do
      let (rest, total) ← evenLoop per rounds acc (total + incr.toNat)
      pure (incr :: rest, total)

/-- StretchCalculator.cpp:179-184, the last chunk of a region. -/
def lastIncrement (duration total : Nat) : List Int :=
  if duration > total then [((duration - total : Nat) : Int)] else []

/-- StretchCalculator.cpp:171-185, chunks that do not begin with a reset. -/
def even (duration nremaining : Nat) (per acc : Rat) (total : Nat) : Option (List Int) :=
  if nremaining > 0 then do
    let (incs, total) ← evenLoop per (nremaining - 1) acc total
    pure (incs ++ lastIncrement duration total)
  else some []

/-- StretchCalculator.cpp:154-162 `incr`. -/
def resetIncrement (increment duration nchunks : Nat) : Nat :=
  if nchunks > 1 then min increment duration else duration

/-- StretchCalculator.cpp:143-187, the increments of a region. -/
def region (increment duration nchunks : Nat) (phaseReset : Bool) : Option (List Int) :=
  if nchunks = 0 then some []
  else if phaseReset then do
    let incr := resetIncrement increment duration nchunks
    let rest ← even duration (nchunks - 1) (((duration - incr : Nat) : Rat) / ((nchunks - 1 : Nat) : Rat)) incr incr
    pure (-(incr : Int) :: rest)
  else even duration nchunks ((duration : Rat) / nchunks) 0 0

/-- StretchCalculator.cpp:128-139, a region with its ends brought into range. -/
def clampedRegion (increment outputDuration totalCount : Nat) (startChunk start : Nat) (hard : Bool)
    (endChunk end_ : Nat) : Option (List Int) :=
  let startChunk := min startChunk totalCount
  let start := min start outputDuration
  let endChunk := max (min endChunk totalCount) startChunk
  let end_ := max (min end_ outputDuration) start
  region increment (end_ - start) (endChunk - startChunk) hard

/-- StretchCalculator.cpp:106-188, the loop over regions. -/
def regions (increment outputDuration totalCount : Nat) : (startChunk start : Nat) → (hard : Bool) →
    List (Peak × Nat) → Option (List Int)
  | sc, st, hard, [] => clampedRegion increment outputDuration totalCount sc st hard totalCount outputDuration
  | sc, st, hard, (p, t) :: rest => do
    let a ← clampedRegion increment outputDuration totalCount sc st hard p.chunk t
    let b ← regions increment outputDuration totalCount p.chunk t p.hard rest
    pure (a ++ b)

/-- StretchCalculator.cpp:91, the length of the output.  The input duration given is not
used (line 86 is overwritten). -/
def outputDuration (s : Calc) (ratio : Rat) (count : Nat) : Nat :=
  (lrint (((count * s.increment : Nat) : Rat) * ratio)).toNat

/-- StretchCalculator.cpp:80-195 `calculate`. -/
def calculate (s : Calc) (ratio : Rat) (df : List Rat) : Option (List Int) := do
  let peaks ← findPeaks s df
  let d := outputDuration s ratio df.length
  regions s.increment d df.length 0 0 false (mapPeaks s peaks d df.length)

end Verif.StretchCalc
