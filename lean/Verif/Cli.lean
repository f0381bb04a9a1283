import Mathlib.Algebra.Order.Field.Basic
/-!
# The command-line utility

Model of `main/main.cpp` from the first pass on: studying, padding, processing with changes of pitch from a map, retrieving, reducing the gain and starting over when there is clipping, and completing.
The stretcher and the length aimed at are parameters; the input file is its samples for each channel and the number of frames in its header.  Not modelled: options and map files, messages, files that
cannot be opened or read, rounding of the samples.
-/
namespace Verif.Cli

variable {σ K : Type}

/-- The stretcher, as main.cpp uses it. -/
structure Engine (σ K : Type) where
  study : σ → (Nat → List K) → Bool → σ
  process : σ → (Nat → List K) → Bool → σ
  available : σ → Int
  retrieve : σ → Nat → σ × (Nat → List K)
  startDelay : σ → Nat
  startPad : σ → Nat
  setPitchScale : σ → K → σ
  setKeyFrameMap : σ → σ

/-- What the options and the files say. -/
structure Job (σ K : Type) where
  /-- main.cpp:726-729: the stretcher as made for each pass. -/
  stretcher : σ
  channels : Nat
  realtime : Bool
  /-- main.cpp:1016 `OptionThreadingNever`. -/
  threadingNever : Bool
  /-- main.cpp:781 a time map is given. -/
  timeMap : Bool
  /-- main.cpp:494 `freqMap`, in order. -/
  freqMap : List (Nat × K)
  frequencyshift : K
  /-- main.cpp:904 `size_t(countIn * ratio)`. -/
  ideal : Nat → Nat
  /-- The samples in the input file. -/
  input : Nat → List K
  /-- How many frames are in the input file. -/
  length : Nat
  /-- `sfinfo.frames`. -/
  frames : Nat

/-- main.cpp:712 `bs`. -/
def bs : Nat := 1024

/-- `sf_readf_float` of `n` frames from frame `pos` (main.cpp:745, 844). -/
def Job.read (j : Job σ K) (pos n : Nat) : Nat → List K := fun c => (((j.input c).take j.length).drop pos).take n

/-- How many frames it reads. -/
def Job.count (j : Job σ K) (pos n : Nat) : Nat := min n (j.length - pos)

/-- main.cpp:742-769, the studying loop.  `pos` is the position in the file. -/
def study (E : Engine σ K) (j : Job σ K) : (fuel frame pos : Nat) → σ → Option σ
  | 0, _, _, _ => none
  | fuel + 1, frame, pos, e =>
    let count := j.count pos bs
    let final := decide (j.frames ≤ frame + bs) || count == 0
    let e := E.study e (j.read pos bs) final
    if final then some e else study E j fuel (frame + bs) (pos + count) e

/-- main.cpp:808-813, the padding loop. -/
def pad [Zero K] (E : Engine σ K) : (fuel toPad : Nat) → σ → σ
  | 0, _, e => e
  | fuel + 1, toPad, e => if toPad = 0 then e else pad E fuel (toPad - min toPad bs) (E.process e (fun _ => List.replicate (min toPad bs) 0) false)

/-- main.cpp:821-841, the loop over the frequency map: the stretcher, what is left of the map and `thisBlockSize`. -/
def pitches [Mul K] (E : Engine σ K) (shift : K) (countIn : Nat) : σ → List (Nat × K) → σ × List (Nat × K) × Nat
  | e, [] => (e, [], bs)
  | e, (f, v) :: l => if f ≤ countIn then pitches E shift countIn (E.setPitchScale e (shift * v)) l else (e, (f, v) :: l, if f < countIn + bs then f - countIn else bs)

variable [Field K] [LinearOrder K]

/-- main.cpp:925-926, 1035-1036. -/
def clamp (x : K) : K := if x > 1 then 1 else if x < -1 then -1 else x

/-- main.cpp:922-934, the loop over the samples of one channel: `gain`, `clipping` and the samples to be written. -/
def scale (ignoreClipping : Bool) : K → Bool → List K → K × Bool × List K
  | gain, clipping, [] => (gain, clipping, [])
  | gain, clipping, x :: l =>
    let value := gain * x
    if ignoreClipping then
      let r := scale ignoreClipping gain clipping l
      (r.1, r.2.1, clamp value :: r.2.2)
    else if value ≥ 1 ∨ value < -1 then
      let r := scale ignoreClipping (999 / 1000 / |x|) true l
      (r.1, r.2.1, value :: r.2.2)
    else
      let r := scale ignoreClipping gain clipping l
      (r.1, r.2.1, value :: r.2.2)

/-- main.cpp:921-935, the loop over the channels. -/
def scaleAll (ignoreClipping : Bool) (gain : K) (clipping : Bool) (x : Nat → List K) : Nat → K × Bool × (Nat → List K)
  | 0 => (gain, clipping, fun _ => [])
  | c + 1 =>
    let r := scaleAll ignoreClipping gain clipping x c
    let t := scale ignoreClipping r.1 r.2.1 (x c)
    (t.1, t.2.1, fun k => if k = c then t.2.2 else r.2.2 k)

/-- The variables of a pass (main.cpp:706-817). -/
structure Pass (σ K : Type) where
  engine : σ
  frame : Nat
  countIn : Nat
  countOut : Nat
  toDrop : Nat
  map : List (Nat × K)
  gain : K
  clipping : Bool
  final : Bool
  /-- What was written in this pass. -/
  written : Nat → List K

/-- main.cpp:902-917: how many frames of a block are written; negative if too many have been. -/
def kept (j : Job σ K) (p : Pass σ K) (n : Nat) : Int :=
  if j.realtime && p.final then (if p.countOut + n > j.ideal p.countIn then (j.ideal p.countIn : Int) - p.countOut else n) else n

/-- main.cpp:877-936, one round of the retrieving loop with so many available.  `sf_writef_float` writes nothing for a negative count. -/
def takeOnce (E : Engine σ K) (j : Job σ K) (ignore : Bool) (avail : Nat) (p : Pass σ K) : Pass σ K :=
  let n := min avail bs
  if p.toDrop > 0 then
    { p with engine := (E.retrieve p.engine (min p.toDrop n)).1, toDrop := p.toDrop - min p.toDrop n }
  else
    let r := E.retrieve p.engine n
    let k := kept j p n
    let s := scaleAll ignore p.gain p.clipping (fun c => (r.2 c).take k.toNat) j.channels
    { p with engine := r.1, countOut := (p.countOut + k).toNat, gain := s.1, clipping := s.2.1, written := fun c => p.written c ++ s.2.2 c }

/-- main.cpp:871-937, the retrieving loop. -/
def drain (E : Engine σ K) (j : Job σ K) (ignore : Bool) : (fuel : Nat) → Pass σ K → Option (Pass σ K)
  | 0, p => if E.available p.engine > 0 then none else some p
  | fuel + 1, p => if E.available p.engine > 0 then drain E j ignore fuel (takeOnce E j ignore (E.available p.engine).toNat p) else some p

/-- main.cpp:821-869, one round of the processing loop as far as `process`. -/
def feed (E : Engine σ K) (j : Job σ K) (p : Pass σ K) : Pass σ K :=
  let r := pitches E j.frequencyshift p.countIn p.engine p.map
  let count := j.count p.countIn r.2.2
  let final := decide (j.frames ≤ p.frame + r.2.2) || count == 0
  { p with engine := E.process r.1 (j.read p.countIn r.2.2) final, map := r.2.1, countIn := p.countIn + count, final := final }

/-- How a pass ends: having read all, or with clipping. -/
inductive Outcome (σ K : Type) where
  | done (p : Pass σ K)
  | clipped (p : Pass σ K)

/-- main.cpp:819-973, the processing loop.  `rounds` bounds its rounds, `fuel` those of the retrieving loop.  The frames of a round are counted at its end (972). -/
def loop (E : Engine σ K) (j : Job σ K) (ignore : Bool) (fuel : Nat) : (rounds : Nat) → Pass σ K → Option (Outcome σ K)
  | 0, _ => none
  | rounds + 1, p =>
    let q := feed E j p
    (drain E j ignore fuel q).bind fun d =>
      if d.clipping then some (.clipped d)
      else if d.final then some (.done { d with frame := p.frame + (q.countIn - p.countIn) })
      else loop E j ignore fuel rounds { d with frame := p.frame + (q.countIn - p.countIn) }

/-- main.cpp:1008-1042, the completing loop.  With nothing available and threads allowed it waits, here for ever. -/
def complete (E : Engine σ K) (j : Job σ K) : (fuel : Nat) → Pass σ K → Option (Pass σ K)
  | 0, _ => none
  | fuel + 1, p =>
    if E.available p.engine < 0 then some p
    else if E.available p.engine = 0 then (if j.realtime || j.threadingNever then some p else none)
    else
      let n := min (E.available p.engine).toNat bs
      let r := E.retrieve p.engine n
      complete E j fuel { p with engine := r.1, countOut := p.countOut + n, written := fun c => if c < j.channels then p.written c ++ ((r.2 c).take n).map fun x => clamp (p.gain * x) else p.written c }

/-- main.cpp:726-817, the beginning of a pass. -/
def begin (E : Engine σ K) (j : Job σ K) (fuel : Nat) (gain : K) : Option (Pass σ K) :=
  (if j.realtime then some j.stretcher else study E j fuel 0 0 j.stretcher).map fun e =>
    let e := if j.timeMap then E.setKeyFrameMap e else e
    { engine := if j.realtime then pad E (E.startPad e) (E.startPad e) e else e
      frame := 0, countIn := 0, countOut := 0, toDrop := E.startDelay e, map := j.freqMap, gain := gain, clipping := false, final := false, written := fun _ => [] }

/-- What is in the output file after so much was written from its start (main.cpp:988: the file is rewound, not emptied). -/
def rewritten (w file : Nat → List K) : Nat → List K := fun c => w c ++ (file c).drop (w c).length

/-- main.cpp:722-1043, the passes; the last one and the output file. -/
def passes (E : Engine σ K) (j : Job σ K) (fuel : Nat) : (most : Nat) → (gain : K) → (ignore : Bool) → (file : Nat → List K) → Option (Pass σ K × (Nat → List K))
  | 0, _, _, _ => none
  | most + 1, gain, ignore, file =>
    (begin E j fuel gain).bind fun p => (loop E j ignore fuel fuel p).bind fun
      | .done d => (complete E j fuel d).map fun d => (d, rewritten d.written file)
      | .clipped d => if d.gain < 3 / 4 then passes E j fuel most (3 / 4) true (rewritten d.written file) else passes E j fuel most d.gain ignore (rewritten d.written file)

end Verif.Cli
