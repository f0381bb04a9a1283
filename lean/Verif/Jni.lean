import Verif.CliMaps
/-!
# The Java interface

Model of the calls of `src/jni/RubberBandStretcherJNI.cpp` that pass arrays.  The arrays of Java are a heap; other threads of the Java program may write to it between any two steps.  `GetFloatArrayElements` gives a copy of an array,
which `ReleaseFloatArrayElements` with mode 0 copies back, or the array itself, as the virtual machine chooses (Java Native Interface Specification, chapter 4); here it chooses once for each array.  The stretcher is a parameter: its
calls are one step.  Offsets and counts are not negative.  Left out: the calls that only pass numbers, handles, and failing allocation.
-/
namespace Verif.Jni

variable {σ K : Type}

/-- The arrays of the Java program. -/
abbrev Heap (K : Type) := Nat → List K

/-- A write of another thread of the Java program. -/
structure Write (K : Type) where
  array : Nat
  index : Nat
  value : K

/-- The write is done. -/
def poke (h : Heap K) (w : Write K) : Heap K := fun a => if a = w.array then (h a).set w.index w.value else h a

/-- All of these writes. -/
def pokes (h : Heap K) (ws : List (Write K)) : Heap K := ws.foldl poke h

/-- RubberBandStretcherJNI.cpp:479-483, 502-506: the loop that gets the arrays, with what other threads write before each round: the heap, and the arrays as they were then. -/
def gets (array : Nat → Nat) (other : Nat → List (Write K)) : Nat → Heap K → Heap K × (Nat → List K)
  | 0, h => (h, fun _ => [])
  | c + 1, h =>
    let r := gets array other c h
    let h := pokes r.1 (other c)
    (h, fun k => if k = c then h (array c) else r.2 k)

/-- An array is given new contents. -/
def store (h : Heap K) (a : Nat) (l : List K) : Heap K := fun b => if b = a then l else h b

/-- RubberBandStretcherJNI.cpp:487-490, 510-513: the loop that releases the arrays: copies are copied back. -/
def releases (copies : Nat → Bool) (array : Nat → Nat) (got : Nat → List K) (other : Nat → List (Write K)) : Nat → Heap K → Heap K
  | 0, h => h
  | c + 1, h =>
    let h := pokes (releases copies array got other c h) (other c)
    if copies (array c) then store h (array c) (got c) else h

/-- What other threads write during a call: before each array is got, before the stretcher is called, and before each array is released. -/
structure Others (K : Type) where
  get : Nat → List (Write K)
  call : List (Write K)
  release : Nat → List (Write K)

/-- All that they write in a call with so many arrays, in order. -/
def Others.all (o : Others K) (channels : Nat) : List (Write K) := (List.range channels).flatMap o.get ++ (o.call ++ (List.range channels).flatMap o.release)

/-- RubberBandStretcherJNI.cpp:473-493 `study` and 496-516 `process`: `call` is what the stretcher, which has `own` channels, does with its input.  `none`: it reads beyond an array or beyond the arrays given. -/
def give (copies : Nat → Bool) (call : σ → List (List K) → σ) (own : Nat) (o : Others K) (array : Nat → Nat) (channels offset n : Nat) (s : σ) (h : Heap K) : Option (σ × Heap K) :=
  let g := gets array o.get channels h
  let h := pokes g.1 o.call
  let buffer := fun c => if copies (array c) then g.2 c else h (array c)
  if own ≤ channels ∧ ∀ c < own, offset + n ≤ (buffer c).length then
    some (call s ((List.range own).map fun c => ((buffer c).drop offset).take n), releases copies array g.2 o.release channels h)
  else none

/-- Part of a list replaced, from here on. -/
def splice (l : List K) (offset : Nat) (x : List K) : List K := l.take offset ++ x ++ l.drop (offset + x.length)

/-- RubberBandStretcherJNI.cpp:534-537: the loop over `SetFloatArrayRegion`.  `none`: the samples do not fit, which leaves an exception pending. -/
def regions (array : Nat → Nat) (offset : Nat) (out : Nat → List K) (other : Nat → List (Write K)) : Nat → Heap K → Option (Heap K)
  | 0, h => some h
  | c + 1, h => do
    let h ← regions array offset out other c h
    let h := pokes h (other c)
    if offset + (out c).length ≤ (h (array c)).length then some (store h (array c) (splice (h (array c)) offset (out c))) else none

/-- RubberBandStretcherJNI.cpp:525-541 `retrieve`: `call` is what the stretcher gives for each channel; what is returned is `retrieved`. -/
def retrieve (call : σ → Nat → σ × Nat × (Nat → List K)) (own : Nat) (other : Nat → List (Write K)) (array : Nat → Nat) (offset n : Nat) (s : σ) (h : Heap K) : Option (σ × Nat × Heap K) :=
  let r := call s n
  (regions array offset r.2.2 other own h).map fun h => (r.1, r.2.1, h)

/-- The shifter writes its output where `GetFloatArrayElements` has said: to the array itself unless that is copied. -/
def writes (copies : Nat → Bool) (outs : Nat → Nat) (outOffset : Nat) (out : Nat → List K) : Nat → Heap K → Heap K
  | 0, h => h
  | c + 1, h =>
    let h := writes copies outs outOffset out c h
    if copies (outs c) then h else store h (outs c) (splice (h (outs c)) outOffset (out c))

/-- RubberBandStretcherJNI.cpp:637-642: the loop that releases input and output; those that are copies are copied back. -/
def releaseBoth (copies : Nat → Bool) (ins outs : Nat → Nat) (gotIn gotOut : Nat → List K) : Nat → Heap K → Heap K
  | 0, h => h
  | c + 1, h =>
    let h := releaseBoth copies ins outs gotIn gotOut c h
    let h := if copies (ins c) then store h (ins c) (gotIn c) else h
    if copies (outs c) then store h (outs c) (gotOut c) else h

/-- RubberBandStretcherJNI.cpp:617-648 `shift`, with nothing written by other threads: `call` is what the shifter gives for each channel of a block of size `n`.  `none`: it reads or writes beyond an array. -/
def shift (copies : Nat → Bool) (call : σ → List (List K) → σ × (Nat → List K)) (n : Nat) (ins outs : Nat → Nat) (channels inOffset outOffset : Nat) (s : σ) (h : Heap K) : Option (σ × Heap K) :=
  if ∀ c < channels, inOffset + n ≤ (h (ins c)).length ∧ outOffset + n ≤ (h (outs c)).length then
    let r := call s ((List.range channels).map fun c => ((h (ins c)).drop inOffset).take n)
    some (r.1, releaseBoth copies ins outs (fun c => h (ins c)) (fun c => splice (h (outs c)) outOffset (r.2 c)) channels (writes copies outs outOffset r.2 channels h))
  else none

/-- RubberBandStretcherJNI.cpp:457-471 `setKeyFrameMap`: the map given to the stretcher. -/
def keyFrames (from_ to : List Int) : List (Nat × Nat) := (from_.zip to).foldl (fun m p => CliMaps.put (CliMaps.toSize p.1) (CliMaps.toSize p.2) m) []

/-- RubberBandStretcher.java:68-81 `setKeyFrameMap` of a `Map`, given as its keys, in any order, and what is at them. -/
def keyFramesOf (keys : List Int) (get : Int → Int) : List (Nat × Nat) := keyFrames keys (keys.map get)

end Verif.Jni
