import Verif.R3
import Verif.Synth
import Verif.PhaseAdvance
import Verif.Window
import Verif.FFTReal
import Verif.FormantProps
import Mathlib.Analysis.SpecialFunctions.Complex.Arg
/-!
# The spectral part of the finer engine over the reals

What the model of the engine in `R3.lean` leaves open (`Env.dsp`) is given here: windows, transforms, polar form, read-ahead, guidance, phases and accumulators, over the reals and exact
(the code uses `float` and `double`).  Whether formants are preserved does not change (`setFormantOption` is not called).  The transforms are those that C79 and C80 show the built-in implementation to compute,
and what is done to the magnitudes for the formants is what C117 shows `analyseFormant` and `adjustFormant` to do.
What remains open is what classifier and segmenter find and how magnitudes are rounded for the guide (`Open`).
`none` is an access outside an array.
-/
namespace Verif.R3
open Verif.Guide (Guidance)

/-- The parameters of the guide (R3Stretcher.cpp:42-44). -/
def Params.guide (p : Params) : Guide.Params := ⟨p.rate, p.windowShort⟩

/-! ### Windows -/

/-- R3Stretcher.cpp:165-174, 182-186: the analysis window of a scale. -/
noncomputable def analysisWindow (p : Params) (n i : Nat) : ℝ :=
  if p.windowShort then Window.hann n i else if n < 1024 ∨ n > 2048 then Window.hann n i else Window.forward n i

/-- R3Stretcher.cpp:199-210 `synthesisWindowLength`. -/
def synthesisSize (p : Params) (n : Nat) : Nat := if p.windowShort then n else if n > 2048 then n / 2 else n

/-- R3Stretcher.cpp:188-197: the synthesis window of a scale. -/
noncomputable def synthesisWindow (p : Params) (n i : Nat) : ℝ :=
  if p.windowShort then Window.hann (synthesisSize p n) i else if n < 1024 ∨ n > 2048 then Window.hann (synthesisSize p n) i else Window.reverse (synthesisSize p n) i

/-- R3Stretcher.h:307-313 `windowScaleFactor`. -/
noncomputable def windowScale (p : Params) (n : Nat) : ℝ :=
  ∑ i ∈ Finset.range (synthesisSize p n), analysisWindow p n (i + (n - synthesisSize p n) / 2) * synthesisWindow p n i

/-! ### Analysis -/

/-- VectorOps.h `v_fftshift`: the halves changed over. -/
def swapHalves (n : Nat) (x : Nat → ℝ) (i : Nat) : ℝ := if i < n / 2 then x (i + n / 2) else x (i - n / 2)

/-- R3Stretcher.cpp:1198-1199, 1213-1215, 1227-1229: what is cut from the source window at an offset. -/
noncomputable def cutAt (p : Params) (n offset : Nat) (source : List ℝ) (i : Nat) : ℝ := analysisWindow p n i * (source[offset + i]?).getD 0

/-- R3Stretcher.cpp:1252-1255, 1294-1298: shifted and transformed. -/
noncomputable def transformed (n : Nat) (x : Nat → ℝ) (k : Nat) : ℂ := FFT.spectrum n (swapHalves n x) k

/-- The elements from `lo` on, `count` of them, set. -/
def setFrom {α : Type} (lo count : Nat) (f : Nat → α) (l : List α) : List α := l.mapIdx fun i x => if lo ≤ i ∧ i < lo + count then f i else x

/-- R3Stretcher.h:158-185 `ChannelScaleData`.  `timeDomain`, `real` and `imag` are written to before they are read in every round, where they are read. -/
structure Scale where
  mag : List ℝ
  phase : List ℝ
  advanced : List ℝ
  prevMag : List ℝ
  pendingKick : List ℝ
  acc : Nat → ℝ

/-- R3Stretcher.h:210-263 `ChannelData`; the scales by their size.  `rest` stands for classifier, segmenter and what they have found. -/
structure ChannelData (κ : Type) where
  scales : Nat → Scale
  raMag : List ℝ
  raPhase : List ℝ
  haveReadahead : Bool
  guidance : Guidance
  rest : κ

/-- The members R3Stretcher.h:338-345 that matter: channels, `guided` of the scales by their size, `m_unityCount`. -/
structure Spectral (κ : Type) where
  chans : List (ChannelData κ)
  guided : Nat → List (PhaseAdvance.Chan ℝ)
  unity : Nat

/-- What classifier and segmenter give for the guide. -/
structure Seen where
  mean : Rat
  seg : Guide.Segmentation
  prevSeg : Guide.Segmentation
  nextSeg : Guide.Segmentation

/-- What is left open. -/
structure Open (κ : Type) where
  init : κ
  reset : κ → κ
  /-- R3Stretcher.cpp:1348-1361, 1397: classification and segmentation; given the magnitudes that are classified and those of the frame. -/
  look : κ → List ℝ → List ℝ → κ × Seen
  /-- A magnitude as the guide is modelled to take it. -/
  rational : ℝ → Rat
  /-- `OptionFormantPreserved`. -/
  preserved : Bool
  /-- The factors for the bins of a scale with a formant scale that is not a finite number, where the behaviour is undefined (an index is made of a value that is not finite). -/
  strange : Nat → Nat → ℝ

variable {κ : Type}

/-- R3Stretcher.cpp:1302-1327: the bins of a scale that are converted to polar form, by `b0min` and `b1max`. -/
def polarRange (p : Params) (n : Nat) : Nat × Nat :=
  match (Guide.bandLimits p.guide).find? fun l => l.fftSize == n with
  | some l => (l.b0min.toNat, (l.b1max - l.b0min + 1).toNat)
  | none => (0, 0)

/-- R3Stretcher.cpp:1291-1336: the magnitudes (divided by the size) and phases of a scale. -/
noncomputable def polar (p : Params) (n : Nat) (x : Nat → ℝ) (s : Scale) : Scale :=
  let r := polarRange p n
  { s with
    mag := setFrom r.1 r.2 (fun k => ‖transformed n x k‖ * (1 / n)) s.mag
    phase := setFrom r.1 r.2 (fun k => (transformed n x k).arg) s.phase }

/-- R3Stretcher.cpp:1241-1250, 1266-1276: what was read ahead becomes current.  Where there is none the magnitudes are scaled too, and then set anew. -/
noncomputable def fromReadahead (p : Params) (copy : Bool) (c : ChannelData κ) (s : Scale) : Scale :=
  let s := if copy then { s with mag := c.raMag, phase := c.raPhase } else s
  { s with mag := s.mag.map (· * (1 / p.classificationFftSize)) }

/-- R3Stretcher.cpp:1167-1337: the spectra of a channel. -/
noncomputable def spectra (p : Params) (hop : Hop) (source : List ℝ) (c : ChannelData κ) : ChannelData κ :=
  let classify := p.classificationFftSize
  let offset := fun n => (p.longestFftSize - n) / 2
  let copy := hop.useReadahead && c.haveReadahead && hop.inhop == hop.prevInhop
  let r := polarRange p classify
  let ahead := transformed classify (cutAt p classify (offset classify + hop.inhop) source)
  { c with
    scales := fun n =>
      let s := if n = classify ∧ hop.useReadahead then fromReadahead p copy c (c.scales n) else c.scales n
      if n ∈ p.scales ∧ ¬ (n = classify ∧ copy) then polar p n (cutAt p n (offset n) source) s else s
    raMag := if hop.useReadahead then setFrom r.1 r.2 (fun k => ‖ahead k‖) c.raMag else c.raMag
    raPhase := if hop.useReadahead then setFrom r.1 r.2 (fun k => (ahead k).arg) c.raPhase else c.raPhase
    haveReadahead := c.haveReadahead || hop.useReadahead }

open Classical in
/-- R3Stretcher.cpp:1340-1343, 1453-1524: formants, as C117 gives them (`C117_partial`): the factor for a bin of the scale of size `n`, given the magnitudes of the classification scale. -/
noncomputable def formantFactor (p : Params) (o : Open κ) (hop : Hop) (mag : List ℝ) (n i : Nat) : ℝ :=
  if o.preserved = true ∧ Formant.Reached p.guide n i then
    match hop.formantScale with
    | .fin q => Formant.ratio p.guide.classify (Formant.envelope p.guide.classify (Formant.cutoff p.guide.rate) mag) (if q = 0 then 1 / hop.pitchScale else q) n i
    | _ => o.strange n i
  else 1

/-- R3Stretcher.cpp:1340-1343: the magnitudes of all scales multiplied by the factors. -/
noncomputable def formed (p : Params) (o : Open κ) (hop : Hop) (c : ChannelData κ) : ChannelData κ :=
  { c with scales := fun n => { c.scales n with mag := (c.scales n).mag.mapIdx fun i m => m * formantFactor p o hop (c.scales p.classificationFftSize).mag n i } }

/-- R3Stretcher.cpp:1167-1343: the spectra of a channel, and their formants. -/
noncomputable def shaped (p : Params) (o : Open κ) (hop : Hop) (source : List ℝ) (c : ChannelData κ) : ChannelData κ := formed p o hop (spectra p hop source c)

/-- R3Stretcher.cpp:1386-1392: `m_unityCount` counted on. -/
def countUnity (hop : Hop) (n : Nat) : Nat := if |hop.timeRatio * hop.pitchScale - 1| < 1 / 10000000 then n + 1 else 0

/-- R3Stretcher.cpp:1394-1436: the arguments of the update of the guidance of channel `k`. -/
def frameFor (p : Params) (o : Open κ) (hop : Hop) (k unity : Nat) (seen : Seen) (c : ChannelData κ) : Guide.Frame where
  ratio := hop.timeRatio * hop.pitchScale
  outhop := hop.prevOuthop
  mags := (if hop.useReadahead then (c.scales p.classificationFftSize).mag else (c.scales p.classificationFftSize).prevMag).map o.rational
  prev := (c.scales p.classificationFftSize).prevMag.map o.rational
  next := (if hop.useReadahead then c.raMag else (c.scales p.classificationFftSize).mag).map o.rational
  seg := seen.seg
  prevSeg := seen.prevSeg
  nextSeg := seen.nextSeg
  mean := seen.mean
  unityCount := unity
  realTime := p.realTime
  tighterChannelLock := p.channelsTogether
  resetOnSilence := !(p.useMidSide && k == 1)

/-- R3Stretcher.cpp:1166-1451 `analyseChannel` for channel `k`, given the unity count. -/
noncomputable def analyse (p : Params) (o : Open κ) (hop : Hop) (k : Nat) (source : List ℝ) (unity : Nat) (c : ChannelData κ) : Option (ChannelData κ × Nat) :=
  let c := shaped p o hop source c
  let (rest, seen) := o.look c.rest (if hop.useReadahead then c.raMag else (c.scales p.classificationFftSize).mag) (c.scales p.classificationFftSize).mag
  let unity := countUnity hop unity
  (Guide.updateGuidance p.guide (frameFor p o hop k unity seen c) c.guidance).map fun g => ({ c with rest := rest, guidance := g }, unity)

/-- R3Stretcher.cpp:1032-1034: all channels, from channel `k` on. -/
noncomputable def analyseAll (p : Params) (o : Open κ) (hop : Hop) : (k unity : Nat) → List (List ℝ) → List (ChannelData κ) → Option (List (ChannelData κ) × Nat)
  | k, unity, source :: sources, c :: cs => do
    let (c, unity) ← analyse p o hop k source unity c
    let (cs, unity) ← analyseAll p o hop (k + 1) unity sources cs
    pure (c :: cs, unity)
  | _, unity, _, _ => some ([], unity)

/-! ### Phases -/

/-- R3Stretcher.cpp:1040-1048: what is passed for a channel. -/
def inputOf (n : Nat) (c : ChannelData κ) : PhaseAdvance.Input ℝ := ⟨(c.scales n).mag, (c.scales n).phase, (c.scales n).prevMag, c.guidance⟩

/-- The phases put out set. -/
def withPhases (n : Nat) (c : ChannelData κ) (phases : List ℝ) : ChannelData κ :=
  { c with scales := fun m => if m = n then { c.scales m with advanced := phases } else c.scales m }

/-- R3Stretcher.cpp:1038-1059: the phases of a scale in all channels. -/
noncomputable def advanceScale (p : Params) (hop : Hop) (n : Nat) (s : Spectral κ) : Option (Spectral κ) := do
  let (guided, phases) ← PhaseAdvance.advance Real.pi ⟨p.guide, n⟩ p.useMidSide hop.prevInhop hop.prevOuthop (s.guided n) (s.chans.map (inputOf n)) (s.chans.map fun c => (c.scales n).advanced)
  pure { s with
    guided := fun m => if m = n then guided else s.guided m
    chans := List.zipWith (withPhases n) s.chans phases }

/-- R3Stretcher.cpp:1038-1059: all scales. -/
noncomputable def advanceAll (p : Params) (hop : Hop) : List Nat → Spectral κ → Option (Spectral κ)
  | [], s => some s
  | n :: ns, s => (advanceScale p hop n s).bind (advanceAll p hop ns)

/-- R3Stretcher.cpp:1536-1541, 1550-1554: whether a bin is among those that are held back or let go. -/
def kickBin (p : Params) (g : Guidance) (k : Nat) : Prop :=
  Guide.binForFrequency g.preKick.f0 g.fft0.fftSize p.rate ≤ k ∧ (k : Int) ≤ Guide.binForFrequency g.preKick.f1 g.fft0.fftSize p.rate

/-- R3Stretcher.cpp:1541-1547: what has been added to the bins is held back. -/
noncomputable def hold (p : Params) (g : Guidance) (s : Scale) : Scale :=
  open Classical in
  { s with
    mag := s.mag.mapIdx fun k m => if kickBin p g k ∧ 0 < m - (s.prevMag[k]?).getD 0 then m - (m - (s.prevMag[k]?).getD 0) else m
    pendingKick := s.pendingKick.mapIdx fun k q => if kickBin p g k ∧ 0 < (s.mag[k]?).getD 0 - (s.prevMag[k]?).getD 0 then (s.mag[k]?).getD 0 - (s.prevMag[k]?).getD 0 else q }

/-- R3Stretcher.cpp:1554-1557: and let go. -/
noncomputable def release (p : Params) (g : Guidance) (s : Scale) : Scale :=
  open Classical in
  { s with
    mag := s.mag.mapIdx fun k m => if kickBin p g k then m + (s.pendingKick[k]?).getD 0 else m
    pendingKick := s.pendingKick.mapIdx fun k q => if kickBin p g k then 0 else q }

/-- R3Stretcher.cpp:1526-1559 `adjustPreKick`, in the scale of the first band.  That the bins are within the arrays is part of C67 (`C67_preKick`). -/
noncomputable def adjustPreKick (p : Params) (c : ChannelData κ) : ChannelData κ :=
  let adjust := if p.windowShort then id else if c.guidance.preKick.present then hold p c.guidance else if c.guidance.kick.present then release p c.guidance else id
  { c with scales := fun m => if m = c.guidance.fft0.fftSize then adjust (c.scales m) else c.scales m }

/-! ### Synthesis -/

/-- R3Stretcher.cpp:1583, 1591-1616: what is put in `real` and `imag` for a band. -/
noncomputable def filtered (p : Params) (outhop : Nat) (b : Guide.FftBand) (s : Scale) (k : Nat) : ℂ :=
  let r := Synth.binsOf p.rate ((b.fftSize / 2 + 1 : Nat) : Int) b
  if r.1 ≤ k ∧ (k : Int) < r.2 then
    ((((s.mag[k]?).getD 0 * (outhop / windowScale p b.fftSize) : ℝ)) : ℂ) * Complex.exp ((((s.advanced[k]?).getD 0 : ℝ) : ℂ) * Complex.I)
  else 0

/-- R3Stretcher.cpp:1618-1637: transformed back, windowed and added to the accumulator. -/
noncomputable def accumulate (p : Params) (outhop : Nat) (b : Guide.FftBand) (s : Scale) (i : Nat) : ℝ :=
  let n := b.fftSize
  let m := synthesisSize p n
  let time := swapHalves n (FFT.resum n (filtered p outhop b s))
  s.acc i + if (p.longestFftSize - m) / 2 ≤ i ∧ i < (p.longestFftSize - m) / 2 + m then
      time ((n - m) / 2 + (i - (p.longestFftSize - m) / 2)) * synthesisWindow p n (i - (p.longestFftSize - m) / 2)
    else 0

/-- R3Stretcher.cpp:1570-1638: a band.  The scaling of the magnitudes is left out of the state, as they are not read before they are set again. -/
noncomputable def synthesiseBand (p : Params) (outhop : Nat) (b : Guide.FftBand) (scales : Nat → Scale) : Nat → Scale :=
  fun n => if n = b.fftSize then { scales n with prevMag := (scales n).mag, acc := accumulate p outhop b (scales n) } else scales n

/-- R3Stretcher.cpp:1570-1638: all bands. -/
noncomputable def synthesiseBands (p : Params) (outhop : Nat) : List Guide.FftBand → (Nat → Scale) → Nat → Scale
  | [], scales => scales
  | b :: bs, scales => synthesiseBands p outhop bs (synthesiseBand p outhop b scales)

/-- R3Stretcher.cpp:1653-1655: the accumulator moved along. -/
def moveOn (p : Params) (outhop : Nat) (acc : Nat → ℝ) (i : Nat) : ℝ := if i + outhop < p.longestFftSize then acc (i + outhop) else 0

/-- R3Stretcher.cpp:1561-1668 `synthesiseChannel`: the channel and its mixdown. -/
noncomputable def synthesise (p : Params) (outhop : Nat) (c : ChannelData κ) : ChannelData κ × (Nat → ℝ) :=
  let scales := synthesiseBands p outhop c.guidance.fftBands c.scales
  ({ c with scales := fun n => if n ∈ p.scales then { scales n with acc := moveOn p outhop (scales n).acc } else scales n },
    fun i => (p.scales.map fun n => (scales n).acc i).sum)

/-! ### A round -/

/-- R3Stretcher.cpp:1031-1078: a round of `consume`, and the mixdown of each channel. -/
noncomputable def spectralRound (p : Params) (o : Open κ) (s : Spectral κ) (hop : Hop) (sources : List (List ℝ)) : Option (Spectral κ × List (Nat → ℝ)) := do
  let (chans, unity) ← analyseAll p o hop 0 s.unity sources s.chans
  let s ← advanceAll p hop p.scales { s with chans := chans, unity := unity }
  let done := (s.chans.map (adjustPreKick p)).map (synthesise p hop.outhop)
  pure ({ s with chans := done.map Prod.fst }, done.map Prod.snd)

/-- R3Stretcher.h:173-185: a scale at first. -/
def Scale.create (n : Nat) : Scale :=
  ⟨List.replicate (n / 2 + 1) 0, List.replicate (n / 2 + 1) 0, List.replicate (n / 2 + 1) 0, List.replicate (n / 2 + 1) 0, List.replicate (n / 2 + 1) 0, fun _ => 0⟩

/-- R3Stretcher.h:187-192 `ChannelScaleData::reset`. -/
def Scale.reset (s : Scale) : Scale := { s with prevMag := s.prevMag.map fun _ => 0, pendingKick := s.pendingKick.map fun _ => 0, acc := fun _ => 0 }

/-- R3Stretcher.h:228-249 and R3Stretcher.cpp:102-121: a channel at first. -/
def ChannelData.create (p : Params) (o : Open κ) : ChannelData κ :=
  ⟨Scale.create, List.replicate (p.classificationFftSize / 2 + 1) 0, List.replicate (p.classificationFftSize / 2 + 1) 0, false, {}, o.init⟩

/-- R3Stretcher.h:250-267 `ChannelData::reset`; the guidance stays. -/
def ChannelData.reset (o : Open κ) (c : ChannelData κ) : ChannelData κ :=
  { c with scales := fun n => (c.scales n).reset, haveReadahead := false, rest := o.reset c.rest }

/-- R3Stretcher.cpp:99-132: the whole at first. -/
noncomputable def Spectral.create (p : Params) (o : Open κ) : Spectral κ :=
  ⟨List.replicate p.channels (ChannelData.create p o), fun n => List.replicate p.channels (PhaseAdvance.create ⟨p.guide, n⟩), 0⟩

/-- R3Stretcher.cpp:557, 574-580: the whole reset. -/
noncomputable def Spectral.reset (p : Params) (o : Open κ) (s : Spectral κ) : Spectral κ :=
  ⟨s.chans.map (ChannelData.reset o), fun n => (s.guided n).map (PhaseAdvance.reset ⟨p.guide, n⟩), 0⟩

/-- The engine with this spectral part; the resampler is that of `base`.  Once an array has been left, the state is `none` and what comes out has no meaning. -/
noncomputable def spectralEnv {τ ρ : Type} (p : Params) (o : Open κ) (base : Env ℝ τ ρ) : Env ℝ (Option (Spectral κ)) ρ where
  dspInit := some (Spectral.create p o)
  dspReset := Option.map (Spectral.reset p o)
  dsp := fun s hop sources =>
    match s.bind fun s => spectralRound p o s hop sources with
    | some (s, mix) => (some s, fun c i => ((mix[c]?).getD fun _ => 0) i)
    | none => (none, fun _ _ => 0)
  rsInit := base.rsInit
  rsReset := base.rsReset
  resample := base.resample
  effective := base.effective
  curve := base.curve
  halve := fun x => x / 2

end Verif.R3
