import Verif.R2Map
import Verif.R2Spectral
import Verif.FFTReal
/-!
# What becomes of the output of the faster engine if the input is louder, or silent

The spectral part is as in `R2Spectral`, but the configuration may be another for each chunk.  (The engine does not tell the spectral part about ratios; so any sequence of configurations is admitted, among them
the one that the calls lead to.)
-/
namespace Verif.R2

variable {ρ κ : Type}

/-- The environment with the transform for each size, and the configuration for each chunk of a channel since it was made, in order. -/
noncomputable def liveEnv (f : Nat → Spectra) (conf : Nat → R2Modify.Conf) (base : Env ℝ (Spec × Nat) ρ κ) : Env ℝ (Spec × Nat) ρ κ :=
  { base with
    specInit := (⟨fun _ => 0, R2Modify.create, fun _ => 0, fun i => if i = 0 then 1 else 0⟩, 0)
    specReset := fun s => (s.1.reset, s.2)
    specSizes := fun s _ _ => (s.1.setSizes, s.2)
    analyse := fun s frame => ((((s.1.analyse (f frame.length) frame).1), s.2), (s.1.analyse (f frame.length) frame).2)
    synthesise := fun s flt phaseIncrement _ reset =>
      (((s.1.synthesise (f (conf s.2).fftSize) (conf s.2) flt phaseIncrement reset).1, s.2 + 1), (s.1.synthesise (f (conf s.2).fftSize) (conf s.2) flt phaseIncrement reset).2)
    emit := fun s i => s.1.acc i / s.1.wacc i
    shift := fun s fill d => ({ s.1 with acc := moved fill d s.1.acc, wacc := moved fill d s.1.wacc }, s.2)
    halve := fun x => x / 2 }

/-! ## The transform -/

/-- What `forwardPolar` and `inversePolar` of size `n` compute, see C79: absolute values and arguments of the Fourier transform, and the sum of the waves with these. -/
noncomputable def fourier (formants : Nat → (Nat → ℝ) → Nat → ℝ) (n : Nat) : Spectra where
  forward := fun x => (fun i => ‖FFT.spectrum n x i‖, fun i => (FFT.spectrum n x i).arg)
  inverse := fun m φ => FFT.resum n fun i => m i * Complex.exp (φ i * Complex.I)
  formants := formants n

theorem spectrum_louder (k : ℝ) (n : Nat) (x : Nat → ℝ) (i : Nat) : FFT.spectrum n (fun j => k * x j) i = k * FFT.spectrum n x i := by
  simp only [FFT.spectrum, Finset.mul_sum]
  refine Finset.sum_congr rfl fun j _ => ?_
  push_cast
  ring

theorem mirrored_louder (k : ℝ) (n : Nat) (X : Nat → ℂ) (i : Nat) : FFT.mirrored n (fun j => k * X j) i = k * FFT.mirrored n X i := by
  simp only [FFT.mirrored]
  split
  · rfl
  · rw [map_mul, Complex.conj_ofReal]

theorem resum_louder (k : ℝ) (n : Nat) (X : Nat → ℂ) (j : Nat) : FFT.resum n (fun i => k * X i) j = k * FFT.resum n X j := by
  simp only [FFT.resum, mirrored_louder]
  rw [← Complex.re_ofReal_mul, Finset.mul_sum]
  congr 1
  exact Finset.sum_congr rfl fun i _ => by ring

/-- Louder audio has larger magnitudes and the same phases, and conversely. -/
structure Graded (k : ℝ) (f : Spectra) : Prop where
  forward : ∀ x, f.forward (fun i => k * x i) = (fun i => k * (f.forward x).1 i, (f.forward x).2)
  inverse : ∀ m φ, f.inverse (fun i => k * m i) φ = fun i => k * f.inverse m φ i

theorem fourier_graded {k : ℝ} (hk : 0 < k) (formants : Nat → (Nat → ℝ) → Nat → ℝ) (n : Nat) : Graded k (fourier formants n) where
  forward x := by
    simp only [fourier, spectrum_louder, Prod.mk.injEq]
    constructor
    · funext i
      rw [norm_mul, Complex.norm_real, Real.norm_eq_abs, abs_of_pos hk]
    · funext i
      exact Complex.arg_real_mul _ hk
  inverse m φ := by
    funext j
    simp only [fourier, ← resum_louder]
    congr 1
    funext i
    push_cast
    ring

/-! ## Louder -/

/-- The spectral state with louder audio. -/
noncomputable def Spec.louder (k : ℝ) (s : Spec) : Spec := { s with mag := fun i => k * s.mag i, acc := fun i => k * s.acc i }

/-- The resampler and the mean of the channels follow the level of the audio; `rs` and `cur` are the states that the resampler and the detection functions have with audio `k` times as loud. -/
structure Follows (k : ℝ) (base : Env ℝ (Spec × Nat) ρ κ) where
  rs : ρ → ρ
  cur : κ → κ
  rsInit : rs base.rsInit = base.rsInit
  rsReset : ∀ r, rs (base.rsReset r) = base.rsReset (rs r)
  resample : ∀ r room l ratio final, base.resample (rs r) room (l.map (k * ·)) ratio final = (rs (base.resample r room l ratio final).1, (base.resample r room l ratio final).2.map (k * ·))
  effective : ∀ r x, base.effective (rs r) x = base.effective r x
  curveInit : ∀ n, cur (base.curveInit n) = base.curveInit n
  curveReset : ∀ c, cur (base.curveReset c) = base.curveReset (cur c)
  curveSizes : ∀ c n, cur (base.curveSizes c n) = base.curveSizes (cur c) n
  mixdown : ∀ n (g : Frame ℝ), base.mixdown n (fun c => k * g c) = k * base.mixdown n g

theorem cut_louder (k : ℝ) (n : Nat) (x : Nat → ℝ) : cut n (fun i => k * x i) = fun i => k * cut n x i := by
  funext i
  simp only [cut]
  split
  · ring
  · rfl

theorem swapped_louder (k : ℝ) (n : Nat) (x : Nat → ℝ) : swapped n (fun i => k * x i) = fun i => k * swapped n x i := by
  funext i
  simp only [swapped]
  split <;> rfl

theorem moved_louder (k : ℝ) (fill d : Nat) (x : Nat → ℝ) : moved fill d (fun i => k * x i) = fun i => k * moved fill d x i := by
  funext i
  simp only [moved]
  split
  · rfl
  · split
    · rw [mul_zero]
    · rfl

theorem analyse_louder {k : ℝ} {f : Spectra} (hf : Graded k f) (s : Spec) (l : List ℝ) :
    (s.louder k).analyse f (l.map (k * ·)) = ((s.analyse f l).1.louder k, fun i => k * (s.analyse f l).2 i) := by
  have e : (fun i => (l.map (k * ·)).getD i 0) = fun i => k * l.getD i 0 := by
    funext i
    simp only [List.getD_eq_getElem?_getD, List.getElem?_map]
    cases l[i]? with
    | none => simp
    | some x => rfl
  simp only [Spec.analyse, List.length_map, e, cut_louder, swapped_louder, hf.forward]
  rfl

theorem resynthesised_louder {k : ℝ} {f : Spectra} (hf : Graded k f) {q : R2Modify.Conf} (hq : q.formant = false) (s : Spec) (flt : Nat → ℝ) :
    resynthesised f q (s.louder k) (fun i => k * flt i) = fun i => k * resynthesised f q s flt i := by
  unfold resynthesised
  simp only [hq, Bool.false_eq_true, if_false]
  rw [show (s.louder k).mod = s.mod from rfl]
  split
  · rfl
  · rw [← swapped_louder, ← hf.inverse]
    congr 2
    funext i
    simp only [Spec.louder]
    ring

theorem add_louder (k : ℝ) (n : Nat) (s : Spec) (flt : Nat → ℝ) : (s.louder k).add n (fun i => k * flt i) = (s.add n flt).louder k := by
  simp only [Spec.add, Spec.louder]
  congr 1
  funext i
  split
  · ring
  · rfl

theorem synthesise_louder {k : ℝ} {f : Spectra} (hf : Graded k f) {q : R2Modify.Conf} (hq : q.formant = false) (s : Spec) (flt : Nat → ℝ) (i : Nat) (r : Bool) :
    (s.louder k).synthesise f q (fun i => k * flt i) i r = ((s.synthesise f q flt i r).1.louder k, fun j => k * (s.synthesise f q flt i r).2 j) := by
  unfold Spec.synthesise
  simp only
  have e : ({ s.louder k with mod := R2Modify.chunk Real.pi (s.louder k).mod ⟨q, i, r, (s.louder k).mod.phase⟩ } : Spec) =
    ({ s with mod := R2Modify.chunk Real.pi s.mod ⟨q, i, r, s.mod.phase⟩ } : Spec).louder k := rfl
  rw [e]
  generalize ({ s with mod := R2Modify.chunk Real.pi s.mod ⟨q, i, r, s.mod.phase⟩ } : Spec) = s
  rw [resynthesised_louder hf hq, cut_louder, add_louder]

/-- Louder audio. -/
noncomputable def louder {k : ℝ} {f : Nat → Spectra} (hf : ∀ n, Graded k (f n)) {conf : Nat → R2Modify.Conf} (hq : ∀ n, (conf n).formant = false) {base : Env ℝ (Spec × Nat) ρ κ} (hb : Follows k base) :
    Hom (liveEnv f conf base) (liveEnv f conf base) where
  val := (k * ·)
  spec := fun s => (s.1.louder k, s.2)
  rs := hb.rs
  cur := hb.cur
  zero := mul_zero k
  add := mul_add k
  sub := mul_sub k
  specInit := by simp only [liveEnv, Spec.louder, mul_zero]
  specReset := fun s => by simp only [liveEnv, Spec.louder, Spec.reset, mul_zero]
  specSizes := fun s w n => by simp only [liveEnv, Spec.louder, Spec.setSizes, mul_zero]
  analyse := fun s l => by simp only [liveEnv, List.length_map, analyse_louder (hf _)]
  synthesise := fun s flt i j r => by simp only [liveEnv, synthesise_louder (hf _) (hq _)]
  emit := fun s i => by simp only [liveEnv, Spec.louder, mul_div_assoc]
  shift := fun s n d => by simp only [liveEnv, Spec.louder, moved_louder]
  rsInit := hb.rsInit
  rsReset := hb.rsReset
  resample := hb.resample
  effective := hb.effective
  curveInit := hb.curveInit
  curveReset := hb.curveReset
  curveSizes := hb.curveSizes
  halve := fun x => mul_div_assoc ..
  mixdown := hb.mixdown

end Verif.R2
