import Verif.R3SpectralSafe
import Verif.FFTShift
import Verif.SynthProps
import Verif.PhaseUnity
/-! # A round of the finer engine at unity, offline or with one window -/
namespace Verif.R3
open Verif.Guide (Guidance Reachable)

variable {κ : Type}

/-! ### Guidance -/

/-- The guidance at unity, offline or with one window. -/
structure GuidedPlainly (p : Guide.Params) (g : Guidance) : Prop where
  noKick : p.single = false → g.kick.present = false
  noPreKick : p.single = false → g.preKick.present = false
  bands : g.fftBands = if p.single then [⟨p.classify, 0, p.nyquist⟩] else [⟨p.longest, 0, 0⟩, ⟨p.classify, 0, p.nyquist⟩, ⟨p.shortest, p.nyquist, p.nyquist⟩]

theorem update_plain {p : Guide.Params} {f : Guide.Frame} (hu : 0 < f.unityCount) (hr : f.realTime = false ∨ p.single = true) {g g' : Guidance} (h : Guide.updateGuidance p f g = some g') : GuidedPlainly p g' := by
  have e : ∃ r, g' = { Guide.updateForSilence p (if p.single then Guide.singleBands p f.ratio f.outhop (Guide.cleared g) else Guide.multiSizes p (Guide.cleared g)) with phaseReset := r } := by
    unfold Guide.updateGuidance at h
    simp only at h
    split at h
    · exact ⟨_, (Option.some.inj h).symm⟩
    · rw [← Option.some.inj h]
      unfold Guide.updateForUnity
      split
      · exact ⟨_, rfl⟩
      · rename_i hx
        have hs : p.single = true := by
          rcases hr with hr | hr
          · rw [hr] at hx; simp at hx
          · exact hr
        simp only [hs, if_true]
        unfold Guide.updateForSilence
        rw [if_pos hs]
        exact ⟨_, rfl⟩
  obtain ⟨r, rfl⟩ := e
  cases hs : p.single
  · refine ⟨?_, ?_, ?_⟩ <;> simp [Guide.updateForSilence, hs, Guide.withBands, Guide.multiSizes, Guide.cleared, Guide.Guidance.fftBands]
  · refine ⟨?_, ?_, ?_⟩ <;> simp [Guide.updateForSilence, hs, Guide.singleBands, Guide.cleared, Guide.Guidance.fftBands]

/-! ### Sizes and ranges -/

theorem classify_facts (p : Params) : p.classificationFftSize % 8 = 0 ∧ 1024 ≤ p.classificationFftSize := by
  obtain ⟨k, h1, h2⟩ := Guide.classify_pow (guide_supported p)
  rw [guide_classify] at h2
  obtain ⟨m, rfl⟩ : ∃ m, k = 10 + m := ⟨k - 10, by omega⟩
  have h3 : 1 ≤ 2 ^ m := Nat.one_le_two_pow
  rw [h2, pow_add]
  omega

theorem guide_rate_pos (p : Params) : 0 < p.guide.rate := by
  have := (guide_supported p).1
  linarith

theorem single_guide (p : Params) : p.guide.single = p.windowShort := rfl

theorem longest_classify (p : Params) (h : p.windowShort = false) : p.longestFftSize = 2 * p.classificationFftSize ∧ p.shortestFftSize = p.classificationFftSize / 2 := by
  unfold Params.longestFftSize Params.shortestFftSize
  simp only [h, Bool.false_eq_true, if_false]
  exact ⟨Nat.mul_comm _ _, trivial⟩

theorem classify_le_longest (p : Params) : p.classificationFftSize ≤ p.longestFftSize := by
  unfold Params.longestFftSize
  split <;> omega

theorem limits_zero (n : Nat) (rate f : Rat) : (Guide.limits n rate 0 f).b0min = 0 := by
  simp only [Guide.limits, zero_mul, zero_div]; rfl

/-- All bins of the classification scale are converted. -/
theorem polarRange_classify (p : Params) : polarRange p p.classificationFftSize = (0, p.classificationFftSize / 2 + 1) := by
  obtain ⟨h1, h2⟩ := classify_facts p
  have hr := guide_rate_pos p
  have hf : (Guide.bandLimits p.guide).find? (fun l => l.fftSize == p.classificationFftSize) = some (Guide.limits p.guide.classify p.guide.rate 0 p.guide.nyquist) := by
    unfold Guide.bandLimits
    cases hs : p.guide.single
    · have := (longest_classify p hs).1
      simp only [Bool.false_eq_true, if_false]
      rw [List.find?_cons_of_neg, List.find?_cons_of_pos]
      · simp [Guide.limits, guide_classify]
      · simp only [Guide.limits, guide_longest, beq_iff_eq]
        omega
    · simp only [if_true]
      rw [List.find?_cons_of_pos]
      simp [Guide.limits, guide_classify]
  unfold polarRange
  rw [hf]
  simp only
  rw [limits_zero, show p.guide.nyquist = p.guide.rate / 2 from rfl, Synth.limits_full (by rw [guide_classify]; omega) hr, guide_classify]
  simp only [Int.toNat_zero, sub_zero]
  congr 1

theorem bin_nyquist {n : Nat} (hn : n % 2 = 0) {rate : Rat} (hr : 0 < rate) : Guide.binForFrequency (rate / 2) n rate = ((n / 2 : Nat) : Int) := by
  unfold Guide.binForFrequency
  have h : rate / 2 * n / rate = ((n / 2 : Nat) : Rat) := by
    have : (n : Rat) = 2 * ((n / 2 : Nat) : Rat) := by
      have : n = 2 * (n / 2) := by omega
      exact_mod_cast this
    rw [this]
    field_simp
  rw [h]
  have := Synth.round_half (2 * (n / 2))
  rw [show ((2 * (n / 2) : Nat) : Rat) / 2 = ((n / 2 : Nat) : Rat) by push_cast; ring] at this
  rw [this]
  congr 1
  omega

theorem bin_zero (n : Nat) (rate : Rat) : Guide.binForFrequency 0 n rate = 0 := by
  unfold Guide.binForFrequency
  rw [zero_mul, zero_div]
  have := Synth.round_half 0
  simpa using this

theorem within_self {n b : Int} (h : b < n) : Synth.within n b = b := by unfold Synth.within; rw [if_neg (by omega)]

/-- What is put out of the classification scale. -/
theorem bins_classify {n : Nat} (hn : n % 8 = 0) (h0 : 0 < n) {rate : Rat} (hr : 0 < rate) : Synth.binsOf rate ((n / 2 + 1 : Nat) : Int) ⟨n, 0, rate / 2⟩ = (0, ((n / 2 - 1 : Nat) : Int)) := by
  unfold Synth.binsOf
  simp only
  rw [bin_zero, bin_nyquist (by omega) hr]
  have o : Synth.odd ((n / 2 : Nat) : Int) = ((n / 2 - 1 : Nat) : Int) := by unfold Synth.odd; rw [if_pos (by omega)]; omega
  rw [o, within_self (by omega), within_self (by omega), if_neg (by omega)]

/-- Nothing is put out of the longest one. -/
theorem bins_low (n : Nat) (rate : Rat) : Synth.binsOf rate ((n / 2 + 1 : Nat) : Int) ⟨n, 0, 0⟩ = (0, 0) := by
  unfold Synth.binsOf
  simp only
  rw [bin_zero]
  have o : Synth.odd 0 = 0 := rfl
  rw [o, within_self (by omega), if_neg (by omega)]

/-- Nor of the shortest one. -/
theorem bins_high {n : Nat} (hn : n % 2 = 0) {rate : Rat} (hr : 0 < rate) : (Synth.binsOf rate ((n / 2 + 1 : Nat) : Int) ⟨n, rate / 2, rate / 2⟩).2 = (Synth.binsOf rate ((n / 2 + 1 : Nat) : Int) ⟨n, rate / 2, rate / 2⟩).1 := by
  unfold Synth.binsOf
  simp only
  rw [bin_nyquist hn hr]
  have o := Synth.odd_le ((n / 2 : Nat) : Int)
  rw [within_self (by omega), within_self (by omega)]
  split <;> omega

/-! ### Synthesis -/

/-- What a frame adds to the accumulator: the frame without what its top two bins stand for, scaled and windowed. -/
noncomputable def contribution (p : Params) (h : Nat) (x : Nat → ℝ) (i : Nat) : ℝ :=
  let n := p.classificationFftSize
  let m := synthesisSize p n
  let j := i - (p.longestFftSize - m) / 2
  if (p.longestFftSize - m) / 2 ≤ i ∧ i < (p.longestFftSize - m) / 2 + m then
    h / windowScale p n * (x ((n - m) / 2 + j) - top n x ((n - m) / 2 + j)) * synthesisWindow p n j
  else 0

theorem accumulate_empty {p : Params} {h : Nat} {b : Guide.FftBand} (he : ∀ k : Nat, ¬ ((Synth.binsOf p.rate ((b.fftSize / 2 + 1 : Nat) : Int) b).1 ≤ k ∧ (k : Int) < (Synth.binsOf p.rate ((b.fftSize / 2 + 1 : Nat) : Int) b).2)) (s : Scale) (i : Nat) :
    accumulate p h b s i = s.acc i := by
  have hf : filtered p h b s = fun _ => 0 := by
    funext k
    unfold filtered
    simp only
    rw [if_neg (he k)]
  have hz : ∀ j, swapHalves b.fftSize (FFT.resum b.fftSize (filtered p h b s)) j = 0 := by
    intro j
    unfold swapHalves
    rw [hf, resum_zero, resum_zero, ite_self]
  unfold accumulate
  simp only
  rw [hz, zero_mul, ite_self, add_zero]

theorem synthesisSize_le (p : Params) (n : Nat) : synthesisSize p n ≤ n := by
  unfold synthesisSize
  split
  · exact le_refl _
  · split <;> omega

theorem accumulate_classify {p : Params} {h : Nat} {s : Scale} {x : Nat → ℝ}
    (hm : ∀ k, k + 1 < p.classificationFftSize / 2 → s.mag[k]? = some (‖transformed p.classificationFftSize x k‖ * (1 / p.classificationFftSize)))
    (ha : ∀ k, k + 1 < p.classificationFftSize / 2 → s.advanced[k]? = some (transformed p.classificationFftSize x k).arg) (i : Nat) :
    accumulate p h ⟨p.classificationFftSize, 0, p.guide.nyquist⟩ s i = s.acc i + contribution p h x i := by
  obtain ⟨h1, h2⟩ := classify_facts p
  set n := p.classificationFftSize with hn
  have hb := bins_classify h1 (by omega) (guide_rate_pos p)
  have hle := synthesisSize_le p n
  unfold accumulate contribution
  simp only [← hn]
  congr 1
  by_cases hc : (p.longestFftSize - synthesisSize p n) / 2 ≤ i ∧ i < (p.longestFftSize - synthesisSize p n) / 2 + synthesisSize p n
  · rw [if_pos hc, if_pos hc]
    congr 1
    refine resum_polar (by omega) x _ (fun k _ => ?_) (by omega)
    unfold filtered
    simp only
    rw [show p.rate = p.guide.rate from rfl, show p.guide.nyquist = p.guide.rate / 2 from rfl, hb]
    by_cases hk : k + 1 < n / 2
    · rw [if_pos ⟨by omega, by simp only; omega⟩, if_pos hk, hm k hk, ha k hk]
      rfl
    · rw [if_neg (by simp only; omega), if_neg hk]
  · rw [if_neg hc, if_neg hc]

/-- All bands, at unity. -/
theorem bands_unity {p : Params} {h : Nat} {g : Guidance} (hg : GuidedPlainly p.guide g) {scales : Nat → Scale} {x : Nat → ℝ}
    (hm : ∀ k, k + 1 < p.classificationFftSize / 2 → (scales p.classificationFftSize).mag[k]? = some (‖transformed p.classificationFftSize x k‖ * (1 / p.classificationFftSize)))
    (ha : ∀ k, k + 1 < p.classificationFftSize / 2 → (scales p.classificationFftSize).advanced[k]? = some (transformed p.classificationFftSize x k).arg) (n i : Nat) :
    (synthesiseBands p h g.fftBands scales n).acc i = (scales n).acc i + if n = p.classificationFftSize then contribution p h x i else 0 := by
  obtain ⟨h1, h2⟩ := classify_facts p
  rw [hg.bands]
  cases hs : p.guide.single
  · have e1 := longest_classify p hs
    simp only [Bool.false_eq_true, if_false]
    rw [guide_classify, guide_longest, guide_shortest]
    simp only [synthesiseBands]
    have f1 : ∀ (s : Scale) (i : Nat), accumulate p h ⟨p.longestFftSize, 0, 0⟩ s i = s.acc i := by
      intro s i
      refine accumulate_empty (fun k => ?_) s i
      simp only [bins_low]
      omega
    have f3 : ∀ (s : Scale) (i : Nat), accumulate p h ⟨p.shortestFftSize, p.guide.nyquist, p.guide.nyquist⟩ s i = s.acc i := by
      intro s i
      refine accumulate_empty (fun k => ?_) s i
      simp only
      rw [show p.rate = p.guide.rate from rfl, show p.guide.nyquist = p.guide.rate / 2 from rfl, bins_high (by omega) (guide_rate_pos p)]
      omega
    by_cases n1 : n = p.longestFftSize
    · have a : n ≠ p.classificationFftSize := by omega
      have b : n ≠ p.shortestFftSize := by omega
      simp only [synthesiseBand, n1, if_true]
      rw [if_neg (by omega), if_neg (by omega)]
      simp only
      rw [f1, if_neg (by omega), add_zero]
    by_cases n3 : n = p.shortestFftSize
    · have a : n ≠ p.classificationFftSize := by omega
      simp only [synthesiseBand, n3, if_true]
      rw [if_neg (by omega), if_neg (by omega)]
      rw [f3, if_neg (by omega), add_zero]
    by_cases n2 : n = p.classificationFftSize
    · simp only [synthesiseBand, n2, if_true]
      rw [if_neg (by omega), if_neg (by omega)]
      exact accumulate_classify hm ha i
    · simp only [synthesiseBand]
      rw [if_neg n3, if_neg n2, if_neg n1, if_neg n2, add_zero]
  · simp only [if_true]
    rw [guide_classify]
    simp only [synthesiseBands, synthesiseBand]
    by_cases n2 : n = p.classificationFftSize
    · simp only [n2, if_true]
      exact accumulate_classify hm ha i
    · rw [if_neg n2, if_neg n2, add_zero]

end Verif.R3
