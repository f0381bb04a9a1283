import Verif.PhaseUnity
import Verif.PeakProps
/-!
# The phase advance stays within its arrays: C65
-/
namespace Verif.Guide
open Verif.Round

/-! ## What is always so of the guidance -/

/-- No frequency in use is below 0, whatever the rate. -/
structure Low (p : Params) (g : Guidance) : Prop where
  a : 0 ≤ g.fft0.f1
  b : 0 ≤ g.fft1.f1
  l0 : 0 ≤ g.lock0.f0
  l1 : 0 ≤ g.lock1.f0
  l2 : 0 ≤ g.lock2.f0
  l3 : 0 ≤ g.lock3.f0

/-- What an update leaves. -/
structure Set (p : Params) (g : Guidance) : Prop where
  count : g.lockBandCount ≤ 4
  sizes : (p.single = true ∧ g.fft0.fftSize = p.classify) ∨ (p.single = false ∧ g.fft0.fftSize = p.longest ∧ g.fft1.fftSize = p.classify ∧ g.fft2.fftSize = p.shortest)

theorem valley_low {p : Params} (hp : p.Supported) {f : Rat} (hf : 0 ≤ f) {l : List Rat} (hl : p.classify / 2 + 1 ≤ l.length) :
    ∃ r, descendToValley p f l = some r ∧ 0 ≤ r := by
  unfold descendToValley
  split
  · exact ⟨f, rfl, hf⟩
  · have h0 : (0 : Rat) < p.rate := by have := hp.1; linarith
    simp only
    have hb0 : 0 ≤ binForFrequency f p.classify p.rate := by
      unfold binForFrequency
      apply roundAway_nonneg
      positivity
    obtain ⟨r, hr, r0, r1⟩ := descend_some (l := l) (n := ((p.classify / 2 : Nat) : Int)) (by exact_mod_cast hl) 3
      (if binForFrequency f p.classify p.rate > ((p.classify / 2 : Nat) : Int) then ((p.classify / 2 : Nat) : Int)
        else binForFrequency f p.classify p.rate) (by split <;> omega) (by split <;> omega)
    rw [hr]
    refine ⟨_, rfl, ?_⟩
    have hr0 : (0 : Rat) ≤ r := by exact_mod_cast r0
    unfold frequencyForBin
    positivity

theorem update_low {p : Params} (hp : p.Supported) {f : Frame} (hw : Whole p f) {g : Guidance} (low : Low p g) : ∃ g', updateGuidance p f g = some g' ∧ Low p g' ∧ Set p g' := by
  have hn : 4000 ≤ p.nyquist := by unfold Params.nyquist; have := hp.1; linarith
  have hnn : (0 : Rat) ≤ p.nyquist := by linarith
  have unl : ∀ w : Guidance, Low p w → Set p w → Low p (unlock p f.ratio w) ∧ Set p (unlock p f.ratio w) := by
    intro w ow sw
    unfold unlock
    split
    · exact ⟨⟨ow.a, ow.b, ow.l0, ow.l1, ow.l2, ow.l3⟩, ⟨sw.count, sw.sizes⟩⟩
    · exact ⟨ow, sw⟩
  cases hm : p.single with
  | true =>
    have capn : ∀ x : Rat, 0 ≤ x → 0 ≤ cap p.nyquist x := by intro x hx; unfold cap; split <;> assumption
    have key : ∀ w : Guidance, w.fft0 = ⟨p.classify, 0, p.nyquist⟩ → 0 ≤ w.fft1.f1 → w.lock0.f0 = cap p.nyquist 0 → w.lock1.f0 = cap p.nyquist 1600 → w.lock2.f0 = cap p.nyquist 7000 → 0 ≤ w.lock3.f0 →
        w.lockBandCount = 3 → Low p w ∧ Set p w := by
      intro w w1 w2 w3 w4 w5 w6 w7
      refine ⟨⟨by rw [w1]; exact hnn, w2, ?_, ?_, ?_, w6⟩, ⟨by omega, Or.inl ⟨hm, by rw [w1]⟩⟩⟩
      · rw [w3]; exact capn _ (le_refl _)
      · rw [w4]; exact capn _ (by norm_num)
      · rw [w5]; exact capn _ (by norm_num)
    unfold updateGuidance
    simp only
    have hsing : (if p.single = true then singleBands p f.ratio f.outhop (cleared g) else multiSizes p (cleared g)) = singleBands p f.ratio f.outhop (cleared g) := by
      rw [hm]; rfl
    rw [hsing]
    have silent := key (updateForSilence p (singleBands p f.ratio f.outhop (cleared g)))
    have silent : Low p (updateForSilence p (singleBands p f.ratio f.outhop (cleared g))) ∧ Set p (updateForSilence p (singleBands p f.ratio f.outhop (cleared g))) := by
      unfold updateForSilence
      rw [hm, if_pos rfl]
      exact key _ rfl low.b rfl rfl rfl low.l3 rfl
    split
    · exact ⟨_, rfl, silent⟩
    split
    · refine ⟨_, rfl, ?_⟩
      unfold updateForUnity
      split
      · exact silent
      · exact key _ rfl low.b rfl rfl rfl low.l3 rfl
    · unfold updateNormal
      simp only
      rw [hm, if_pos rfl]
      refine ⟨_, rfl, ?_⟩
      have := key (setRanges f { (singleBands p f.ratio f.outhop (cleared g)) with channelLock := ⟨true, 0, if f.tighterChannelLock then p.nyquist else 600⟩ })
        rfl low.b rfl rfl rfl low.l3 rfl
      exact unl _ this.1 this.2
  | false =>
    unfold updateGuidance
    simp only
    have hsing : (if p.single = true then singleBands p f.ratio f.outhop (cleared g) else multiSizes p (cleared g)) = multiSizes p (cleared g) := by
      rw [hm]; rfl
    rw [hsing]
    have low1 : Low p (multiSizes p (cleared g)) := ⟨low.a, low.b, low.l0, low.l1, low.l2, low.l3⟩
    have e2 : (multiSizes p (cleared g)).lockBandCount = 4 := rfl
    have z0 : (multiSizes p (cleared g)).fft0.fftSize = p.longest := rfl
    have z1 : (multiSizes p (cleared g)).fft1.fftSize = p.classify := rfl
    have z2 : (multiSizes p (cleared g)).fft2.fftSize = p.shortest := rfl
    generalize multiSizes p (cleared g) = u at *
    have withB : ∀ (a b top : Rat) (r : Range), 0 ≤ a → 0 ≤ b → Low p { withBands a b top u with phaseReset := r } ∧ Set p { withBands a b top u with phaseReset := r } := by
      intro a b top r ha hb
      exact ⟨⟨ha, hb, low1.l0, low1.l1, low1.l2, low1.l3⟩, ⟨by show u.lockBandCount ≤ 4; omega, Or.inr ⟨hm, z0, z1, z2⟩⟩⟩
    have silent : Low p (updateForSilence p u) ∧ Set p (updateForSilence p u) := by
      unfold updateForSilence
      rw [hm, if_neg (by simp)]
      exact withB _ _ _ _ (le_refl _) hnn
    split
    · exact ⟨_, rfl, silent⟩
    split
    · refine ⟨_, rfl, ?_⟩
      unfold updateForUnity
      split
      · exact silent
      · rw [hm, if_neg (by simp)]
        exact withB _ _ _ _ (by unfold Params.minLower; rw [hm, if_neg (by simp)]; norm_num) (by unfold Params.minHigher; rw [hm, if_neg (by simp)]; norm_num)
    · unfold updateNormal
      simp only
      rw [hm, if_neg (by simp)]
      obtain ⟨kicks, hk⟩ := kickTest_some hp hw
      rw [hk]
      simp only [Option.bind_eq_bind, Option.bind_some]
      generalize hv : setRanges f (setKick f kicks { u with channelLock := ⟨true, 0, if f.tighterChannelLock = true then p.nyquist else 600⟩ }) = v
      have same : v.fft0 = u.fft0 ∧ v.fft1 = u.fft1 ∧ v.fft2 = u.fft2 ∧ v.lockBandCount = 4 := by
        rw [← hv]
        unfold setRanges setKick
        split
        · exact ⟨rfl, rfl, rfl, e2⟩
        · split <;> exact ⟨rfl, rfl, rfl, e2⟩
      obtain ⟨s1, s2, s3, s5⟩ := same
      obtain ⟨lo, hlo, _⟩ := valley_low hp (f := v.fft0.f1) (by rw [s1]; exact low1.a) hw.mags
      obtain ⟨hi, hhi, _⟩ := valley_low hp (f := v.fft1.f1) (by rw [s2]; exact low1.b) hw.mags
      rw [hlo, hhi]
      simp only [Option.bind_some, Option.pure_def, Option.map_some]
      refine ⟨_, rfl, ?_⟩
      have c : p.minLower = 500 ∧ p.maxLower = 1100 ∧ p.defaultLower = 700 ∧ p.minHigher = 4000 ∧ p.maxHigher = 7000 ∧ p.defaultHigher = 4800 := by
        unfold Params.minLower Params.maxLower Params.defaultLower Params.minHigher Params.maxHigher Params.defaultHigher
        rw [hm]
        exact ⟨rfl, rfl, rfl, rfl, rfl, rfl⟩
      obtain ⟨c1, c2, c3, c4, c5, c6⟩ := c
      rw [c1, c2, c3, c4, c5, c6]
      have bl := (bounded_in (x := lo) (lo := 500) (hi := 1100) (d := 700) (by norm_num) (by norm_num)).1
      have bh := (bounded_in (x := hi) (lo := 4000) (hi := 7000) (d := 4800) (by norm_num) (by norm_num)).1
      generalize bounded lo 500 1100 700 = x at *
      generalize bounded hi 4000 7000 4800 = y at *
      have x0 : (0 : Rat) ≤ x := by linarith
      have y0 : (0 : Rat) ≤ y := by linarith
      have m0 : (0 : Rat) ≤ max x 1600 := x0.trans (le_max_left _ _)
      apply unl
      · unfold multiBands
        simp only
        split
        · exact ⟨x0, hnn, le_refl _, x0, m0, y0⟩
        · exact ⟨x0, y0, le_refl _, x0, m0, y0⟩
      · unfold multiBands
        simp only
        split
        · exact ⟨by show v.lockBandCount ≤ 4; omega, Or.inr ⟨hm, by show v.fft0.fftSize = _; rw [s1, z0], by show v.fft1.fftSize = _; rw [s2, z1], by show v.fft2.fftSize = _; rw [s3, z2]⟩⟩
        · exact ⟨by show v.lockBandCount ≤ 4; omega, Or.inr ⟨hm, by show v.fft0.fftSize = _; rw [s1, z0], by show v.fft1.fftSize = _; rw [s2, z1], by show v.fft2.fftSize = _; rw [s3, z2]⟩⟩

/-- A guidance that some sequence of frames leads to. -/
def Reachable (p : Params) (g : Guidance) : Prop := ∃ fs, fs ≠ [] ∧ (∀ f ∈ fs, Whole p f) ∧ updates p fs {} = some g

theorem updates_low {p : Params} (hp : p.Supported) : ∀ (fs : List Frame) (g g' : Guidance), (∀ f ∈ fs, Whole p f) → fs ≠ [] → Low p g → updates p fs g = some g' → Low p g' ∧ Set p g' := by
  intro fs
  induction fs with
  | nil => intro g g' _ h; exact absurd rfl h
  | cons f fs ih =>
    intro g g' hw _ low h
    obtain ⟨g1, h1, l1, s1⟩ := update_low hp (hw f (by simp)) low
    unfold updates at h
    rw [h1, Option.bind_some] at h
    cases fs with
    | nil => cases h; exact ⟨l1, s1⟩
    | cons f' fs' => exact ih g1 g' (fun f hf => hw f (by simp [hf])) (by simp) l1 h

theorem reachable_low {p : Params} (hp : p.Supported) {g : Guidance} (h : Reachable p g) : Low p g ∧ Set p g := by
  obtain ⟨fs, h1, h2, h3⟩ := h
  exact updates_low hp fs {} g h2 h1 ⟨le_refl _, le_refl _, le_refl _, le_refl _, le_refl _, le_refl _⟩ h3

/-! ## The bins of each size -/

theorem classify_pow {p : Params} (hp : p.Supported) : ∃ k, 10 ≤ k ∧ p.classify = 2 ^ k := by
  obtain ⟨r, h1, ⟨k, h2⟩, _⟩ := MathMisc.C11_roundUpDiv p.rate 32 (by have := hp.1; linarith) (by norm_num) (by have := hp.2; norm_num; linarith)
  unfold Params.classify
  simp only [h1, Option.getD_some]
  split
  · exact ⟨10, le_refl _, by norm_num⟩
  · rename_i h
    refine ⟨k, ?_, h2⟩
    by_contra hk
    have : (2 : Nat) ^ k < 2 ^ 10 := Nat.pow_lt_pow_right (by norm_num) (by omega)
    omega

theorem classify_quarter {p : Params} (hp : p.Supported) : ∃ m, 256 ≤ m ∧ p.classify = 4 * m := by
  obtain ⟨k, h1, h2⟩ := classify_pow hp
  refine ⟨2 ^ (k - 2), ?_, ?_⟩
  · calc 256 = 2 ^ 8 := by norm_num
      _ ≤ 2 ^ (k - 2) := Nat.pow_le_pow_right (by norm_num) (by omega)
  · rw [h2]
    obtain ⟨j, rfl⟩ : ∃ j, k = j + 2 := ⟨k - 2, by omega⟩
    rw [Nat.add_sub_cancel, pow_add]
    ring

theorem limits_in {fftSize : Nat} {rate f0 f1 : Rat} (hr : 0 < rate) (he : fftSize % 2 = 0) (h0 : 0 ≤ f0) (h01 : f0 ≤ f1) (h1 : f1 ≤ rate / 2) :
    0 ≤ (limits fftSize rate f0 f1).b0min ∧ (limits fftSize rate f0 f1).b0min ≤ (limits fftSize rate f0 f1).b1max ∧ (limits fftSize rate f0 f1).b1max ≤ ((fftSize / 2 : Nat) : Int) := by
  have hn : (0 : Rat) ≤ fftSize := by positivity
  unfold limits
  simp only
  refine ⟨Rat.le_floor_iff.mpr (by push_cast; positivity), ?_, Rat.ceil_le_iff.mpr ?_⟩
  · have a : ((f0 * fftSize / rate).floor : Rat) ≤ f0 * fftSize / rate := Rat.floor_le _
    have b : f1 * fftSize / rate ≤ ((f1 * fftSize / rate).ceil : Rat) := Rat.le_ceil
    have c : f0 * fftSize / rate ≤ f1 * fftSize / rate := by
      apply div_le_div_of_nonneg_right _ hr.le
      exact mul_le_mul_of_nonneg_right h01 hn
    exact_mod_cast a.trans (c.trans b)
  · have : (fftSize : Rat) = 2 * ((fftSize / 2 : Nat) : Rat) := by
      have : fftSize = 2 * (fftSize / 2) := by omega
      exact_mod_cast this
    rw [div_le_iff₀ hr, Int.cast_natCast, this]
    have : (0 : Rat) ≤ ((fftSize / 2 : Nat) : Rat) := by positivity
    nlinarith

end Verif.Guide

namespace Verif.PhaseAdvance
open Verif.Guide

variable {K : Type} [Field K] [LinearOrder K] [IsStrictOrderedRing K] [FloorRing K]

/-- One of the sizes the engine uses. -/
def Params.Scale (p : Params) : Prop := p.fftSize = p.guide.classify ∨ p.guide.single = false ∧ (p.fftSize = p.guide.longest ∨ p.fftSize = p.guide.shortest)

theorem binRange_in {p : Params} (hp : p.guide.Supported) (hs : p.Scale) {g : Guidance} (hg : Guide.Set p.guide g) : ∃ lo n, binRange p g = some (lo, n) ∧ 1 ≤ n ∧ lo + n ≤ p.bins := by
  have hr : 0 < p.guide.rate := by have := hp.1; linarith
  obtain ⟨m, m1, m2⟩ := classify_quarter hp
  have key : ∀ (f0 f1 : Rat), (bandLimits p.guide).getD (bandOf p g) ⟨0, 0, 0⟩ = limits p.fftSize p.guide.rate f0 f1 → (bandOf p g < (bandLimits p.guide).length) →
      p.fftSize % 2 = 0 → 0 ≤ f0 → f0 ≤ f1 → f1 ≤ p.guide.rate / 2 → ∃ lo n, binRange p g = some (lo, n) ∧ 1 ≤ n ∧ lo + n ≤ p.bins := by
    intro f0 f1 e hlt he h0 h01 h1
    obtain ⟨a1, a2, a3⟩ := limits_in hr he h0 h01 h1
    have hget : (bandLimits p.guide)[bandOf p g]? = some (limits p.fftSize p.guide.rate f0 f1) := by
      rw [← e, List.getD_eq_getElem?_getD, List.getElem?_eq_getElem hlt]; rfl
    refine ⟨_, _, by unfold binRange; rw [hget, Option.bind_some, if_neg (by omega)], ?_, ?_⟩
    · omega
    · unfold Params.bins; omega
  have hny : p.guide.nyquist = p.guide.rate / 2 := rfl
  have h8 := hp.1
  rcases hg.sizes with ⟨h1, h2⟩ | ⟨h1, h2, h3, h4⟩
  · have hc : p.fftSize = p.guide.classify := by
      rcases hs with h | ⟨h, _⟩
      · exact h
      · rw [h1] at h; cases h
    have hb : bandOf p g = 0 := by unfold bandOf; rw [if_pos (by rw [h2, hc])]
    refine key 0 p.guide.nyquist ?_ ?_ (by omega) (le_refl _) (by rw [hny]; linarith) (le_of_eq hny)
    · rw [hb, hc]; unfold bandLimits; rw [if_pos h1]; rfl
    · rw [hb]; unfold bandLimits; rw [if_pos h1]; simp
  · have el : p.guide.longest = p.guide.classify * 2 := by unfold Guide.Params.longest; rw [h1]; rfl
    have es : p.guide.shortest = p.guide.classify / 2 := by unfold Guide.Params.shortest; rw [h1]; rfl
    have hbl : bandLimits p.guide = [limits p.guide.longest p.guide.rate 0 p.guide.maxLower, limits p.guide.classify p.guide.rate 0 p.guide.nyquist,
        limits p.guide.shortest p.guide.rate p.guide.minHigher p.guide.nyquist] := by unfold bandLimits; rw [h1]; rfl
    have c1 : p.guide.maxLower = 1100 := by unfold Guide.Params.maxLower; rw [h1]; rfl
    have c2 : p.guide.minHigher = 4000 := by unfold Guide.Params.minHigher; rw [h1]; rfl
    have hh : p.fftSize = p.guide.classify ∨ p.fftSize = p.guide.longest ∨ p.fftSize = p.guide.shortest := by
      rcases hs with h | ⟨_, h⟩
      · exact Or.inl h
      · exact Or.inr h
    rcases hh with h | h | h
    · have hb : bandOf p g = 1 := by
        unfold bandOf
        rw [if_neg (by rw [h2, h, el]; omega), if_pos (by rw [h3, h])]
      refine key 0 p.guide.nyquist ?_ ?_ (by omega) (le_refl _) (by rw [hny]; linarith) (le_of_eq hny)
      · rw [hb, h, hbl]; rfl
      · rw [hb, hbl]; simp
    · have hb : bandOf p g = 0 := by
        unfold bandOf
        rw [if_pos (by rw [h2, h])]
      refine key 0 p.guide.maxLower ?_ ?_ (by omega) (le_refl _) (by rw [c1]; norm_num) (by rw [c1]; linarith)
      · rw [hb, h, hbl]; rfl
      · rw [hb, hbl]; simp
    · have hb : bandOf p g = 2 := by
        unfold bandOf
        rw [if_neg (by rw [h2, h, el, es]; omega), if_neg (by rw [h3, h, es]; omega), if_pos (by rw [h4, h])]
      refine key p.guide.minHigher p.guide.nyquist ?_ ?_ (by omega) (by rw [c2]; norm_num) (by rw [c2, hny]; linarith) (le_of_eq hny)
      · rw [hb, h, hbl]; rfl
      · rw [hb, hbl]; simp

/-! ## Nearest peaks -/

omit [Field K] [IsStrictOrderedRing K] [FloorRing K] in
theorem nearest_only (m_n : Nat) (v : List K) (s c p : Nat) (hc : c ≤ m_n) (h1c : 1 ≤ c) (hv : s + c ≤ v.length) (near0 : List Int) (h1 : s + c ≤ near0.length) :
    ∃ near, Peak.findNearestAndNextPeaks (fun a b => decide (a > b)) m_n v s c p (some near0) none = some (some near, none) ∧ near.length = near0.length ∧
      (∀ k, k < s ∨ s + c ≤ k → near[k]? = near0[k]?) ∧
      ∀ i, s ≤ i → i < s + c → ∃ q : Nat, near[i]? = some (q : Int) ∧ s ≤ q ∧ q < s + c ∧ Peak.IsNearest (Peak.IsPeak (fun a b => decide (a > b)) v s (s + c) p) i q := by
  obtain ⟨P, p1, p2, p3⟩ := Peak.findLoop_spec (fun a b => decide (a > b)) v (s := s) (n := s + c) (p := p) (room := m_n) hv
    (by omega) c s [] (Nat.le_refl s) rfl (by simp) List.Pairwise.nil (by
      intro q
      simp only [List.not_mem_nil, false_iff, not_and]
      intro hq
      have := hq.1
      omega)
  obtain ⟨near, next, m1, m2, m3⟩ := Peak.mapLoop_spec p2 (s := s) (n := s + c)
    (near0 := some near0) (next0 := none) (by rintro o ⟨⟩; exact h1) (by rintro o ⟨⟩)
    c s 0 ((s : Int) - 1) (some near0) none rfl (Nat.le_refl s)
    ⟨Nat.zero_le _, fun t h ht => by omega, fun t h _ => by
      have := ((p3 P[t]).mp (List.getElem_mem h)).1
      exact this, fun h => by omega⟩
    (fun _ => by omega)
    ⟨rfl, fun _ _ => rfl, fun k h1 h2 => by omega⟩ trivial
  cases near with
  | none => exact m2.elim
  | some near =>
  cases next with
  | some next => exact m3.elim
  | none =>
  obtain ⟨a1, a2, a3⟩ := m2
  refine ⟨near, ?_, a1, a2, ?_⟩
  · unfold Peak.findNearestAndNextPeaks
    simp only [p1, Option.bind_eq_bind, Option.bind_some, m1]
  · intro i hi1 hi2
    obtain ⟨x, x1, x2⟩ := a3 i hi1 hi2
    have hmem : (fun q => q ∈ P) = Peak.IsPeak (fun a b => decide (a > b)) v s (s + c) p := by
      funext q; exact propext (p3 q)
    obtain ⟨q, hq⟩ := Peak.C36_peak_exists v s c p h1c hv
    have hne : P ≠ [] := by
      intro he; have := (p3 q).mpr hq; rw [he] at this; simp at this
    obtain ⟨r, r1, r2⟩ := x2.2 hne
    rw [hmem] at r2
    exact ⟨r, by rw [x1, r1], r2.1.1, r2.1.2.1, r2⟩

/-! ## C65 -/

/-- The arrays of a channel have their sizes and peaks are bins. -/
structure Fit (p : Params) (c : Chan K) : Prop where
  cur : c.currentPeaks.length = p.bins
  prev : c.prevPeaks.length = p.bins
  pin : c.prevIn.length = p.bins
  pout : c.prevOut.length = p.bins
  unl : c.unlocked.length = p.bins
  curIn : ∀ x ∈ c.currentPeaks, 0 ≤ x ∧ x < p.bins
  prevIn : ∀ x ∈ c.prevPeaks, 0 ≤ x ∧ x < p.bins

/-- What is passed for a channel is as large as the size asks, and the guidance is one the guide gives. -/
structure Valid (p : Params) (x : Input K) : Prop where
  mag : p.bins ≤ x.mag.length
  phase : p.bins ≤ x.phase.length
  prevMag : p.bins ≤ x.prevMag.length
  guidance : Reachable p.guide x.guidance

omit [Field K] [LinearOrder K] [IsStrictOrderedRing K] [FloorRing K] in
theorem fill_some {α : Type} (f : Nat → Option α) : ∀ (n lo : Nat) (l : List α), lo + n ≤ l.length → (∀ i, lo ≤ i → i < lo + n → (f i).isSome = true) → ∃ l', fill f n lo l = some l' := by
  intro n
  induction n with
  | zero => intro lo l _ _; exact ⟨l, rfl⟩
  | succ n ih =>
    intro lo l hl hf
    obtain ⟨x, hx⟩ := Option.isSome_iff_exists.mp (hf lo (le_refl _) (by omega))
    obtain ⟨l', h'⟩ := ih (lo + 1) (l.set lo x) (by rw [List.length_set]; omega) (fun i h1 h2 => hf i (by omega) (by omega))
    refine ⟨l', ?_⟩
    unfold fill MovingMedian.setAt
    simp only [hx, Option.bind_eq_bind, Option.bind_some]
    rw [if_pos (by omega), Option.bind_some, h']

theorem each_some {α β γ : Type} (f : α → β → Option γ) (Q : γ → Prop) : ∀ (as : List α) (bs : List β), as.length = bs.length →
    (∀ a b, a ∈ as → b ∈ bs → ∃ x, f a b = some x ∧ Q x) → ∃ r, each f as bs = some r ∧ r.length = as.length ∧ ∀ x ∈ r, Q x := by
  intro as
  induction as with
  | nil =>
    intro bs h _
    cases bs with
    | nil => exact ⟨[], rfl, rfl, by simp⟩
    | cons => simp at h
  | cons a as ih =>
    intro bs h hf
    cases bs with
    | nil => simp at h
    | cons b bs =>
      obtain ⟨x, x1, x2⟩ := hf a b (by simp) (by simp)
      obtain ⟨r, r1, r2, r3⟩ := ih bs (by simpa using h) (fun a b ha hb => hf a b (by simp [ha]) (by simp [hb]))
      refine ⟨x :: r, ?_, by simp [r2], ?_⟩
      · unfold each
        simp only [x1, r1, Option.bind_eq_bind, Option.bind_some]
        rfl
      · intro y hy
        rcases List.mem_cons.mp hy with rfl | hy
        · exact x2
        · exact r3 y hy

theorem bins_mem {p : Params} {l : List Int} (h : ∀ x ∈ l, 0 ≤ x ∧ x < (p.bins : Int)) {i : Nat} (hi : i < l.length) : ∃ q : Nat, l[i]? = some (q : Int) ∧ q < p.bins := by
  obtain ⟨a, b⟩ := h l[i] (List.getElem_mem hi)
  refine ⟨l[i].toNat, ?_, by omega⟩
  rw [List.getElem?_eq_getElem hi]
  congr 1
  omega

omit [Field K] [IsStrictOrderedRing K] [FloorRing K] in
theorem bandPeaks_in {p : Params} (hr : 0 < p.guide.rate) {lo n : Nat} (hn : lo + n ≤ p.bins) {mag : List K} (hm : p.bins ≤ mag.length) {b : LockBand} (hb : 0 ≤ b.f0)
    {peaks : List Int} (hl : peaks.length = p.bins) (hp : ∀ x ∈ peaks, 0 ≤ x ∧ x < (p.bins : Int)) :
    ∃ r, bandPeaks p lo ((lo : Int) + n - 1) mag b peaks = some r ∧ r.length = p.bins ∧ ∀ x ∈ r, 0 ≤ x ∧ x < (p.bins : Int) := by
  have hs : 0 ≤ binForFrequency b.f0 p.fftSize p.guide.rate := by
    unfold binForFrequency
    apply Round.roundAway_nonneg
    positivity
  unfold bandPeaks
  simp only
  generalize binForFrequency b.f0 p.fftSize p.guide.rate = s at *
  generalize binForFrequency b.f1 p.fftSize p.guide.rate = e at *
  by_cases h1 : s > (lo : Int) + n - 1 ∨ e < lo
  · rw [if_pos h1]
    exact ⟨peaks, rfl, hl, hp⟩
  · rw [if_neg h1]
    have he : (if e > (lo : Int) + n - 1 then (lo : Int) + n - 1 else e) ≤ (lo : Int) + n - 1 := by split <;> omega
    generalize (if e > (lo : Int) + n - 1 then (lo : Int) + n - 1 else e) = e' at *
    by_cases h2 : e' - s + 1 < 1
    · rw [if_pos h2]
      exact ⟨peaks, rfl, hl, hp⟩
    · rw [if_neg h2, if_neg (by omega)]
      obtain ⟨near, n1, n2, n3, n4⟩ := nearest_only p.bins mag s.toNat (e' - s + 1).toNat b.p (by omega) (by omega) (by omega) peaks (by omega)
      rw [n1]
      refine ⟨near, rfl, by omega, ?_⟩
      intro x hx
      obtain ⟨i, i1, i2⟩ := List.mem_iff_getElem.mp hx
      have i3 : near[i]? = some x := by rw [List.getElem?_eq_getElem i1, i2]
      by_cases hi : s.toNat ≤ i ∧ i < s.toNat + (e' - s + 1).toNat
      · obtain ⟨q, q1, q2, q3, _⟩ := n4 i hi.1 hi.2
        rw [i3] at q1
        cases q1
        omega
      · rw [n3 i (by omega)] at i3
        exact hp x (List.mem_of_getElem? i3)

omit [Field K] [IsStrictOrderedRing K] [FloorRing K] in
theorem allPeaks_in {p : Params} (hr : 0 < p.guide.rate) {lo n : Nat} (hn : lo + n ≤ p.bins) {mag : List K} (hm : p.bins ≤ mag.length) :
    ∀ (bs : List LockBand) (peaks : List Int), (∀ b ∈ bs, 0 ≤ b.f0) → peaks.length = p.bins → (∀ x ∈ peaks, 0 ≤ x ∧ x < (p.bins : Int)) →
    ∃ r, allPeaks p lo ((lo : Int) + n - 1) mag bs peaks = some r ∧ r.length = p.bins ∧ ∀ x ∈ r, 0 ≤ x ∧ x < (p.bins : Int) := by
  intro bs
  induction bs with
  | nil => intro peaks _ hl hp; exact ⟨peaks, rfl, hl, hp⟩
  | cons b bs ih =>
    intro peaks hb hl hp
    obtain ⟨r, r1, r2, r3⟩ := bandPeaks_in hr hn hm (hb b (by simp)) hl hp
    unfold allPeaks
    rw [r1, Option.bind_some]
    exact ih r (fun b h => hb b (by simp [h])) r2 r3

theorem lockBands_low {p : Guide.Params} {g : Guidance} (h : Low p g) : ∀ b ∈ g.lockBands, 0 ≤ b.f0 := by
  intro b hb
  unfold Guidance.lockBands at hb
  have := List.mem_of_mem_take hb
  simp only [List.mem_cons, List.not_mem_nil, or_false] at this
  rcases this with rfl | rfl | rfl | rfl
  · exact h.l0
  · exact h.l1
  · exact h.l2
  · exact h.l3

omit [Field K] [IsStrictOrderedRing K] [FloorRing K] in
theorem findPeaks_fit {p : Params} (hp : p.guide.Supported) {lo n : Nat} (hn1 : 1 ≤ n) (hn : lo + n ≤ p.bins) {c : Chan K} (hc : Fit p c) {x : Input K} (hx : Valid p x) :
    ∃ c', findPeaks p lo n c x = some c' ∧ Fit p c' := by
  have hr : 0 < p.guide.rate := by have := hp.1; linarith
  obtain ⟨cur, f1⟩ := fill_some (fun i => some (i : Int)) n lo c.currentPeaks (by rw [hc.cur]; exact hn) (fun _ _ _ => rfl)
  obtain ⟨l1, l2, l3⟩ := fill_facts _ _ _ _ _ f1
  have hin : ∀ x ∈ cur, 0 ≤ x ∧ x < (p.bins : Int) := by
    intro x hx
    obtain ⟨i, i1, i2⟩ := List.mem_iff_getElem.mp hx
    have i3 : cur[i]? = some x := by rw [List.getElem?_eq_getElem i1, i2]
    by_cases hi : lo ≤ i ∧ i < lo + n
    · rw [(l2 i hi.1 hi.2).1] at i3
      cases i3
      omega
    · rw [l3 i (by omega)] at i3
      exact hc.curIn x (List.mem_of_getElem? i3)
  obtain ⟨r, r1, r2, r3⟩ := allPeaks_in hr hn hx.mag x.guidance.lockBands cur (lockBands_low (reachable_low hp hx.guidance).1) (by rw [l1, hc.cur]) hin
  obtain ⟨near, n1, n2, n3, n4⟩ := nearest_only p.bins x.prevMag lo n 1 (by omega) hn1 (by have := hx.prevMag; omega) c.prevPeaks (by rw [hc.prev]; exact hn)
  refine ⟨{ c with currentPeaks := r, prevPeaks := near }, ?_, ⟨r2, by rw [n2, hc.prev], hc.pin, hc.pout, hc.unl, r3, ?_⟩⟩
  · unfold findPeaks
    simp only [f1, r1, n1, Option.bind_eq_bind, Option.bind_some]
    rfl
  · intro x hx
    obtain ⟨i, i1, i2⟩ := List.mem_iff_getElem.mp hx
    have i3 : near[i]? = some x := by rw [List.getElem?_eq_getElem i1, i2]
    by_cases hi : lo ≤ i ∧ i < lo + n
    · obtain ⟨q, q1, q2, q3, _⟩ := n4 i hi.1 hi.2
      rw [i3] at q1
      cases q1
      omega
    · rw [n3 i (by omega)] at i3
      exact hc.prevIn x (List.mem_of_getElem? i3)

omit [IsStrictOrderedRing K] in
theorem unlockAll_fit (pi : K) {p : Params} (inhop outhop : Nat) {lo n : Nat} (hn : lo + n ≤ p.bins) {c : Chan K} (hc : Fit p c) {x : Input K} (hx : p.bins ≤ x.phase.length) :
    ∃ c', unlockAll pi p inhop outhop lo n c x = some c' ∧ Fit p c' := by
  obtain ⟨u, u1⟩ := fill_some (unlock pi p inhop outhop c x) n lo c.unlocked (by rw [hc.unl]; exact hn) (by
    intro i i1 i2
    have a : i < c.prevIn.length := by rw [hc.pin]; omega
    have b : i < c.prevOut.length := by rw [hc.pout]; omega
    have d : i < x.phase.length := by omega
    unfold unlock
    rw [List.getElem?_eq_getElem a, List.getElem?_eq_getElem b, List.getElem?_eq_getElem d]
    rfl)
  refine ⟨{ c with unlocked := u }, by unfold unlockAll; rw [u1]; rfl, ⟨hc.cur, hc.prev, hc.pin, hc.pout, ?_, hc.curIn, hc.prevIn⟩⟩
  rw [(fill_facts _ _ _ _ _ u1).1, hc.unl]

omit [IsStrictOrderedRing K] [FloorRing K] [Field K] in
theorem greatest_some (i : Nat) : ∀ (xs : List (Input K)) (c gc : Nat) (gmag : K), (∀ x ∈ xs, i < x.mag.length) → gc < c → ∃ r, greatest i xs c gc gmag = some r ∧ r < c + xs.length := by
  intro xs
  induction xs with
  | nil => intro c gc gmag _ h; exact ⟨gc, rfl, by simpa using h⟩
  | cons x xs ih =>
    intro c gc gmag hx hgc
    have hlt := hx x (by simp)
    unfold greatest
    rw [List.getElem?_eq_getElem hlt, Option.bind_some]
    split
    · obtain ⟨r, r1, r2⟩ := ih (c + 1) c x.mag[i] (fun x h => hx x (by simp [h])) (by omega)
      exact ⟨r, r1, by simp only [List.length_cons]; omega⟩
    · obtain ⟨r, r1, r2⟩ := ih (c + 1) gc gmag (fun x h => hx x (by simp [h])) (by omega)
      exact ⟨r, r1, by simp only [List.length_cons]; omega⟩

omit [IsStrictOrderedRing K] [FloorRing K] [Field K] in
theorem greatestChannel_some (i : Nat) {xs : List (Input K)} (hx : ∀ x ∈ xs, i < x.mag.length) (hne : xs ≠ []) : ∃ r, greatestChannel xs i = some r ∧ r < xs.length := by
  cases xs with
  | nil => exact absurd rfl hne
  | cons x xs =>
    cases xs with
    | nil => exact ⟨0, rfl, by simp⟩
    | cons y ys =>
      have hlt := hx x (by simp)
      unfold greatestChannel
      simp only
      rw [List.getElem?_eq_getElem hlt, Option.bind_some]
      obtain ⟨r, r1, r2⟩ := greatest_some i (y :: ys) 1 0 x.mag[i] (fun x h => hx x (by simp only [List.mem_cons] at h ⊢; tauto)) (by omega)
      exact ⟨r, r1, by simp only [List.length_cons] at *; omega⟩

theorem seekBand_some {g : Guidance} (hg : g.lockBandCount ≤ 4) (f : Rat) : ∀ (rounds b : Nat), b < 4 → ∃ r, seekBand g f rounds b = some r ∧ r < 4 := by
  intro rounds
  induction rounds with
  | zero => intro b h; exact ⟨b, rfl, h⟩
  | succ rounds ih =>
    intro b h
    have : ∃ band, lockAt g b = some band := by
      unfold lockAt
      rw [List.getElem?_eq_getElem (by simpa using h)]
      exact ⟨_, rfl⟩
    obtain ⟨band, hb⟩ := this
    unfold seekBand
    rw [hb, Option.bind_some]
    split
    · rename_i hh
      exact ih (b + 1) (by omega)
    · exact ⟨b, rfl, h⟩

theorem bandAt_some {p : Params} {g : Guidance} (hg : g.lockBandCount ≤ 4) (lo : Nat) : ∀ k, ∃ r, bandAt p g lo k = some r ∧ r < 4 := by
  intro k
  induction k with
  | zero => exact seekBand_some hg _ 4 0 (by norm_num)
  | succ k ih =>
    obtain ⟨r, r1, r2⟩ := ih
    unfold bandAt
    rw [r1, Option.bind_some]
    exact seekBand_some hg _ 4 r r2

theorem get_nat {α : Type} {l : List α} {q : Nat} (h : q < l.length) : get l (q : Int) = some l[q] := by
  unfold get
  rw [if_neg (by omega)]
  simp [h]

omit [IsStrictOrderedRing K] [FloorRing K] in
theorem lockedPhase_some {p : Params} (hp : p.guide.Supported) {lo : Nat} {cs : List (Chan K)} {xs : List (Input K)} (hl : cs.length = xs.length) (hcs : ∀ c ∈ cs, Fit p c) (hxs : ∀ x ∈ xs, Valid p x)
    {k i : Nat} {ch : Chan K} {x : Input K} (hc : cs[k]? = some ch) (hx : xs[k]? = some x) (hi : i < p.bins) : (lockedPhase p lo cs xs k i ch x).isSome = true := by
  have fc := hcs ch (List.mem_of_getElem? hc)
  have fx := hxs x (List.mem_of_getElem? hx)
  obtain ⟨peak, p1, p2⟩ := bins_mem fc.curIn (i := i) (by rw [fc.cur]; exact hi)
  obtain ⟨prevPeak, q1, q2⟩ := bins_mem fc.prevIn (i := peak) (by rw [fc.prev]; exact p2)
  have q3 : get ch.prevPeaks (peak : Int) = some (prevPeak : Int) := by
    unfold get
    rw [if_neg (by omega)]
    simpa using q1
  have hpc : ∃ r, peakChannel cs xs (freq p i) k i x.guidance (prevPeak : Int) = some r ∧ r < cs.length := by
    have hk : k < cs.length := (List.getElem?_eq_some_iff.mp hc).1
    unfold peakChannel
    split
    · obtain ⟨other, o1, o2⟩ := greatestChannel_some i (xs := xs) (fun x h => by have := (hxs x h).mag; omega) (by intro he; rw [he] at hx; simp at hx)
      simp only [o1, Option.bind_eq_bind, Option.bind_some]
      split
      · exact ⟨k, rfl, hk⟩
      · have l1 : other < cs.length := by omega
        have fo := hcs cs[other] (List.getElem_mem l1)
        rw [List.getElem?_eq_getElem l1, List.getElem?_eq_getElem o2]
        simp only [Option.bind_some]
        have hf : ∃ b, follows (freq p i) i (prevPeak : Int) cs[other] xs[other] = some b := by
          unfold follows
          split
          · obtain ⟨a, a1, a2⟩ := bins_mem fo.curIn (i := i) (by rw [fo.cur]; exact hi)
            have := get_nat (l := cs[other].prevPeaks) (q := a) (by rw [fo.prev]; exact a2)
            rw [a1]
            simp only [Option.bind_eq_bind, Option.bind_some, this]
            exact ⟨_, rfl⟩
          · exact ⟨false, rfl⟩
        obtain ⟨b, hb⟩ := hf
        rw [hb]
        simp only [Option.bind_some]
        refine ⟨_, rfl, ?_⟩
        split <;> assumption
    · exact ⟨k, rfl, hk⟩
  obtain ⟨r, r1, r2⟩ := hpc
  have fr := hcs cs[r] (List.getElem_mem r2)
  have fxr := hxs (xs[r]'(by omega)) (List.getElem_mem _)
  obtain ⟨b, b1, b2⟩ := bandAt_some (p := p) (reachable_low hp fx.guidance).2.count lo (i - lo)
  unfold lockedPhase
  simp only [p1, q3, r1, Option.bind_eq_bind, Option.bind_some, List.getElem?_eq_getElem r2, List.getElem?_eq_getElem (show r < xs.length by omega),
    get_nat (l := cs[r].unlocked) (q := peak) (by rw [fr.unl]; exact p2), get_nat (l := cs[r].prevOut) (q := peak) (by rw [fr.pout]; exact p2),
    get_nat (l := cs[r].prevOut) (q := prevPeak) (by rw [fr.pout]; exact q2), List.getElem?_eq_getElem (show i < x.phase.length by have := fx.phase; omega),
    get_nat (l := (xs[r]'(by omega)).phase) (q := peak) (by have := fxr.phase; omega), b1]
  have : ∃ band, lockAt x.guidance b = some band := by
    unfold lockAt
    rw [List.getElem?_eq_getElem (by simpa using b2)]
    exact ⟨_, rfl⟩
  obtain ⟨band, hb⟩ := this
  rw [hb]
  rfl

omit [IsStrictOrderedRing K] [FloorRing K] in
theorem binPhase_some {p : Params} (hp : p.guide.Supported) (ms : Bool) (inhop outhop : Nat) {lo : Nat} {cs : List (Chan K)} {xs : List (Input K)} (hl : cs.length = xs.length) (hcs : ∀ c ∈ cs, Fit p c)
    (hxs : ∀ x ∈ xs, Valid p x) {k i : Nat} {ch : Chan K} {x : Input K} (hc : cs[k]? = some ch) (hx : xs[k]? = some x) (hi : i < p.bins) :
    (binPhase p ms inhop outhop lo cs xs k ch x i).isSome = true := by
  have fc := hcs ch (List.mem_of_getElem? hc)
  have fx := hxs x (List.mem_of_getElem? hx)
  have h1 : (x.phase[i]?).isSome = true := by rw [List.getElem?_eq_getElem (by have := fx.phase; omega)]; rfl
  have h2 : (ch.unlocked[i]?).isSome = true := by rw [List.getElem?_eq_getElem (by rw [fc.unl]; exact hi)]; rfl
  unfold binPhase
  simp only
  split
  · exact h1
  split
  · exact h1
  split
  · exact h2
  split
  · exact h2
  · exact lockedPhase_some hp hl hcs hxs hc hx hi

omit [IsStrictOrderedRing K] in
theorem eachOut_some (pi : K) {p : Params} (hp : p.guide.Supported) (ms : Bool) (inhop outhop : Nat) {lo n : Nat} (hn : lo + n ≤ p.bins) {cs : List (Chan K)} {xs : List (Input K)} (hl : cs.length = xs.length)
    (hcs : ∀ c ∈ cs, Fit p c) (hxs : ∀ x ∈ xs, Valid p x) : ∀ (k : Nat) (os : List (List K)), k + os.length = cs.length → (∀ o ∈ os, p.bins ≤ o.length) →
    ∃ r, eachOut pi p ms inhop outhop lo n cs xs k (cs.drop k) (xs.drop k) os = some r ∧ r.length = os.length ∧ ∀ o ∈ r, p.bins ≤ o.length := by
  intro k os
  induction os generalizing k with
  | nil =>
    intro hk _
    rw [List.drop_of_length_le (by simp at hk; omega), List.drop_of_length_le (by simp at hk; omega)]
    exact ⟨[], rfl, rfl, by simp⟩
  | cons o os ih =>
    intro hk ho
    simp only [List.length_cons] at hk
    have k1 : k < cs.length := by omega
    have k2 : k < xs.length := by omega
    obtain ⟨r, r1, r2, r3⟩ := ih (k + 1) (by omega) (fun o h => ho o (by simp [h]))
    obtain ⟨o', o1⟩ := fill_some (fun i => (binPhase p ms inhop outhop lo cs xs k cs[k] xs[k] i).map (princarg pi)) n lo o (by have := ho o (by simp); omega) (by
      intro i i1 i2
      rw [Option.isSome_map]
      exact binPhase_some hp ms inhop outhop hl hcs hxs (List.getElem?_eq_getElem k1) (List.getElem?_eq_getElem k2) (by omega))
    rw [List.drop_eq_getElem_cons k1, List.drop_eq_getElem_cons k2]
    refine ⟨o' :: r, ?_, by simp [r2], ?_⟩
    · unfold eachOut outPhases
      simp only [o1, r1, Option.bind_eq_bind, Option.bind_some]
      rfl
    · intro q hq
      rcases List.mem_cons.mp hq with rfl | hq
      · rw [(fill_facts _ _ _ _ _ o1).1]
        exact ho o (by simp)
      · exact r3 q hq

omit [IsStrictOrderedRing K] in
/-- A call stays within the arrays and leaves them as large as they were. -/
theorem advance_safe (pi : K) {p : Params} (hp : p.guide.Supported) (hs : p.Scale) (ms : Bool) (inhop outhop : Nat) {cs : List (Chan K)} {xs : List (Input K)} {outs : List (List K)}
    (hne : cs ≠ []) (hl : cs.length = xs.length) (hlo : outs.length = cs.length) (hcs : ∀ c ∈ cs, Fit p c) (hxs : ∀ x ∈ xs, Valid p x) (ho : ∀ o ∈ outs, p.bins ≤ o.length) :
    ∃ cs' outs', advance pi p ms inhop outhop cs xs outs = some (cs', outs') ∧ cs'.length = cs.length ∧ outs'.length = cs.length ∧ (∀ c ∈ cs', Fit p c) ∧ ∀ o ∈ outs', p.bins ≤ o.length := by
  cases xs with
  | nil => simp at hl; exact absurd hl hne
  | cons x0 xt =>
    generalize hxx : x0 :: xt = xs at *
    have h0 : xs.head? = some x0 := by rw [← hxx]; rfl
    have v0 := hxs x0 (by rw [← hxx]; simp)
    obtain ⟨lo, n, b1, b2, b3⟩ := binRange_in hp hs (reachable_low hp v0.guidance).2
    obtain ⟨c1, e1, l1, f1⟩ := each_some (findPeaks p lo n) (Fit p) cs xs hl (fun c x hc hx => findPeaks_fit hp b2 b3 (hcs c hc) (hxs x hx))
    obtain ⟨c2, e2, l2, f2⟩ := each_some (unlockAll pi p inhop outhop lo n) (Fit p) c1 xs (by omega) (fun c x hc hx => unlockAll_fit pi inhop outhop b3 (f1 c hc) (hxs x hx).phase)
    obtain ⟨os, e3, l3, f3⟩ := eachOut_some pi hp ms inhop outhop b3 (by omega : c2.length = xs.length) f2 hxs 0 outs (by omega) ho
    rw [List.drop_zero, List.drop_zero] at e3
    obtain ⟨c3, e4, l4, f4⟩ := each_some (fun c (xo : Input K × List K) => keep lo n xo.1 xo.2 c) (Fit p) c2 (xs.zip os) (by rw [List.length_zip]; omega) (by
      rintro c ⟨x, o⟩ hc hxo
      have hx := hxs x (List.of_mem_zip hxo).1
      have hoo := f3 o (List.of_mem_zip hxo).2
      have fc := f2 c hc
      obtain ⟨a, a1⟩ := fill_some (fun i => x.phase[i]?) n lo c.prevIn (by rw [fc.pin]; exact b3) (fun i i1 i2 => by
        rw [List.getElem?_eq_getElem (by have := hx.phase; omega)]; rfl)
      obtain ⟨b, bb1⟩ := fill_some (fun i => o[i]?) n lo c.prevOut (by rw [fc.pout]; exact b3) (fun i i1 i2 => by
        rw [List.getElem?_eq_getElem (by omega)]; rfl)
      refine ⟨{ c with prevIn := a, prevOut := b }, ?_, ⟨fc.cur, fc.prev, ?_, ?_, fc.unl, fc.curIn, fc.prevIn⟩⟩
      · unfold keep
        simp only [a1, bb1, Option.bind_eq_bind, Option.bind_some]
        rfl
      · rw [(fill_facts _ _ _ _ _ a1).1, fc.pin]
      · rw [(fill_facts _ _ _ _ _ bb1).1, fc.pout])
    refine ⟨c3, os, ?_, by omega, by omega, f4, f3⟩
    unfold advance
    simp only [h0, b1, e1, e2, e3, e4, Option.bind_eq_bind, Option.bind_some]
    rfl

/-- What may be asked of the object. -/
inductive Event (K : Type)
  | advance (s : Step K)
  | reset

/-- An event. -/
def event (pi : K) (p : Params) (s : List (Chan K) × List (List K)) : Event K → Option (List (Chan K) × List (List K))
  | .advance f => advance pi p f.midSide f.inhop f.outhop s.1 f.inputs s.2
  | .reset => some (s.1.map (reset p), s.2)

/-- A sequence of events. -/
def events (pi : K) (p : Params) : List (Event K) → List (Chan K) × List (List K) → Option (List (Chan K) × List (List K))
  | [], s => some s
  | e :: es, s => (event pi p s e).bind (events pi p es)

/-- The call is for as many channels as there are, with what the engine passes. -/
def Event.Valid (p : Params) (channels : Nat) : Event K → Prop
  | .advance f => f.inputs.length = channels ∧ ∀ x ∈ f.inputs, PhaseAdvance.Valid p x
  | .reset => True

theorem bins_pos (p : Params) : 0 < p.bins := by unfold Params.bins; omega

omit [IsStrictOrderedRing K] in
theorem events_safe (pi : K) {p : Params} (hp : p.guide.Supported) (hs : p.Scale) {channels : Nat} (hc : 1 ≤ channels) : ∀ (es : List (Event K)) (s : List (Chan K) × List (List K)),
    (∀ e ∈ es, Event.Valid p channels e) → s.1.length = channels → s.2.length = channels → (∀ c ∈ s.1, Fit p c) → (∀ o ∈ s.2, p.bins ≤ o.length) →
    ∃ s', events pi p es s = some s' ∧ s'.1.length = channels ∧ s'.2.length = channels ∧ (∀ c ∈ s'.1, Fit p c) ∧ (∀ o ∈ s'.2, p.bins ≤ o.length) := by
  intro es
  induction es with
  | nil => intro s _ h1 h2 h3 h4; exact ⟨s, rfl, h1, h2, h3, h4⟩
  | cons e es ih =>
    intro s hv h1 h2 h3 h4
    have : ∃ s', event pi p s e = some s' ∧ s'.1.length = channels ∧ s'.2.length = channels ∧ (∀ c ∈ s'.1, Fit p c) ∧ (∀ o ∈ s'.2, p.bins ≤ o.length) := by
      cases e with
      | advance f =>
        obtain ⟨v1, v2⟩ := hv _ (List.mem_cons_self)
        obtain ⟨cs', outs', a1, a2, a3, a4, a5⟩ := advance_safe pi hp hs f.midSide f.inhop f.outhop (cs := s.1) (xs := f.inputs) (outs := s.2)
          (by intro he; rw [he] at h1; simp at h1; omega) (by omega) (by omega) h3 v2 h4
        exact ⟨(cs', outs'), a1, by show cs'.length = _; omega, by show outs'.length = _; omega, a4, a5⟩
      | reset =>
        refine ⟨_, rfl, by simpa using h1, h2, ?_, h4⟩
        intro c hc
        obtain ⟨d, hd, rfl⟩ := List.mem_map.mp hc
        have fd := h3 d hd
        refine ⟨fd.cur, by simp [reset], by simp [reset], by simp [reset], fd.unl, fd.curIn, ?_⟩
        intro x hx
        have := List.eq_of_mem_replicate hx
        have := bins_pos p
        omega
    obtain ⟨s', t1, t2, t3, t4, t5⟩ := this
    obtain ⟨s'', u⟩ := ih s' (fun e he => hv e (by simp [he])) t2 t3 t4 t5
    exact ⟨s'', by unfold events; rw [t1, Option.bind_some]; exact u.1, u.2⟩

omit [IsStrictOrderedRing K] in
/-- **C65**: for every supported rate, window mode, FFT size in use and number of channels, every sequence of frames (magnitudes, phases, hops, guidance that the guide gives, whatever it was given) and
resets is carried out without an access outside an array. -/
theorem C65_safe (pi : K) {p : Params} (hp : p.guide.Supported) (hs : p.Scale) {channels : Nat} (hc : 1 ≤ channels) (es : List (Event K)) (hv : ∀ e ∈ es, Event.Valid p channels e)
    (outs : List (List K)) (ho : outs.length = channels) (hol : ∀ o ∈ outs, p.bins ≤ o.length) : (events pi p es (List.replicate channels (create p), outs)).isSome = true := by
  obtain ⟨s', h, _⟩ := events_safe pi hp hs hc es (List.replicate channels (create p), outs) hv (by simp) ho (by
    intro c hc
    rw [List.eq_of_mem_replicate hc]
    refine ⟨by simp [create], by simp [create], by simp [create], by simp [create], by simp [create], ?_, ?_⟩
    · intro x hx
      have := List.eq_of_mem_replicate hx
      have := bins_pos p
      omega
    · intro x hx
      obtain ⟨i, hi, rfl⟩ := List.mem_map.mp hx
      have := List.mem_range.mp hi
      exact ⟨Int.natCast_nonneg _, by show ((i : Nat) : Int) < _; omega⟩) hol
  rw [h]
  rfl

/-- **C65**, the phases put out are principal ones. -/
theorem C65_principal {pi : K} (hpi : 0 < pi) {p : Params} {ms : Bool} {inhop outhop : Nat} {cs cs' : List (Chan K)} {xs : List (Input K)} {outs outs' : List (List K)}
    (h : advance pi p ms inhop outhop cs xs outs = some (cs', outs')) {lo n : Nat} {x0 : Input K} (h0 : xs.head? = some x0) (hr : binRange p x0.guidance = some (lo, n))
    {k i : Nat} {o' : List K} (ho : outs'[k]? = some o') (i1 : lo ≤ i) (i2 : i < lo + n) : ∃ y, o'[i]? = some y ∧ -pi < y ∧ y ≤ pi := by
  obtain ⟨x0', lo', n', mids, g0, gr, l1, l2, _, _, l5, key⟩ := advance_facts h
  rw [h0] at g0
  cases g0
  rw [hr] at gr
  cases gr
  have hk : k < outs'.length := (List.getElem?_eq_some_iff.mp ho).1
  obtain ⟨mid, ch', o'', m1, m2, m3, hm, ha⟩ := key k cs[k] xs[k] outs[k] (List.getElem?_eq_getElem (by omega)) (List.getElem?_eq_getElem (by omega)) (List.getElem?_eq_getElem (by omega))
  rw [ho] at m3
  cases m3
  obtain ⟨ph, p1, p2⟩ := ha.out i i1 i2
  exact ⟨_, p2, princarg_range hpi ph⟩

/-- Two frames and a reset in between, two channels, for the shortest size at 44100 Hz. -/
example : ∃ g, Reachable { rate := 44100 } g ∧
    (∀ e ∈ [(Event.advance ⟨true, 100, 150, List.replicate 2 ⟨List.replicate 513 1, List.replicate 513 2, List.replicate 513 1, g⟩⟩ : Event Rat), .reset,
      .advance ⟨true, 100, 150, List.replicate 2 ⟨List.replicate 513 3, List.replicate 513 (-2), List.replicate 513 1, g⟩⟩], Event.Valid ⟨{ rate := 44100 }, 1024⟩ 2 e) ∧
    Params.Scale ⟨{ rate := 44100 }, 1024⟩ := by
  have hp : ({ rate := 44100 } : Guide.Params).Supported := by unfold Guide.Params.Supported; constructor <;> norm_num
  have hw : Whole { rate := 44100 } (Guide.Ex.flat 1025) := Guide.Ex.flat_whole (by decide +kernel)
  obtain ⟨g, hg, _⟩ := update_low hp hw (g := {}) ⟨le_refl _, le_refl _, le_refl _, le_refl _, le_refl _, le_refl _⟩
  have hr : Reachable { rate := 44100 } g := by
    refine ⟨[Guide.Ex.flat 1025], by simp, ?_, ?_⟩
    · intro f hf
      rw [List.mem_singleton.mp hf]
      exact hw
    · unfold updates
      rw [hg]
      rfl
  have hb : Params.bins ⟨{ rate := 44100 }, 1024⟩ = 513 := rfl
  have key : ∀ a b c : Rat, PhaseAdvance.Valid ⟨{ rate := 44100 }, 1024⟩ (⟨List.replicate 513 a, List.replicate 513 b, List.replicate 513 c, g⟩ : Input Rat) := by
    intro a b c
    exact ⟨by rw [hb, List.length_replicate], by rw [hb, List.length_replicate], by rw [hb, List.length_replicate], hr⟩
  refine ⟨g, hr, ?_, Or.inr ⟨rfl, Or.inr (by decide +kernel)⟩⟩
  intro e he
  rcases List.mem_cons.mp he with rfl | he
  · exact ⟨List.length_replicate, fun x hx => by rw [List.eq_of_mem_replicate hx]; exact key _ _ _⟩
  rcases List.mem_cons.mp he with rfl | he
  · trivial
  rw [List.mem_singleton.mp he]
  exact ⟨List.length_replicate, fun x hx => by rw [List.eq_of_mem_replicate hx]; exact key _ _ _⟩

end Verif.PhaseAdvance
