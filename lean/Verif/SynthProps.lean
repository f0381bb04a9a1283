import Verif.Synth
/-!
# What is synthesised from which scale: C67, C68
-/
namespace Verif.Synth
open Verif.Guide Verif.Round

/-! ## The bands of a guidance -/

/-- A multiple of the distance of the bins of the classification scale, within the spectrum. -/
def OnGrid (p : Params) (x : Rat) : Prop := ∃ m : Nat, m ≤ p.classify / 2 ∧ x = frequencyForBin m p.classify p.rate

/-- The bands there are after an update. -/
structure Shape (p : Params) (g : Guidance) : Prop where
  single : p.single = true → g.fftBandCount = 1 ∧ g.fft0 = ⟨p.classify, 0, p.nyquist⟩
  multi : p.single = false → g.fftBandCount = 3 ∧ ∃ a b, g.fft0 = ⟨p.longest, 0, a⟩ ∧ g.fft1 = ⟨p.classify, a, b⟩ ∧ g.fft2 = ⟨p.shortest, b, p.nyquist⟩ ∧
    0 ≤ a ∧ a ≤ 1100 ∧ 4000 ≤ b ∧ (a = 500 ∨ a = 700 ∨ OnGrid p a) ∧ (b = 4000 ∨ b = 4800 ∨ OnGrid p b)

theorem grid_zero (p : Params) : OnGrid p 0 := ⟨0, by omega, by simp [frequencyForBin]⟩

theorem grid_nyquist {p : Params} (hp : p.Supported) : OnGrid p p.nyquist := by
  obtain ⟨m, h1, h2⟩ := classify_quarter hp
  refine ⟨p.classify / 2, le_refl _, ?_⟩
  unfold frequencyForBin Params.nyquist
  rw [h2, show 4 * m / 2 = 2 * m by omega]
  have : (m : Rat) ≠ 0 := by
    have : m ≠ 0 := by omega
    exact_mod_cast this
  push_cast
  field_simp
  ring

theorem valley_grid {p : Params} (hp : p.Supported) {f r : Rat} (hf : 0 ≤ f) {l : List Rat} (hl : p.classify / 2 + 1 ≤ l.length) (h : descendToValley p f l = some r) : OnGrid p r := by
  unfold descendToValley at h
  split at h
  · rename_i hc
    cases h
    rcases hc with rfl | rfl
    · exact grid_zero p
    · exact grid_nyquist hp
  · have h0 : (0 : Rat) < p.rate := by have := hp.1; linarith
    simp only at h
    have hb0 : 0 ≤ binForFrequency f p.classify p.rate := by
      unfold binForFrequency
      apply roundAway_nonneg
      positivity
    obtain ⟨b, hr, r0, r1⟩ := descend_some (l := l) (n := ((p.classify / 2 : Nat) : Int)) (by exact_mod_cast hl) 3
      (if binForFrequency f p.classify p.rate > ((p.classify / 2 : Nat) : Int) then ((p.classify / 2 : Nat) : Int)
        else binForFrequency f p.classify p.rate) (by split <;> omega) (by split <;> omega)
    rw [hr] at h
    cases h
    exact ⟨b.toNat, by omega, by rw [show ((b.toNat : Nat) : Int) = b by omega]⟩

theorem bounded_or (x lo hi d : Rat) : bounded x lo hi d = d ∨ bounded x lo hi d = x := by
  unfold bounded
  split
  · exact Or.inl rfl
  · exact Or.inr rfl

theorem update_shape {p : Params} (hp : p.Supported) {f : Frame} (hw : Whole p f) {g g' : Guidance} (low : Low p g) (h : updateGuidance p f g = some g') : Shape p g' := by
  have hn : 4000 ≤ p.nyquist := by unfold Params.nyquist; have := hp.1; linarith
  have unl : ∀ w : Guidance, Shape p w → Shape p (unlock p f.ratio w) := by
    intro w ow
    unfold unlock
    split
    · exact ⟨ow.single, ow.multi⟩
    · exact ow
  cases hm : p.single with
  | true =>
    have key : ∀ w : Guidance, w.fftBandCount = 1 → w.fft0 = ⟨p.classify, 0, p.nyquist⟩ → Shape p w := fun w w1 w2 => ⟨fun _ => ⟨w1, w2⟩, fun h => by rw [hm] at h; cases h⟩
    unfold updateGuidance at h
    simp only at h
    have hsing : (if p.single = true then singleBands p f.ratio f.outhop (cleared g) else multiSizes p (cleared g)) = singleBands p f.ratio f.outhop (cleared g) := by
      rw [hm]; rfl
    rw [hsing] at h
    have silent : Shape p (updateForSilence p (singleBands p f.ratio f.outhop (cleared g))) := by
      unfold updateForSilence
      rw [hm, if_pos rfl]
      exact key _ rfl rfl
    split at h
    · cases h; exact silent
    split at h
    · cases h
      unfold updateForUnity
      split
      · exact silent
      · exact key _ rfl rfl
    · unfold updateNormal at h
      simp only at h
      rw [hm, if_pos rfl] at h
      cases h
      exact unl _ (key _ rfl rfl)
  | false =>
    have key : ∀ w : Guidance, ∀ a b, w.fftBandCount = 3 → w.fft0 = ⟨p.longest, 0, a⟩ → w.fft1 = ⟨p.classify, a, b⟩ → w.fft2 = ⟨p.shortest, b, p.nyquist⟩ → 0 ≤ a → a ≤ 1100 → 4000 ≤ b →
        (a = 500 ∨ a = 700 ∨ OnGrid p a) → (b = 4000 ∨ b = 4800 ∨ OnGrid p b) → Shape p w :=
      fun w a b w1 w2 w3 w4 w5 w6 w7 w8 w9 => ⟨fun h => Bool.noConfusion (hm.symm.trans h), fun _ => ⟨w1, a, b, w2, w3, w4, w5, w6, w7, w8, w9⟩⟩
    unfold updateGuidance at h
    simp only at h
    have hsing : (if p.single = true then singleBands p f.ratio f.outhop (cleared g) else multiSizes p (cleared g)) = multiSizes p (cleared g) := by
      rw [hm]; rfl
    rw [hsing] at h
    have low1 : Low p (multiSizes p (cleared g)) := ⟨low.a, low.b, low.l0, low.l1, low.l2, low.l3⟩
    have e2 : (multiSizes p (cleared g)).fftBandCount = 3 := rfl
    have z0 : (multiSizes p (cleared g)).fft0.fftSize = p.longest := rfl
    have z1 : (multiSizes p (cleared g)).fft1.fftSize = p.classify := rfl
    have z2 : (multiSizes p (cleared g)).fft2.fftSize = p.shortest := rfl
    generalize multiSizes p (cleared g) = u at *
    have silent : Shape p (updateForSilence p u) := by
      unfold updateForSilence
      rw [hm, if_neg (by simp)]
      refine key _ 0 p.nyquist e2 ?_ ?_ ?_ (le_refl _) (by norm_num) hn (Or.inr (Or.inr (grid_zero p))) (Or.inr (Or.inr (grid_nyquist hp)))
      · show (⟨u.fft0.fftSize, _, _⟩ : FftBand) = _; rw [z0]
      · show (⟨u.fft1.fftSize, _, _⟩ : FftBand) = _; rw [z1]
      · show (⟨u.fft2.fftSize, _, _⟩ : FftBand) = _; rw [z2]
    split at h
    · cases h; exact silent
    split at h
    · cases h
      unfold updateForUnity
      split
      · exact silent
      · rw [hm, if_neg (by simp)]
        have c1 : p.minLower = 500 := by unfold Params.minLower; rw [hm]; rfl
        have c2 : p.minHigher = 4000 := by unfold Params.minHigher; rw [hm]; rfl
        rw [c1, c2]
        refine key _ 500 4000 e2 ?_ ?_ ?_ (by norm_num) (by norm_num) (by norm_num) (Or.inl rfl) (Or.inl rfl)
        · show (⟨u.fft0.fftSize, _, _⟩ : FftBand) = _; rw [z0]
        · show (⟨u.fft1.fftSize, _, _⟩ : FftBand) = _; rw [z1]
        · show (⟨u.fft2.fftSize, _, _⟩ : FftBand) = _; rw [z2]
    · unfold updateNormal at h
      simp only at h
      rw [hm, if_neg (by simp)] at h
      obtain ⟨kicks, hk⟩ := kickTest_some hp hw
      rw [hk] at h
      simp only [Option.bind_eq_bind, Option.bind_some] at h
      generalize hv : setRanges f (setKick f kicks { u with channelLock := ⟨true, 0, if f.tighterChannelLock = true then p.nyquist else 600⟩ }) = v at h
      have same : v.fft0 = u.fft0 ∧ v.fft1 = u.fft1 ∧ v.fft2 = u.fft2 ∧ v.fftBandCount = 3 := by
        rw [← hv]
        unfold setRanges setKick
        split
        · exact ⟨rfl, rfl, rfl, e2⟩
        · split <;> exact ⟨rfl, rfl, rfl, e2⟩
      obtain ⟨s1, s2, s3, s5⟩ := same
      obtain ⟨lo, hlo, _⟩ := valley_low hp (f := v.fft0.f1) (by rw [s1]; exact low1.a) hw.mags
      obtain ⟨hi, hhi, _⟩ := valley_low hp (f := v.fft1.f1) (by rw [s2]; exact low1.b) hw.mags
      have glo := valley_grid hp (by rw [s1]; exact low1.a) hw.mags hlo
      have ghi := valley_grid hp (by rw [s2]; exact low1.b) hw.mags hhi
      rw [hlo, hhi] at h
      simp only [Option.bind_some, Option.pure_def, Option.map_some] at h
      cases h
      have c : p.minLower = 500 ∧ p.maxLower = 1100 ∧ p.defaultLower = 700 ∧ p.minHigher = 4000 ∧ p.maxHigher = 7000 ∧ p.defaultHigher = 4800 := by
        unfold Params.minLower Params.maxLower Params.defaultLower Params.minHigher Params.maxHigher Params.defaultHigher
        rw [hm]
        exact ⟨rfl, rfl, rfl, rfl, rfl, rfl⟩
      obtain ⟨c1, c2, c3, c4, c5, c6⟩ := c
      rw [c1, c2, c3, c4, c5, c6]
      have bl := bounded_in (x := lo) (lo := 500) (hi := 1100) (d := 700) (by norm_num) (by norm_num)
      have bh := (bounded_in (x := hi) (lo := 4000) (hi := 7000) (d := 4800) (by norm_num) (by norm_num)).1
      have gl : bounded lo 500 1100 700 = 500 ∨ bounded lo 500 1100 700 = 700 ∨ OnGrid p (bounded lo 500 1100 700) := by
        rcases bounded_or lo 500 1100 700 with e | e
        · exact Or.inr (Or.inl e)
        · rw [e]; exact Or.inr (Or.inr glo)
      have gh : bounded hi 4000 7000 4800 = 4000 ∨ bounded hi 4000 7000 4800 = 4800 ∨ OnGrid p (bounded hi 4000 7000 4800) := by
        rcases bounded_or hi 4000 7000 4800 with e | e
        · exact Or.inr (Or.inl e)
        · rw [e]; exact Or.inr (Or.inr ghi)
      generalize bounded lo 500 1100 700 = x at *
      generalize bounded hi 4000 7000 4800 = y at *
      apply unl
      unfold multiBands
      simp only
      split
      · refine key _ x p.nyquist s5 ?_ ?_ ?_ (by linarith) bl.2 hn gl (Or.inr (Or.inr (grid_nyquist hp)))
        · show (⟨v.fft0.fftSize, _, _⟩ : FftBand) = _; rw [s1, z0]
        · show (⟨v.fft1.fftSize, _, _⟩ : FftBand) = _; rw [s2, z1]
        · show (⟨v.fft2.fftSize, _, _⟩ : FftBand) = _; rw [s3, z2]
      · refine key _ x y s5 ?_ ?_ ?_ (by linarith) bl.2 bh gl gh
        · show (⟨v.fft0.fftSize, _, _⟩ : FftBand) = _; rw [s1, z0]
        · show (⟨v.fft1.fftSize, _, _⟩ : FftBand) = _; rw [s2, z1]
        · show (⟨v.fft2.fftSize, _, _⟩ : FftBand) = _; rw [s3, z2]

theorem updates_shape {p : Params} (hp : p.Supported) : ∀ (fs : List Frame) (g g' : Guidance), (∀ f ∈ fs, Whole p f) → fs ≠ [] → Low p g → updates p fs g = some g' → Shape p g' := by
  intro fs
  induction fs with
  | nil => intro g g' _ h; exact absurd rfl h
  | cons f fs ih =>
    intro g g' hw _ low h
    obtain ⟨g1, h1, l1, s1⟩ := update_low hp (hw f (by simp)) low
    unfold updates at h
    rw [h1, Option.bind_some] at h
    cases fs with
    | nil => cases h; exact update_shape hp (hw f (by simp)) low h1
    | cons f' fs' => exact ih g1 g' (fun f hf => hw f (by simp [hf])) (by simp) l1 h

theorem reachable_shape {p : Params} (hp : p.Supported) {g : Guidance} (h : Reachable p g) : Shape p g := by
  obtain ⟨fs, h1, h2, h3⟩ := h
  exact updates_shape hp fs {} g h2 h1 ⟨le_refl _, le_refl _, le_refl _, le_refl _, le_refl _, le_refl _⟩ h3

/-! ## C67 -/

/-- The bins of the band's size that are analysed and whose phases are advanced, in every frame: R3Stretcher.cpp:1302-1327 and PhaseAdvance.h:117-118 take them from the same limits. -/
def Analysed (p : Params) (g : Guidance) (b : FftBand) (i : Nat) : Prop := ∃ lo n, PhaseAdvance.binRange ⟨p, b.fftSize⟩ g = some (lo, n) ∧ lo ≤ i ∧ i < lo + n

theorem round_le_ceil {x : Rat} (h : 0 ≤ x) {y : Rat} (hxy : x ≤ y) : roundAway x ≤ y.ceil := by
  have b : y ≤ (y.ceil : Rat) := Rat.le_ceil
  have c : 0 ≤ y.ceil := by
    have : (0 : Rat) ≤ (y.ceil : Rat) := by linarith
    exact_mod_cast this
  have := roundAway_le (x := x) (n := y.ceil.toNat) (by
    have e : ((y.ceil.toNat : Nat) : Rat) = (y.ceil : Rat) := by
      have : ((y.ceil.toNat : Nat) : Int) = y.ceil := by omega
      exact_mod_cast congrArg (Int.cast : Int → Rat) this
    rw [e]
    linarith)
  omega

theorem floor_le_round {x y : Rat} (hxy : y ≤ x) : y.floor ≤ roundAway x := by
  have a : (y.floor : Rat) ≤ y := Rat.floor_le _
  have b := (roundAway_bounds x).2
  have : (y.floor : Rat) < roundAway x + 1 := by linarith
  have : y.floor < roundAway x + 1 := by exact_mod_cast this
  omega

theorem odd_le (b : Int) : odd b ≤ b := by unfold odd; split <;> omega
theorem odd_nonneg {b : Int} (h : 0 ≤ b) : 0 ≤ odd b := by unfold odd; split <;> omega
theorem within_lt {n b : Int} : within n b < n := by unfold within; split <;> omega
theorem within_le {n b : Int} : within n b ≤ b := by unfold within; split <;> omega
theorem within_nonneg {n b : Int} (hn : 1 ≤ n) (h : 0 ≤ b) : 0 ≤ within n b := by unfold within; split <;> omega
theorem le_within {n b x : Int} (hn : x < n) (h : x ≤ b) : x ≤ within n b := by unfold within; split <;> omega

theorem binsOf_in {rate : Rat} (hr : 0 < rate) {n : Int} (hn : 1 ≤ n) {b : FftBand} (h0 : 0 ≤ b.f0) : 0 ≤ (binsOf rate n b).1 ∧ (binsOf rate n b).1 ≤ (binsOf rate n b).2 ∧ (binsOf rate n b).2 < n := by
  have hf : (0 : Rat) ≤ b.fftSize := by positivity
  have k0 : 0 ≤ binForFrequency b.f0 b.fftSize rate := by unfold binForFrequency; exact roundAway_nonneg (by positivity)
  unfold binsOf
  simp only
  have a := within_nonneg hn k0
  have b' := within_lt (n := n) (b := binForFrequency b.f0 b.fftSize rate)
  have c := within_lt (n := n) (b := odd (binForFrequency b.f1 b.fftSize rate))
  refine ⟨a, ?_, ?_⟩ <;> split <;> omega

theorem limits_full {fftSize : Nat} (he : fftSize % 2 = 0) {rate f0 : Rat} (hr : 0 < rate) : (limits fftSize rate f0 (rate / 2)).b1max = ((fftSize / 2 : Nat) : Int) := by
  have h : rate / 2 * fftSize / rate = ((fftSize / 2 : Nat) : Rat) := by
    have : (fftSize : Rat) = 2 * ((fftSize / 2 : Nat) : Rat) := by
      have : fftSize = 2 * (fftSize / 2) := by omega
      exact_mod_cast this
    rw [this]
    field_simp
  unfold limits
  simp only
  rw [h, show ((fftSize / 2 : Nat) : Rat) = (((fftSize / 2 : Nat) : Int) : Rat) by push_cast; rfl, Rat.ceil_intCast]

theorem bandRange {p : Params} (hp : p.Supported) {g : Guidance} (hs : Shape p g) : (p.single = true → PhaseAdvance.binRange ⟨p, p.classify⟩ g = some (0, p.classify / 2 + 1)) ∧
    (p.single = false → PhaseAdvance.binRange ⟨p, p.longest⟩ g = some (0, ((limits p.longest p.rate 0 1100).b1max + 1).toNat) ∧ PhaseAdvance.binRange ⟨p, p.classify⟩ g = some (0, p.classify / 2 + 1) ∧
      ∃ lo, PhaseAdvance.binRange ⟨p, p.shortest⟩ g = some (lo, p.shortest / 2 + 1 - lo) ∧ (lo : Int) = (limits p.shortest p.rate 4000 p.nyquist).b0min ∧ lo ≤ p.shortest / 2) := by
  have hr : 0 < p.rate := by have := hp.1; linarith
  have h8 := hp.1
  obtain ⟨m, m1, m2⟩ := classify_quarter hp
  have hny : p.nyquist = p.rate / 2 := rfl
  have z : ∀ n : Nat, ∀ f, (limits n p.rate 0 f).b0min = 0 := by intro n f; simp only [limits, zero_mul, zero_div]; rfl
  refine ⟨fun h => ?_, fun h => ?_⟩
  · obtain ⟨_, s2⟩ := hs.single h
    unfold PhaseAdvance.binRange PhaseAdvance.bandOf bandLimits
    simp only
    rw [s2, if_pos rfl, if_pos h, List.getElem?_cons_zero, Option.bind_some, z, hny, limits_full (by omega) hr, if_neg (by omega)]
    congr 2
  · obtain ⟨_, a, b, s0, s1, s2, _⟩ := hs.multi h
    have el : p.longest = p.classify * 2 := by unfold Params.longest; rw [h]; rfl
    have es : p.shortest = p.classify / 2 := by unfold Params.shortest; rw [h]; rfl
    have c1 : p.maxLower = 1100 := by unfold Params.maxLower; rw [h]; rfl
    have c2 : p.minHigher = 4000 := by unfold Params.minHigher; rw [h]; rfl
    have hbl : bandLimits p = [limits p.longest p.rate 0 p.maxLower, limits p.classify p.rate 0 p.nyquist, limits p.shortest p.rate p.minHigher p.nyquist] := by unfold bandLimits; rw [h]; rfl
    rw [c1, c2] at hbl
    have e0 : g.fft0.fftSize = p.longest := by rw [s0]
    have e1 : g.fft1.fftSize = p.classify := by rw [s1]
    have e2 : g.fft2.fftSize = p.shortest := by rw [s2]
    unfold PhaseAdvance.binRange PhaseAdvance.bandOf
    simp only
    rw [hbl, e0, e1, e2]
    refine ⟨?_, ?_, ?_⟩
    · obtain ⟨a1, a2, a3⟩ := limits_in (fftSize := p.longest) (f0 := 0) (f1 := 1100) hr (by omega) (le_refl _) (by norm_num) (by linarith)
      rw [z] at a2
      rw [if_pos rfl, List.getElem?_cons_zero, Option.bind_some, z, if_neg (by omega)]
      congr 2
      omega
    · rw [if_neg (by omega), if_pos rfl, List.getElem?_cons_succ, List.getElem?_cons_zero, Option.bind_some, z, hny, limits_full (by omega) hr, if_neg (by omega)]
      congr 2
    · obtain ⟨a1, a2, a3⟩ := limits_in (fftSize := p.shortest) (f0 := 4000) (f1 := p.nyquist) hr (by omega) (by norm_num) (by rw [hny]; linarith) (le_of_eq hny)
      refine ⟨(limits p.shortest p.rate 4000 p.nyquist).b0min.toNat, ?_, by omega, by omega⟩
      rw [if_neg (by omega), if_neg (by omega), if_pos rfl, List.getElem?_cons_succ, List.getElem?_cons_succ, List.getElem?_cons_zero, Option.bind_some, if_neg (by omega)]
      have := limits_full (fftSize := p.shortest) (f0 := 4000) (by omega) hr
      rw [← hny] at this
      congr 2
      omega

/-- **C67**: whatever frames came before, every bin that is synthesised from a scale has been analysed, and its phase advanced, in that frame; and the limits within which bins are scaled, converted and
zeroed are in order and inside the arrays. -/
theorem C67_analysed {p : Params} (hp : p.Supported) {g : Guidance} (h : Reachable p g) (b : FftBand) (hb : b ∈ g.fftBands) :
    (∀ i : Nat, Puts p.rate b i → Analysed p g b i) ∧
      0 ≤ (binsOf p.rate ((b.fftSize / 2 + 1 : Nat) : Int) b).1 ∧ (binsOf p.rate ((b.fftSize / 2 + 1 : Nat) : Int) b).1 ≤ (binsOf p.rate ((b.fftSize / 2 + 1 : Nat) : Int) b).2 ∧
      (binsOf p.rate ((b.fftSize / 2 + 1 : Nat) : Int) b).2 < ((b.fftSize / 2 + 1 : Nat) : Int) := by
  have hs := reachable_shape hp h
  obtain ⟨r1, r2⟩ := bandRange hp hs
  have hr : 0 < p.rate := by have := hp.1; linarith
  have hn : 4000 ≤ p.nyquist := by unfold Params.nyquist; have := hp.1; linarith
  have key : ∀ b : FftBand, 0 ≤ b.f0 → 0 ≤ (binsOf p.rate ((b.fftSize / 2 + 1 : Nat) : Int) b).1 ∧ (binsOf p.rate ((b.fftSize / 2 + 1 : Nat) : Int) b).1 ≤ (binsOf p.rate ((b.fftSize / 2 + 1 : Nat) : Int) b).2 ∧
      (binsOf p.rate ((b.fftSize / 2 + 1 : Nat) : Int) b).2 < ((b.fftSize / 2 + 1 : Nat) : Int) := fun b hb => binsOf_in hr (by omega) hb
  cases hm : p.single with
  | true =>
    obtain ⟨s1, s2⟩ := hs.single hm
    unfold Guidance.fftBands at hb
    rw [s1] at hb
    have : b = g.fft0 := by simpa using hb
    subst this
    have k := key g.fft0 (by rw [s2])
    refine ⟨fun i hi => ?_, k⟩
    have hsz : g.fft0.fftSize = p.classify := by rw [s2]
    unfold Puts at hi
    rw [hsz] at hi k
    exact ⟨0, p.classify / 2 + 1, by rw [hsz]; exact r1 hm, by omega, by omega⟩
  | false =>
    obtain ⟨s1, a, c, s2, s3, s4, a0, a1, c0, _⟩ := hs.multi hm
    obtain ⟨q1, q2, lo, q3, q4, q5⟩ := r2 hm
    unfold Guidance.fftBands at hb
    rw [s1] at hb
    have : b = g.fft0 ∨ b = g.fft1 ∨ b = g.fft2 := by simpa using hb
    rcases this with rfl | rfl | rfl
    · have k := key g.fft0 (by rw [s2])
      refine ⟨fun i hi => ?_, k⟩
      have hsz : g.fft0.fftSize = p.longest := by rw [s2]
      refine ⟨0, _, by rw [hsz]; exact q1, by omega, ?_⟩
      have hc : binForFrequency a p.longest p.rate ≤ (limits p.longest p.rate 0 1100).b1max := by
        unfold binForFrequency limits
        have hl : (0 : Rat) ≤ p.longest := by positivity
        apply round_le_ceil (by positivity)
        apply div_le_div_of_nonneg_right _ hr.le
        exact mul_le_mul_of_nonneg_right a1 hl
      obtain ⟨i1, i2⟩ := hi
      have o1 := odd_le (binForFrequency a p.longest p.rate)
      have o2 := within_le (n := ((p.longest / 2 + 1 : Nat) : Int)) (b := odd (binForFrequency a p.longest p.rate))
      unfold binsOf at i1 i2
      rw [s2] at i1 i2
      simp only at i1 i2
      split at i2 <;> omega
    · have k := key g.fft1 (by rw [s3]; exact a0)
      refine ⟨fun i hi => ?_, k⟩
      have hsz : g.fft1.fftSize = p.classify := by rw [s3]
      unfold Puts at hi
      rw [hsz] at hi k
      exact ⟨0, p.classify / 2 + 1, by rw [hsz]; exact q2, by omega, by omega⟩
    · have k := key g.fft2 (by rw [s4]; show (0 : Rat) ≤ c; linarith)
      refine ⟨fun i hi => ?_, k⟩
      have hsz : g.fft2.fftSize = p.shortest := by rw [s4]
      have hc : (limits p.shortest p.rate 4000 p.nyquist).b0min ≤ binForFrequency c p.shortest p.rate := by
        unfold binForFrequency limits
        have hl : (0 : Rat) ≤ p.shortest := by positivity
        apply floor_le_round
        apply div_le_div_of_nonneg_right _ hr.le
        exact mul_le_mul_of_nonneg_right c0 hl
      have lw := le_within (n := ((p.shortest / 2 + 1 : Nat) : Int)) (b := binForFrequency c p.shortest p.rate) (x := (lo : Int)) (by omega) (by omega)
      refine ⟨lo, _, by rw [hsz]; exact q3, ?_, ?_⟩
      · have i1 := hi.1
        rw [hsz] at i1
        unfold binsOf at i1
        rw [s4] at i1
        simp only at i1
        omega
      · have i2 := hi.2
        rw [hsz] at i2 k
        omega

/-! ## C68 -/

/-- The highest and the lowest bin that is synthesised from a band. -/
def Highest (p : Params) (b : FftBand) (i : Nat) : Prop := Puts p.rate b i ∧ ∀ k, Puts p.rate b k → k ≤ i
def Lowest (p : Params) (b : FftBand) (i : Nat) : Prop := Puts p.rate b i ∧ ∀ k, Puts p.rate b k → i ≤ k

/-- The bands join: the next bin above the last of the one is the first of the other, at the distance of the bins of the other. -/
def Joins (p : Params) (low high : FftBand) : Prop :=
  ∀ i j : Nat, Highest p low i → Lowest p high j → frequencyForBin j high.fftSize p.rate - frequencyForBin i low.fftSize p.rate = p.rate / high.fftSize

/-- **C68**, as claimed: what is synthesised from each scale joins on to what is synthesised from the next, nothing being in both. -/
def C68_statement : Prop := ∀ (p : Params) (_ : p.Supported) (_ : p.single = false) (g : Guidance) (_ : Reachable p g), Joins p g.fft0 g.fft1 ∧ Joins p g.fft1 g.fft2

theorem round_half (m : Nat) : roundAway ((m : Rat) / 2) = ((m + 1) / 2 : Nat) := by
  unfold roundAway
  rw [if_pos (by positivity)]
  have h : m + 1 = 2 * ((m + 1) / 2) + (m + 1) % 2 := by omega
  have h2 : (m + 1) % 2 < 2 := by omega
  generalize (m + 1) / 2 = q at *
  generalize (m + 1) % 2 = r at *
  have h3 : (m : Rat) + 1 = 2 * q + r := by exact_mod_cast h
  have h4 : (r : Rat) < 2 := by exact_mod_cast h2
  have h5 : (0 : Rat) ≤ r := by positivity
  obtain ⟨c1, c2⟩ := floor_bounds ((m : Rat) / 2 + 1 / 2)
  generalize ((m : Rat) / 2 + 1 / 2).floor = z at *
  have d1 : (z : Rat) < ((q + 1 : Int) : Rat) := by push_cast; linarith
  have d2 : ((q : Int) : Rat) < ((z + 1 : Int) : Rat) := by push_cast; linarith
  have d1 : z < q + 1 := by exact_mod_cast d1
  have d2 : (q : Int) < z + 1 := by exact_mod_cast d2
  omega

theorem join {p : Params} (hp : p.Supported) {N m : Nat} (hN : 0 < N) (he : N % 2 = 0) {f0 f1 : Rat} (hm : m ≤ N) :
    Joins p ⟨N * 2, f0, m * p.rate / (N * 2 : Nat)⟩ ⟨N, m * p.rate / (N * 2 : Nat), f1⟩ := by
  have hr : 0 < p.rate := by have := hp.1; linarith
  have hNq : (N : Rat) ≠ 0 := by positivity
  have e1 : binForFrequency (m * p.rate / (N * 2 : Nat)) (N * 2) p.rate = m := by
    unfold binForFrequency
    have : (m : Rat) * p.rate / (N * 2 : Nat) * (N * 2 : Nat) / p.rate = ((m : Int) : Rat) := by push_cast; field_simp
    rw [this, roundAway_int]
  have e2 : binForFrequency (m * p.rate / (N * 2 : Nat)) N p.rate = ((m + 1) / 2 : Nat) := by
    unfold binForFrequency
    have : (m : Rat) * p.rate / (N * 2 : Nat) * N / p.rate = (m : Rat) / 2 := by push_cast; field_simp
    rw [this, round_half]
  intro i j hi hj
  have hi1 := hi.1
  have hi2 := hi.2 (i + 1)
  have hj1 := hj.1
  have hj2 := hj.2 (j - 1)
  unfold Puts binsOf at hi1 hi2 hj1 hj2
  simp only at hi1 hi2 hj1 hj2
  rw [e1] at hi1 hi2
  rw [e2] at hj1 hj2
  have w1 : within ((N * 2 / 2 + 1 : Nat) : Int) (odd (m : Int)) = odd (m : Int) := by
    have := odd_le (m : Int)
    unfold within
    rw [if_neg (by omega)]
  have w2 : within ((N / 2 + 1 : Nat) : Int) (((m + 1) / 2 : Nat) : Int) = (((m + 1) / 2 : Nat) : Int) := by
    unfold within
    rw [if_neg (by omega)]
  rw [w1] at hi1 hi2
  rw [w2] at hj1 hj2
  generalize within ((N * 2 / 2 + 1 : Nat) : Int) (binForFrequency f0 (N * 2) p.rate) = x at *
  generalize within ((N / 2 + 1 : Nat) : Int) (odd (binForFrequency f1 N p.rate)) = y at *
  have k1 : (i : Int) + 1 = odd m := by
    split at hi1
    · omega
    · rename_i hx
      rw [if_neg hx] at hi2
      by_contra hc
      have := hi2 ⟨by omega, by omega⟩
      omega
  have k2 : j = (m + 1) / 2 := by
    split at hj1
    · omega
    · rename_i hy
      rw [if_neg hy] at hj2
      by_contra hc
      have := hj2 ⟨by omega, by omega⟩
      omega
  have k3 : 2 * j = i + 2 := by
    unfold odd at k1
    split at k1 <;> omega
  have k4 : 2 * (j : Rat) = i + 2 := by exact_mod_cast k3
  unfold frequencyForBin
  simp only
  push_cast
  have : (i : Rat) = 2 * j - 2 := by linarith
  rw [this]
  field_simp
  ring

/-- **C68**, where the limit is not one of the fixed ones (500 and 4000 Hz at unity in real time, 700 and 4800 Hz when no valley is near, as in the first frame and the one after silence), the scales join
exactly, whatever frames came before.  What is missing: those limits do not fall on a bin, and the scales overlap or leave a gap then. -/
theorem C68_partial {p : Params} (hp : p.Supported) (hm : p.single = false) {g : Guidance} (h : Reachable p g) :
    (g.fft0.f1 ≠ 500 → g.fft0.f1 ≠ 700 → Joins p g.fft0 g.fft1) ∧ (g.fft1.f1 ≠ 4000 → g.fft1.f1 ≠ 4800 → Joins p g.fft1 g.fft2) := by
  obtain ⟨s1, a, b, s2, s3, s4, a0, a1, b0, ga, gb⟩ := (reachable_shape hp h).multi hm
  obtain ⟨q, q1, q2⟩ := classify_quarter hp
  have el : p.longest = p.classify * 2 := by unfold Params.longest; rw [hm]; rfl
  have es : p.shortest = p.classify / 2 := by unfold Params.shortest; rw [hm]; rfl
  rw [s2, s3, s4]
  refine ⟨fun h1 h2 => ?_, fun h1 h2 => ?_⟩
  · rcases ga with e | e | ⟨m, hm, e⟩
    · exact absurd e h1
    · exact absurd e h2
    · have := join hp (N := p.classify) (m := 2 * m) (f0 := 0) (f1 := b) (by omega) (by omega) (by omega)
      have ea : a = ((2 * m : Nat) : Rat) * p.rate / (p.classify * 2 : Nat) := by
        rw [e]
        unfold frequencyForBin
        have : (p.classify : Rat) ≠ 0 := by
          have : p.classify ≠ 0 := by omega
          exact_mod_cast this
        push_cast
        field_simp
      rw [← ea] at this
      rw [el]
      exact this
  · rcases gb with e | e | ⟨m, hm, e⟩
    · exact absurd e h1
    · exact absurd e h2
    · have := join hp (N := p.shortest) (m := m) (f0 := a) (f1 := p.nyquist) (by omega) (by omega) (by omega)
      have ez : p.shortest * 2 = p.classify := by omega
      have ea : b = (m : Rat) * p.rate / (p.shortest * 2 : Nat) := by
        rw [e, ez]
        rfl
      rw [← ea, ez] at this
      exact this

theorem highest_of {p : Params} {b : FftBand} {l h : Int} (e : binsOf p.rate ((b.fftSize / 2 + 1 : Nat) : Int) b = (l, h)) {i : Nat} (h1 : l ≤ i) (h2 : (i : Int) + 1 = h) : Highest p b i := by
  unfold Highest Puts
  rw [e]
  exact ⟨⟨h1, by show (i : Int) < h; omega⟩, fun k hk => by have := hk.2; simp only at this; omega⟩

theorem lowest_of {p : Params} {b : FftBand} {l h : Int} (e : binsOf p.rate ((b.fftSize / 2 + 1 : Nat) : Int) b = (l, h)) {i : Nat} (h1 : l = i) (h2 : (i : Int) < h) : Lowest p b i := by
  unfold Lowest Puts
  rw [e]
  exact ⟨⟨by show l ≤ i; omega, h2⟩, fun k hk => by have := hk.1; simp only at this; omega⟩

/-- In the first frame at 44100 Hz 4780 Hz is synthesised both as bin 222 of the classification scale and as bin 111 of the shortest. -/
theorem C68_violated : ¬ C68_statement := by
  intro h
  have hp : ({ rate := 44100 } : Params).Supported := by unfold Params.Supported; constructor <;> norm_num
  have hw : Whole { rate := 44100 } (Guide.Ex.flat 1025) := Guide.Ex.flat_whole (by decide +kernel)
  have k : ((updates { rate := 44100 } [Guide.Ex.flat 1025] {}).map fun g => (g.fft1, g.fft2)) = some (⟨2048, 700, 4800⟩, ⟨1024, 4800, 22050⟩) := by decide +kernel
  rw [Option.map_eq_some_iff] at k
  obtain ⟨g, hg, e⟩ := k
  have hr : Reachable { rate := 44100 } g := ⟨[Guide.Ex.flat 1025], by simp, fun f hf => by rw [List.mem_singleton.mp hf]; exact hw, hg⟩
  have e1 : g.fft1 = ⟨2048, 700, 4800⟩ := congrArg Prod.fst e
  have e2 : g.fft2 = ⟨1024, 4800, 22050⟩ := congrArg Prod.snd e
  have b1 : binsOf ({ rate := 44100 } : Params).rate (((⟨2048, 700, 4800⟩ : FftBand).fftSize / 2 + 1 : Nat) : Int) ⟨2048, 700, 4800⟩ = (33, 223) := by decide +kernel
  have b2 : binsOf ({ rate := 44100 } : Params).rate (((⟨1024, 4800, 22050⟩ : FftBand).fftSize / 2 + 1 : Nat) : Int) ⟨1024, 4800, 22050⟩ = (111, 511) := by decide +kernel
  have hb1 := highest_of b1 (i := 222) (by norm_num) (by norm_num)
  have hb2 := lowest_of b2 (i := 111) (by norm_num) (by norm_num)
  have := (h { rate := 44100 } hp rfl g hr).2 222 111 (by rw [e1]; exact hb1) (by rw [e2]; exact hb2)
  rw [e1, e2] at this
  revert this
  decide +kernel

/-- After two frames at 44100 Hz the limits are on bins. -/
example : ∃ g, Reachable { rate := 44100 } g ∧ g.fft0.f1 ≠ 500 ∧ g.fft0.f1 ≠ 700 ∧ g.fft1.f1 ≠ 4000 ∧ g.fft1.f1 ≠ 4800 ∧ Highest { rate := 44100 } g.fft1 222 ∧ Lowest { rate := 44100 } g.fft2 112 := by
  have hw : Whole { rate := 44100 } (Guide.Ex.flat 1025) := Guide.Ex.flat_whole (by decide +kernel)
  have k : ((updates { rate := 44100 } [Guide.Ex.flat 1025, Guide.Ex.flat 1025] {}).map fun g => (g.fft0, g.fft1, g.fft2)) =
      some (⟨4096, 0, frequencyForBin 33 2048 44100⟩, ⟨2048, frequencyForBin 33 2048 44100, frequencyForBin 223 2048 44100⟩, ⟨1024, frequencyForBin 223 2048 44100, 22050⟩) := by decide +kernel
  rw [Option.map_eq_some_iff] at k
  obtain ⟨g, hg, e⟩ := k
  obtain ⟨e0, e⟩ := Prod.mk.inj e
  obtain ⟨e1, e2⟩ := Prod.mk.inj e
  have b1 : binsOf ({ rate := 44100 } : Params).rate (((⟨2048, frequencyForBin 33 2048 44100, frequencyForBin 223 2048 44100⟩ : FftBand).fftSize / 2 + 1 : Nat) : Int) ⟨2048, frequencyForBin 33 2048 44100, frequencyForBin 223 2048 44100⟩ = (33, 223) := by decide +kernel
  have b2 : binsOf ({ rate := 44100 } : Params).rate (((⟨1024, frequencyForBin 223 2048 44100, 22050⟩ : FftBand).fftSize / 2 + 1 : Nat) : Int) ⟨1024, frequencyForBin 223 2048 44100, 22050⟩ = (112, 511) := by decide +kernel
  have hb1 := highest_of b1 (i := 222) (by norm_num) (by norm_num)
  have hb2 := lowest_of b2 (i := 112) (by norm_num) (by norm_num)
  refine ⟨g, ⟨[Guide.Ex.flat 1025, Guide.Ex.flat 1025], by simp, ?_, hg⟩, ?_⟩
  · intro f hf
    have : f = Guide.Ex.flat 1025 := by simpa using hf
    rw [this]
    exact hw
  · rw [e0, e1, e2]
    exact ⟨by decide +kernel, by decide +kernel, by decide +kernel, by decide +kernel, hb1, hb2⟩

end Verif.Synth
