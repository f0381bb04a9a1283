import Verif.Guide
import Verif.MathMiscProps
/-!
# Frequency bands: C35
-/
namespace Verif.Guide
open Verif.Round

/-- The updates of a channel's guidance, frame by frame. -/
def updates (p : Params) : List Frame → Guidance → Option Guidance
  | [], g => some g
  | f :: fs, g => (updateGuidance p f g).bind (updates p fs)

/-- Intervals that follow on one another from `a` to `b`. -/
def Chain : Rat → List (Rat × Rat) → Rat → Prop
  | a, [], b => a = b
  | a, (x, y) :: l, b => x = a ∧ x ≤ y ∧ Chain y l b

/-- The bands, both for the FFTs and for phase locking, cover the spectrum. -/
def Tiles (p : Params) (g : Guidance) : Prop :=
  g.fftBands ≠ [] ∧ Chain 0 (g.fftBands.map fun b => (b.f0, b.f1)) p.nyquist ∧
  g.lockBands ≠ [] ∧ Chain 0 (g.lockBands.map fun b => (b.f0, b.f1)) p.nyquist

/-- The arrays are of the size of the FFT. -/
structure Whole (p : Params) (f : Frame) : Prop where
  mags : p.classify / 2 + 1 ≤ f.mags.length
  prev : p.classify / 2 + 1 ≤ f.prev.length
  next : p.classify / 2 + 1 ≤ f.next.length

/-- The rates the engine works with (R3Stretcher.h:384-397). -/
def Params.Supported (p : Params) : Prop := 8000 ≤ p.rate ∧ p.rate ≤ 192000

/-- **C35**, as claimed: after any sequence of frames no array has been read out of range, and the bands are
contiguous, in order, and cover the range from 0 to half the sample rate. -/
def C35_statement : Prop := ∀ (p : Params) (_ : p.Supported) (fs : List Frame) (_ : ∀ f ∈ fs, Whole p f) (_ : fs ≠ []),
  ∃ g, updates p fs {} = some g ∧ Tiles p g

/-! ## Reading within the arrays -/

theorem classify_ge (p : Params) : 1024 ≤ p.classify := by
  unfold Params.classify
  simp only
  split <;> omega

theorem sumTo_some (l : List Rat) : ∀ b, b < l.length → ∃ x, sumTo l b = some x := by
  intro b
  induction b with
  | zero => intro _; exact ⟨0, rfl⟩
  | succ b ih =>
    intro h
    obtain ⟨x, hx⟩ := ih (by omega)
    refine ⟨x + l[b + 1], ?_⟩
    unfold sumTo
    rw [hx, List.getElem?_eq_getElem h]
    rfl

theorem roundAway_le {x : Rat} {n : Nat} (h : x + 1 / 2 < n + 1) : roundAway x ≤ n := by
  have := (roundAway_bounds x).1
  have h2 : (roundAway x : Rat) < ((n : Int) : Rat) + 1 := by push_cast; linarith
  have h3 : roundAway x < (n : Int) + 1 := by exact_mod_cast h2
  omega

/-- The bin of 200 Hz is in the array. -/
theorem kickBin {p : Params} (h : p.Supported) : (binForFrequency 200 p.classify p.rate).toNat ≤ p.classify / 2 := by
  have hc := classify_ge p
  have h0 : (0 : Rat) < p.rate := by have := h.1; linarith
  have hle : (200 : Rat) * p.classify / p.rate ≤ p.classify / 40 := by
    rw [div_le_div_iff₀ h0 (by norm_num)]
    have := h.1
    have hn : (0 : Rat) ≤ p.classify := by positivity
    nlinarith
  have : binForFrequency 200 p.classify p.rate ≤ ((p.classify / 2 : Nat) : Int) := by
    unfold binForFrequency
    apply roundAway_le
    have h1 : ((p.classify : Nat) : Rat) ≤ 2 * ((p.classify / 2 : Nat) : Rat) + 1 := by
      have : p.classify ≤ 2 * (p.classify / 2) + 1 := by omega
      exact_mod_cast this
    have h2 : (1024 : Rat) ≤ p.classify := by exact_mod_cast hc
    linarith
  omega

theorem kickTest_some {p : Params} (h : p.Supported) {f : Frame} (hw : Whole p f) : ∃ k, kickTest p f = some k := by
  have hk := kickBin h
  have key : ∀ a b : List Rat, p.classify / 2 + 1 ≤ a.length → p.classify / 2 + 1 ≤ b.length → ∃ x, checkPotentialKick p a b = some x := by
    intro a b ha hb
    obtain ⟨x, hx⟩ := sumTo_some a _ (show (binForFrequency 200 p.classify p.rate).toNat < a.length by omega)
    obtain ⟨y, hy⟩ := sumTo_some b _ (show (binForFrequency 200 p.classify p.rate).toNat < b.length by omega)
    unfold checkPotentialKick
    simp only [hx, hy]
    exact ⟨_, rfl⟩
  obtain ⟨x, hx⟩ := key _ _ hw.mags hw.prev
  obtain ⟨y, hy⟩ := key _ _ hw.next hw.mags
  unfold kickTest
  simp only [hx, hy]
  exact ⟨_, rfl⟩

theorem downhill_some {l : List Rat} {n b : Int} (hl : n + 1 ≤ l.length) (h0 : 0 ≤ b) (h1 : b ≤ n) :
    ∃ r, downhill l n b = some r ∧ ∀ b', r = some b' → 0 ≤ b' ∧ b' ≤ n := by
  have get : ∀ i : Int, 0 ≤ i → i ≤ n → ∃ x, at? l i = some x := by
    intro i hi hn
    unfold at?
    rw [if_neg (by omega), List.getElem?_eq_getElem (by omega)]
    exact ⟨_, rfl⟩
  obtain ⟨here, hh⟩ := get b h0 h1
  have hup : ∃ u, isLower l here (decide (b < n)) (b + 1) = some u ∧ (u = true → b < n) := by
    unfold isLower
    split
    · rename_i h
      rw [decide_eq_true_eq] at h
      obtain ⟨x, hx⟩ := get (b + 1) (by omega) (by omega)
      rw [hx]
      exact ⟨_, rfl, fun _ => h⟩
    · exact ⟨false, rfl, fun h => by cases h⟩
  have hdown : ∃ u, isLower l here (decide (b > 0)) (b - 1) = some u ∧ (u = true → b > 0) := by
    unfold isLower
    split
    · rename_i h
      rw [decide_eq_true_eq] at h
      obtain ⟨x, hx⟩ := get (b - 1) (by omega) (by omega)
      rw [hx]
      exact ⟨_, rfl, fun _ => h⟩
    · exact ⟨false, rfl, fun h => by cases h⟩
  obtain ⟨u, hu, hu'⟩ := hup
  obtain ⟨d, hd, hd'⟩ := hdown
  unfold downhill
  refine ⟨if u then some (b + 1) else if d then some (b - 1) else none, ?_, ?_⟩
  · simp only [hh, Option.bind_eq_bind, Option.bind_some, hu, hd]
    rfl
  · intro b' hb'
    cases u
    · cases d
      · cases hb'
      · simp at hb'; have := hd' rfl; omega
    · simp at hb'; have := hu' rfl; omega

theorem descend_some {l : List Rat} {n : Int} (hl : n + 1 ≤ l.length) :
    ∀ (k : Nat) (b : Int), 0 ≤ b → b ≤ n → ∃ r, descend l n k b = some r ∧ 0 ≤ r ∧ r ≤ n := by
  intro k
  induction k with
  | zero => intro b h0 h1; exact ⟨b, rfl, h0, h1⟩
  | succ k ih =>
    intro b h0 h1
    obtain ⟨r, hr, hb⟩ := downhill_some hl h0 h1
    unfold descend
    rw [hr]
    cases r with
    | none => exact ⟨b, rfl, h0, h1⟩
    | some b' =>
      obtain ⟨b1, b2⟩ := hb b' rfl
      obtain ⟨q, hq, q1, q2⟩ := ih b' b1 b2
      exact ⟨q, hq, q1, q2⟩

/-- A frequency within the spectrum. -/
def Inside (p : Params) (x : Rat) : Prop := 0 ≤ x ∧ x ≤ p.nyquist

theorem descendToValley_some {p : Params} (hp : p.Supported) {f : Rat} (hf : Inside p f) {l : List Rat} (hl : p.classify / 2 + 1 ≤ l.length) :
    ∃ r, descendToValley p f l = some r ∧ Inside p r := by
  unfold descendToValley
  split
  · exact ⟨f, rfl, hf⟩
  · have h0 : (0 : Rat) < p.rate := by have := hp.1; linarith
    simp only
    have hb0 : 0 ≤ binForFrequency f p.classify p.rate := by
      unfold binForFrequency
      apply roundAway_nonneg
      have := hf.1
      positivity
    obtain ⟨r, hr, r0, r1⟩ := descend_some (l := l) (n := ((p.classify / 2 : Nat) : Int)) (by exact_mod_cast hl) 3
      (if binForFrequency f p.classify p.rate > ((p.classify / 2 : Nat) : Int) then ((p.classify / 2 : Nat) : Int)
        else binForFrequency f p.classify p.rate) (by split <;> omega) (by split <;> omega)
    rw [hr]
    refine ⟨_, rfl, ?_⟩
    have hcpos : (0 : Rat) < p.classify := by have := classify_ge p; have : 0 < p.classify := by omega
                                              exact_mod_cast this
    have hr0 : (0 : Rat) ≤ r := by exact_mod_cast r0
    have hr1 : (r : Rat) ≤ p.classify / 2 := by
      have h1 : (r : Rat) ≤ (((p.classify / 2 : Nat) : Int) : Rat) := by exact_mod_cast r1
      have h2 : 2 * ((p.classify / 2 : Nat) : Rat) ≤ p.classify := by
        have : 2 * (p.classify / 2) ≤ p.classify := by omega
        exact_mod_cast this
      rw [Int.cast_natCast] at h1
      linarith
    unfold Inside frequencyForBin Params.nyquist
    constructor
    · positivity
    · rw [div_le_div_iff₀ hcpos (by norm_num)]
      nlinarith

/-! ## The invariant -/

/-- What holds of the guidance in multi-window mode. -/
structure Ok (p : Params) (g : Guidance) : Prop where
  a : Inside p g.fft0.f1
  b : Inside p g.fft1.f1
  l0 : g.lock0.f0 = 0
  l0' : 0 ≤ g.lock0.f1
  l1 : g.lock1.f0 = g.lock0.f1
  l1' : g.lock0.f1 ≤ g.lock1.f1
  l2 : g.lock2.f0 = g.lock1.f1
  l2' : g.lock1.f1 ≤ g.lock2.f1
  l3 : g.lock3.f0 = g.lock2.f1
  l3' : g.lock2.f1 ≤ p.nyquist

theorem tiles_multi {p : Params} {g : Guidance} (h1 : g.fftBandCount = 3) (h2 : g.lockBandCount = 4) {a b : Rat}
    (h3 : g.fft0.f0 = 0 ∧ g.fft0.f1 = a) (h4 : g.fft1.f0 = a ∧ g.fft1.f1 = b) (h5 : g.fft2.f0 = b ∧ g.fft2.f1 = p.nyquist)
    (ha : 0 ≤ a) (hab : a ≤ b) (hb : b ≤ p.nyquist) (ok : Ok p g) (h6 : g.lock3.f1 = p.nyquist) : Tiles p g := by
  unfold Tiles Guidance.fftBands Guidance.lockBands
  rw [h1, h2]
  refine ⟨by simp, ?_, by simp, ?_⟩
  · simp only [List.take, List.map, Chain]
    rw [h3.1, h3.2, h4.1, h4.2, h5.1, h5.2]
    exact ⟨rfl, ha, rfl, hab, rfl, hb, rfl⟩
  · simp only [List.take, List.map, Chain]
    rw [ok.l0, ok.l1, ok.l2, ok.l3, h6]
    exact ⟨rfl, ok.l0', rfl, ok.l1', rfl, ok.l2', rfl, ok.l3', rfl⟩

theorem bounded_in {x lo hi d : Rat} (hd1 : lo ≤ d) (hd2 : d ≤ hi) : lo ≤ bounded x lo hi d ∧ bounded x lo hi d ≤ hi := by
  unfold bounded
  split
  · exact ⟨hd1, hd2⟩
  · rename_i h
    push Not at h
    exact ⟨h.2, h.1⟩

theorem bounded_le {x lo hi d n : Rat} (hd : d ≤ n) (hx : x ≤ n) : bounded x lo hi d ≤ n := by
  unfold bounded
  split
  · exact hd
  · exact hx

theorem withBands_ok {p : Params} {g : Guidance} (ok : Ok p g) {a b top : Rat} (ha : Inside p a) (hb : Inside p b) : Ok p (withBands a b top g) :=
  ⟨ha, hb, ok.l0, ok.l0', ok.l1, ok.l1', ok.l2, ok.l2', ok.l3, ok.l3'⟩

/-- An update in multi-window mode. -/
theorem update_multi {p : Params} (hm : p.single = false) (hp : p.Supported) (hr : 9600 ≤ p.rate) {f : Frame} (hw : Whole p f) {g : Guidance} (ok : Ok p g) :
    ∃ g', updateGuidance p f g = some g' ∧ Ok p g' ∧ Tiles p g' := by
  have hn : 4800 ≤ p.nyquist := by unfold Params.nyquist; linarith
  have hnn : (0 : Rat) ≤ p.nyquist := by linarith
  unfold updateGuidance
  simp only
  have hsing : (if p.single = true then singleBands p f.ratio f.outhop (cleared g) else multiSizes p (cleared g)) = multiSizes p (cleared g) := by
    rw [hm]; rfl
  rw [hsing]
  have ok1 : Ok p (multiSizes p (cleared g)) := ⟨ok.a, ok.b, ok.l0, ok.l0', ok.l1, ok.l1', ok.l2, ok.l2', ok.l3, ok.l3'⟩
  have e1 : (multiSizes p (cleared g)).fftBandCount = 3 := rfl
  have e2 : (multiSizes p (cleared g)).lockBandCount = 4 := rfl
  have e3 : (multiSizes p (cleared g)).lock3.f1 = p.nyquist := rfl
  generalize multiSizes p (cleared g) = u at *
  have silent : Ok p (updateForSilence p u) ∧ Tiles p (updateForSilence p u) := by
    unfold updateForSilence
    rw [hm, if_neg (by simp)]
    have o : Ok p { withBands 0 p.nyquist p.nyquist u with phaseReset := ⟨true, 0, p.nyquist⟩ } := by
      have := withBands_ok ok1 (top := p.nyquist) (a := 0) (b := p.nyquist) ⟨le_refl _, hnn⟩ ⟨hnn, le_refl _⟩
      exact ⟨this.a, this.b, this.l0, this.l0', this.l1, this.l1', this.l2, this.l2', this.l3, this.l3'⟩
    exact ⟨o, tiles_multi e1 e2 ⟨rfl, rfl⟩ ⟨rfl, rfl⟩ ⟨rfl, rfl⟩ (le_refl _) hnn (le_refl _) o e3⟩
  split
  · exact ⟨_, rfl, silent.1, silent.2⟩
  split
  · refine ⟨_, rfl, ?_⟩
    unfold updateForUnity
    split
    · exact silent
    · rw [hm, if_neg (by simp)]
      have c1 : p.minLower = 500 := by unfold Params.minLower; rw [hm]; rfl
      have c2 : p.minHigher = 4000 := by unfold Params.minHigher; rw [hm]; rfl
      have w := withBands_ok ok1 (top := p.nyquist) (a := p.minLower) (b := p.minHigher)
        ⟨by rw [c1]; norm_num, by rw [c1]; linarith⟩ ⟨by rw [c2]; norm_num, by rw [c2]; linarith⟩
      refine ⟨⟨w.a, w.b, w.l0, w.l0', w.l1, w.l1', w.l2, w.l2', w.l3, w.l3'⟩, tiles_multi (a := p.minLower) (b := p.minHigher) e1 e2 ⟨rfl, rfl⟩ ⟨rfl, rfl⟩ ⟨rfl, rfl⟩
        (by rw [c1]; norm_num) (by rw [c1, c2]; norm_num) (by rw [c2]; linarith) ⟨w.a, w.b, w.l0, w.l0', w.l1, w.l1', w.l2, w.l2', w.l3, w.l3'⟩ e3⟩
  · unfold updateNormal
    simp only
    rw [hm, if_neg (by simp)]
    obtain ⟨kicks, hk⟩ := kickTest_some hp hw
    rw [hk]
    simp only [Option.bind_eq_bind, Option.bind_some]
    generalize hv : setRanges f (setKick f kicks { u with channelLock := ⟨true, 0, if f.tighterChannelLock = true then p.nyquist else 600⟩ }) = v
    have same : v.fft0 = u.fft0 ∧ v.fft1 = u.fft1 ∧ v.fft2 = u.fft2 ∧ v.fftBandCount = 3 ∧ v.lockBandCount = 4 := by
      rw [← hv]
      unfold setRanges setKick
      split
      · exact ⟨rfl, rfl, rfl, e1, e2⟩
      · split <;> exact ⟨rfl, rfl, rfl, e1, e2⟩
    obtain ⟨s1, s2, s3, s4, s5⟩ := same
    obtain ⟨lo, hlo, ilo⟩ := descendToValley_some hp (f := v.fft0.f1) (by rw [s1]; exact ok1.a) hw.mags
    obtain ⟨hi, hhi, ihi⟩ := descendToValley_some hp (f := v.fft1.f1) (by rw [s2]; exact ok1.b) hw.mags
    rw [hlo, hhi]
    simp only [Option.bind_some, Option.pure_def, Option.map_some]
    refine ⟨_, rfl, ?_⟩
    have c : p.minLower = 500 ∧ p.maxLower = 1100 ∧ p.defaultLower = 700 ∧ p.minHigher = 4000 ∧ p.maxHigher = 7000 ∧ p.defaultHigher = 4800 := by
      unfold Params.minLower Params.maxLower Params.defaultLower Params.minHigher Params.maxHigher Params.defaultHigher
      rw [hm]
      exact ⟨rfl, rfl, rfl, rfl, rfl, rfl⟩
    obtain ⟨c1, c2, c3, c4, c5, c6⟩ := c
    rw [c1, c2, c3, c4, c5, c6]
    have bl := bounded_in (x := lo) (lo := 500) (hi := 1100) (d := 700) (by norm_num) (by norm_num)
    have bh := bounded_in (x := hi) (lo := 4000) (hi := 7000) (d := 4800) (by norm_num) (by norm_num)
    have bn := bounded_le (x := hi) (lo := 4000) (hi := 7000) (d := 4800) hn ihi.2
    generalize bounded lo 500 1100 700 = x at *
    generalize bounded hi 4000 7000 4800 = y at *
    have hmid : x ≤ max x 1600 ∧ max x 1600 ≤ y := ⟨le_max_left _ _, max_le (by linarith) (by linarith)⟩
    have unl : ∀ w : Guidance, Ok p w → Tiles p w → Ok p (unlock p f.ratio w) ∧ Tiles p (unlock p f.ratio w) := by
      intro w ow tw
      unfold unlock
      split
      · exact ⟨⟨ow.a, ow.b, ow.l0, ow.l0', ow.l1, ow.l1', ow.l2, ow.l2', ow.l3, ow.l3'⟩, tw⟩
      · exact ⟨ow, tw⟩
    apply unl
    all_goals
      have o : Ok p (multiBands p f x y v) := by
        unfold multiBands
        simp only
        split
        · exact ⟨⟨by show (0:Rat) ≤ x; linarith, by show x ≤ _; linarith⟩, ⟨hnn, le_refl _⟩, rfl, by show (0:Rat) ≤ x; linarith, rfl, hmid.1, rfl, hmid.2, rfl, bn⟩
        · exact ⟨⟨by show (0:Rat) ≤ x; linarith, by show x ≤ _; linarith⟩, ⟨by show (0:Rat) ≤ y; linarith, bn⟩, rfl, by show (0:Rat) ≤ x; linarith, rfl, hmid.1, rfl, hmid.2, rfl, bn⟩
    · exact o
    · have q1 : (multiBands p f x y v).fftBandCount = 3 := by
        unfold multiBands; simp only; split <;> exact s4
      have q2 : (multiBands p f x y v).lockBandCount = 4 := by
        unfold multiBands; simp only; split <;> exact s5
      have q3 : (multiBands p f x y v).lock3.f1 = p.nyquist := rfl
      by_cases ho : f.outhop > 256
      · refine tiles_multi q1 q2 (a := x) (b := p.nyquist) ?_ ?_ ?_ (by linarith) (by linarith) (le_refl _) o q3
        · unfold multiBands; simp only; rw [if_pos ho]; exact ⟨rfl, rfl⟩
        · unfold multiBands; simp only; rw [if_pos ho]; exact ⟨rfl, rfl⟩
        · unfold multiBands; simp only; rw [if_pos ho]; exact ⟨rfl, rfl⟩
      · refine tiles_multi q1 q2 (a := x) (b := y) ?_ ?_ ?_ (by linarith) (by linarith) bn o q3
        · unfold multiBands; simp only; rw [if_neg ho]; exact ⟨rfl, rfl⟩
        · unfold multiBands; simp only; rw [if_neg ho]; exact ⟨rfl, rfl⟩
        · unfold multiBands; simp only; rw [if_neg ho]; exact ⟨rfl, rfl⟩

/-- An update in single-window mode. -/
theorem update_single {p : Params} (hm : p.single = true) (hp : p.Supported) (f : Frame) (g : Guidance) :
    ∃ g', updateGuidance p f g = some g' ∧ Tiles p g' := by
  have hn : 4000 ≤ p.nyquist := by unfold Params.nyquist; have := hp.1; linarith
  -- nothing after `singleBands` touches the bands
  have key : ∀ w : Guidance, w.fftBandCount = 1 → w.lockBandCount = 3 → w.fft0 = ⟨p.classify, 0, p.nyquist⟩ →
      w.lock0 = (singleBands p f.ratio f.outhop (cleared g)).lock0 → w.lock1 = (singleBands p f.ratio f.outhop (cleared g)).lock1 →
      w.lock2 = (singleBands p f.ratio f.outhop (cleared g)).lock2 → Tiles p w := by
    intro w w1 w2 w3 w4 w5 w6
    unfold Tiles Guidance.fftBands Guidance.lockBands
    rw [w1, w2, w3, w4, w5, w6]
    refine ⟨by simp, ?_, by simp, ?_⟩
    · exact ⟨rfl, by show (0 : Rat) ≤ p.nyquist; linarith, rfl⟩
    · have c1 : cap p.nyquist 0 = 0 := by unfold cap; rw [if_neg (by linarith)]
      have c2 : cap p.nyquist 1600 = 1600 := by unfold cap; rw [if_neg (by linarith)]
      have c3 : 1600 ≤ cap p.nyquist 7000 ∧ cap p.nyquist 7000 ≤ p.nyquist := by
        unfold cap
        split
        · exact ⟨by linarith, le_refl _⟩
        · exact ⟨by norm_num, by linarith⟩
      have c4 : cap p.nyquist p.nyquist = p.nyquist := by unfold cap; rw [if_neg (lt_irrefl _)]
      simp only [singleBands, c1, c2, c4]
      exact ⟨rfl, by show (0 : Rat) ≤ 1600; norm_num, rfl, c3.1, rfl, c3.2, rfl⟩
  unfold updateGuidance
  simp only
  have hsing : (if p.single = true then singleBands p f.ratio f.outhop (cleared g) else multiSizes p (cleared g)) = singleBands p f.ratio f.outhop (cleared g) := by
    rw [hm]; rfl
  rw [hsing]
  have silent : Tiles p (updateForSilence p (singleBands p f.ratio f.outhop (cleared g))) := by
    unfold updateForSilence
    rw [hm, if_pos rfl]
    exact key _ rfl rfl rfl rfl rfl rfl
  split
  · exact ⟨_, rfl, silent⟩
  split
  · refine ⟨_, rfl, ?_⟩
    unfold updateForUnity
    split
    · exact silent
    · exact key _ rfl rfl rfl rfl rfl rfl
  · unfold updateNormal
    simp only
    rw [hm, if_pos rfl]
    refine ⟨_, rfl, ?_⟩
    unfold unlock
    split <;> exact key _ rfl rfl rfl rfl rfl rfl

/-- **C35**, in single-window mode, and in multi-window mode from 9600 Hz. -/
theorem C35_partial {p : Params} (hp : p.Supported) (hr : p.single = true ∨ 9600 ≤ p.rate) (fs : List Frame) (hw : ∀ f ∈ fs, Whole p f) (hne : fs ≠ []) :
    ∃ g, updates p fs {} = some g ∧ Tiles p g := by
  cases hm : p.single with
  | true =>
    have key : ∀ (fs : List Frame) (g : Guidance), fs ≠ [] → ∃ g', updates p fs g = some g' ∧ Tiles p g' := by
      intro fs
      induction fs with
      | nil => intro g h; exact absurd rfl h
      | cons f fs ih =>
        intro g _
        obtain ⟨g1, h1, t1⟩ := update_single hm hp f g
        unfold updates
        rw [h1]
        cases fs with
        | nil => exact ⟨g1, rfl, t1⟩
        | cons f' fs' => exact ih g1 (by simp)
    exact key fs {} hne
  | false =>
    have hr' : 9600 ≤ p.rate := by
      rcases hr with h | h
      · rw [hm] at h; cases h
      · exact h
    have key : ∀ (fs : List Frame) (g : Guidance), (∀ f ∈ fs, Whole p f) → Ok p g → fs ≠ [] → ∃ g', updates p fs g = some g' ∧ Tiles p g' := by
      intro fs
      induction fs with
      | nil => intro g _ _ h; exact absurd rfl h
      | cons f fs ih =>
        intro g hw ok _
        obtain ⟨g1, h1, ok1, t1⟩ := update_multi hm hp hr' (hw f (by simp)) ok
        unfold updates
        rw [h1]
        cases fs with
        | nil => exact ⟨g1, rfl, t1⟩
        | cons f' fs' => exact ih g1 (fun f hf => hw f (by simp [hf])) ok1 (by simp)
    have hn : (0 : Rat) ≤ p.nyquist := by unfold Params.nyquist; linarith
    exact key fs {} hw ⟨⟨le_refl _, hn⟩, ⟨le_refl _, hn⟩, rfl, le_refl _, rfl, le_refl _, rfl, le_refl _, rfl, hn⟩ hne

namespace Ex
/-- A frame with the same magnitude everywhere. -/
def flat (n : Nat) : Frame := { ratio := 3 / 2, outhop := 128, mags := List.replicate n 1, prev := List.replicate n 1, next := List.replicate n 1, mean := 1 }

theorem flat_whole {p : Params} {n : Nat} (h : p.classify / 2 + 1 ≤ n) : Whole p (flat n) :=
  ⟨by unfold flat; rw [List.length_replicate]; exact h, by unfold flat; rw [List.length_replicate]; exact h,
    by unfold flat; rw [List.length_replicate]; exact h⟩
end Ex

/-- Two frames at 44100 Hz. -/
example : ∃ g, updates { rate := 44100 } [Ex.flat 1025, Ex.flat 1025] {} = some g ∧ Tiles { rate := 44100 } g :=
  C35_partial (by unfold Params.Supported; constructor <;> norm_num) (Or.inr (by norm_num)) _ (by
    have : ({ rate := 44100 } : Params).classify = 2048 := by decide +kernel
    have hw : Whole { rate := 44100 } (Ex.flat 1025) := Ex.flat_whole (by rw [this])
    intro f hf
    rcases List.mem_cons.mp hf with rfl | hf
    · exact hw
    · rw [List.mem_singleton.mp hf]; exact hw) (by simp)

/-- At 8000 Hz the second band ends at 4800 Hz, where the third begins, though half the rate is 4000. -/
theorem C35_violated : ¬ C35_statement := by
  intro h
  have hc : ({ rate := 8000 } : Params).classify = 1024 := by decide +kernel
  obtain ⟨g, hg, t⟩ := h { rate := 8000 } (by unfold Params.Supported; constructor <;> norm_num) [Ex.flat 513]
    (by intro f hf; rw [List.mem_singleton.mp hf]; exact Ex.flat_whole (by rw [hc])) (by simp)
  have key : (updates { rate := 8000 } [Ex.flat 513] {}).map (fun g => (g.fftBandCount, g.fft2.f0, g.fft2.f1)) = some (3, 4800, 4000) := by decide +kernel
  rw [hg] at key
  simp only [Option.map_some, Option.some.injEq, Prod.mk.injEq] at key
  obtain ⟨k1, k2, k3⟩ := key
  obtain ⟨_, t2, _⟩ := t
  unfold Guidance.fftBands at t2
  rw [k1] at t2
  simp only [List.take, List.map, Chain] at t2
  rw [k2, k3] at t2
  have := t2.2.2.2.2.2.1
  norm_num at this

end Verif.Guide
