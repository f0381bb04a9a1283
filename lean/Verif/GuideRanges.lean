import Verif.GuideProps
/-!
# Phase resets at unity, kicks, and what a reset leaves: C59, C60, C61
-/
namespace Verif.Guide
open Verif.Round

/-- PhaseAdvance.h:264-266 `inRange`. -/
def inRange (f : Rat) (r : Range) : Prop := r.present = true ∧ r.f0 ≤ f ∧ f < r.f1

/-! ## C60 -/

/-- The results of the segmenter are frequencies within the spectrum. -/
structure Sane (p : Params) (f : Frame) : Prop where
  pa : Inside p f.seg.percussiveAbove
  ra : Inside p f.seg.residualAbove
  nextPa : Inside p f.nextSeg.percussiveAbove

/-- A range that can come up. -/
structure Fair (r : Range) : Prop where
  f0 : 0 ≤ r.f0
  f0' : r.f0 ≤ 96000
  f1 : 4000 ≤ r.f1

theorem widened_fair {p : Params} (hp : p.Supported) {seg : Segmentation} (h : 0 ≤ seg.percussiveAbove) {r : Range} (hr : Fair r) : Fair (widened p seg r) := by
  have hn : 4000 ≤ p.nyquist := by unfold Params.nyquist; have := hp.1; linarith
  obtain ⟨h1, h2, h3⟩ := hr
  unfold widened
  simp only
  have key : 0 ≤ (if r.f0 * (9 / 10) < seg.residualAbove then min (r.f0 * (9 / 10)) seg.percussiveAbove else r.f0 * (9 / 10)) ∧
      (if r.f0 * (9 / 10) < seg.residualAbove then min (r.f0 * (9 / 10)) seg.percussiveAbove else r.f0 * (9 / 10)) ≤ 96000 := by
    split
    · exact ⟨le_min (by linarith) h, (min_le_left _ _).trans (by linarith)⟩
    · constructor <;> linarith
  generalize (if r.f0 * (9 / 10) < seg.residualAbove then min (r.f0 * (9 / 10)) seg.percussiveAbove else r.f0 * (9 / 10)) = x at *
  refine ⟨?_, ?_, ?_⟩
  · simp only
    split
    · exact le_refl _
    · exact key.1
  · simp only
    split
    · norm_num
    · exact key.2
  · simp only
    split
    · exact hn
    · linarith

/-- What the phase reset is after an update. -/
theorem update_phaseReset {p : Params} (hp : p.Supported) {f : Frame} (hs : Sane p f) {g g' : Guidance} (h : updateGuidance p f g = some g')
    (hg : g.phaseReset.present = true → Fair g.phaseReset) : g'.phaseReset.present = true → Fair g'.phaseReset := by
  have hn : 4000 ≤ p.nyquist := by unfold Params.nyquist; have := hp.1; linarith
  have hn2 : p.nyquist ≤ 96000 := by unfold Params.nyquist; have := hp.2; linarith
  have full : Fair ⟨true, 0, p.nyquist⟩ := ⟨le_refl _, by norm_num, hn⟩
  unfold updateGuidance at h
  simp only at h
  have e0 : (if p.single = true then singleBands p f.ratio f.outhop (cleared g) else multiSizes p (cleared g)).phaseReset =
      { g.phaseReset with present := false } := by split <;> rfl
  generalize (if p.single = true then singleBands p f.ratio f.outhop (cleared g) else multiSizes p (cleared g)) = u at *
  split at h
  · cases h; exact fun _ => full
  split at h
  · cases h
    unfold updateForUnity
    split
    · exact fun _ => full
    · intro _
      simp only
      split
      · rename_i hh
        rw [e0]
        exact widened_fair hp hs.pa.1 ⟨(hg hh).f0, (hg hh).f0', (hg hh).f1⟩
      · exact ⟨by norm_num, by norm_num, hn⟩
  · rw [Option.map_eq_some_iff] at h
    obtain ⟨w, hw, rfl⟩ := h
    have hul : (unlock p f.ratio w).phaseReset = w.phaseReset := by unfold unlock; split <;> rfl
    rw [hul]
    have hset : ∀ v : Guidance, v.phaseReset.present = false → (setRanges f v).phaseReset.present = true → Fair (setRanges f v).phaseReset := by
      intro v hv
      unfold setRanges
      simp only
      split
      · rename_i hc
        intro _
        have := hs.pa; have := hs.ra; have := hs.nextPa
        unfold Inside at *
        refine ⟨?_, ?_, ?_⟩
        · simp only
          split
          · exact le_refl _
          · exact le_min hs.pa.1 hs.nextPa.1
        · simp only
          split
          · norm_num
          · exact (min_le_left _ _).trans (hs.pa.2.trans hn2)
        · exact le_trans (by linarith [hc.1, hs.pa.1]) (le_max_left _ _)
      · intro hh
        rw [hv] at hh
        cases hh
    unfold updateNormal at hw
    simp only at hw
    split at hw
    · cases hw
      exact hset _ (by show u.phaseReset.present = false; rw [e0])
    · simp only [Option.bind_eq_bind] at hw
      obtain ⟨k, _, hw⟩ := Option.bind_eq_some_iff.mp hw
      obtain ⟨lo, _, hw⟩ := Option.bind_eq_some_iff.mp hw
      obtain ⟨hi, _, hw⟩ := Option.bind_eq_some_iff.mp hw
      cases hw
      have hmb : ∀ lo hi v, (multiBands p f lo hi v).phaseReset = v.phaseReset := by
        intro lo hi v
        unfold multiBands
        simp only
        split <;> rfl
      rw [hmb]
      refine hset _ ?_
      have hk : ∀ v, (setKick f k v).phaseReset = v.phaseReset := by
        intro v
        unfold setKick
        split
        · rfl
        · split <;> rfl
      rw [hk]
      show u.phaseReset.present = false
      rw [e0]

theorem updates_fair {p : Params} (hp : p.Supported) : ∀ (fs : List Frame) (g g' : Guidance), (∀ f ∈ fs, Sane p f) →
    (g.phaseReset.present = true → Fair g.phaseReset) → updates p fs g = some g' → g'.phaseReset.present = true → Fair g'.phaseReset := by
  intro fs
  induction fs with
  | nil => intro g g' _ hg h; cases h; exact hg
  | cons f fs ih =>
    intro g g' hs hg h
    unfold updates at h
    obtain ⟨w, h1, h2⟩ := Option.bind_eq_some_iff.mp h
    exact ih w g' (fun f hf => hs f (by simp [hf])) (update_phaseReset hp (hs f (by simp)) h1 hg) h2

/-- A frame at unity in real time. -/
def Unity (f : Frame) : Prop := 0 < f.unityCount ∧ f.realTime = true

/-- How far the range has grown after so many frames at unity. -/
structure Grown (p : Params) (k : Nat) (r : Range) : Prop where
  present : r.present = true
  f0 : r.f0 ≤ 96000 * (9 / 10) ^ k
  f0' : r.f0 = 0 ∨ 100 ≤ r.f0
  f1 : min p.nyquist (4000 * (11 / 10) ^ k) ≤ r.f1

theorem unity_phaseReset {p : Params} {f : Frame} (hu : Unity f) {g g' : Guidance} (h : updateGuidance p f g = some g') :
    g'.phaseReset = ⟨true, 0, p.nyquist⟩ ∨
    g'.phaseReset = (if g.phaseReset.present then widened p f.seg { g.phaseReset with present := false } else ⟨true, 16000, p.nyquist⟩) := by
  unfold updateGuidance at h
  simp only at h
  have e0 : (if p.single = true then singleBands p f.ratio f.outhop (cleared g) else multiSizes p (cleared g)).phaseReset =
      { g.phaseReset with present := false } := by split <;> rfl
  generalize (if p.single = true then singleBands p f.ratio f.outhop (cleared g) else multiSizes p (cleared g)) = u at *
  split at h
  · cases h; exact Or.inl rfl
  · rw [if_pos hu.1] at h
    cases h
    right
    unfold updateForUnity
    rw [hu.2]
    simp only [Bool.not_true, Bool.false_eq_true, if_false]
    rw [e0]

theorem grown_step {p : Params} (hp : p.Supported) {f : Frame} (hs : Sane p f) (hu : Unity f) {g g' : Guidance} (h : updateGuidance p f g = some g')
    {k : Nat} (hg : Grown p k g.phaseReset) (hf : Fair g.phaseReset) : Grown p (k + 1) g'.phaseReset := by
  have hf1 := hf.f1
  have hpos : (0 : Rat) < 96000 * (9 / 10) ^ (k + 1) := by positivity
  rcases unity_phaseReset hu h with e | e
  · rw [e]
    exact ⟨rfl, hpos.le, Or.inl rfl, min_le_left _ _⟩
  · rw [e, if_pos hg.present]
    have hpa := hs.pa.1
    have h9 : g.phaseReset.f0 * (9 / 10) ≤ 96000 * (9 / 10) ^ (k + 1) := by
      rw [pow_succ]
      have := hg.f0
      linarith
    unfold widened
    simp only
    have hx : (if g.phaseReset.f0 * (9 / 10) < f.seg.residualAbove then min (g.phaseReset.f0 * (9 / 10)) f.seg.percussiveAbove
        else g.phaseReset.f0 * (9 / 10)) ≤ 96000 * (9 / 10) ^ (k + 1) := by
      split
      · exact (min_le_left _ _).trans h9
      · exact h9
    generalize (if g.phaseReset.f0 * (9 / 10) < f.seg.residualAbove then min (g.phaseReset.f0 * (9 / 10)) f.seg.percussiveAbove
        else g.phaseReset.f0 * (9 / 10)) = x at *
    refine ⟨rfl, ?_, ?_, ?_⟩
    · simp only
      split
      · exact hpos.le
      · exact hx
    · simp only
      split
      · exact Or.inl rfl
      · rename_i hh
        exact Or.inr (not_lt.mp hh)
    · simp only
      split
      · exact min_le_left _ _
      · have := hg.f1
        have hn : 0 ≤ p.nyquist := by unfold Params.nyquist; have := hp.1; linarith
        rw [pow_succ]
        rcases min_le_iff.mp this with h1 | h1
        · exact (min_le_left _ _).trans (by linarith)
        · exact (min_le_right _ _).trans (by linarith)

theorem grown_first {p : Params} (hp : p.Supported) {f : Frame} (hs : Sane p f) (hu : Unity f) {g g' : Guidance} (h : updateGuidance p f g = some g')
    (hf : g.phaseReset.present = true → Fair g.phaseReset) : Grown p 0 g'.phaseReset := by
  have hn : 4000 ≤ p.nyquist := by unfold Params.nyquist; have := hp.1; linarith
  have key := update_phaseReset hp hs h hf
  rcases unity_phaseReset hu h with e | e
  · rw [e]
    exact ⟨rfl, by norm_num, Or.inl rfl, by rw [pow_zero, mul_one]; exact min_le_left _ _⟩
  · have hpres : g'.phaseReset.present = true := by
      rw [e]
      split <;> rfl
    have fair := key hpres
    refine ⟨hpres, by rw [pow_zero, mul_one]; exact fair.f0', ?_, by rw [pow_zero, mul_one]; exact (min_le_right _ _).trans fair.f1⟩
    rw [e]
    split
    · unfold widened
      simp only
      generalize (if g.phaseReset.f0 * (9 / 10) < f.seg.residualAbove then min (g.phaseReset.f0 * (9 / 10)) f.seg.percussiveAbove
        else g.phaseReset.f0 * (9 / 10)) = x
      by_cases hh : x < 100
      · rw [if_pos hh]
        exact Or.inl rfl
      · rw [if_neg hh]
        exact Or.inr (not_lt.mp hh)
    · right
      norm_num

theorem grown_run {p : Params} (hp : p.Supported) : ∀ (us : List Frame) (k : Nat) (g g' : Guidance), (∀ f ∈ us, Sane p f ∧ Unity f) →
    Grown p k g.phaseReset → Fair g.phaseReset → updates p us g = some g' → Grown p (k + us.length) g'.phaseReset := by
  intro us
  induction us with
  | nil => intro k g g' _ hg _ h; cases h; exact hg
  | cons f fs ih =>
    intro k g g' hs hg hf h
    unfold updates at h
    obtain ⟨w, h1, h2⟩ := Option.bind_eq_some_iff.mp h
    have hw := grown_step hp (hs f (by simp)).1 (hs f (by simp)).2 h1 hg hf
    have := ih (k + 1) w g' (fun f hf' => hs f (by simp [hf'])) hw
      (update_phaseReset hp (hs f (by simp)).1 h1 (fun _ => hf) hw.present) h2
    rw [List.length_cons, Nat.add_comm fs.length, ← Nat.add_assoc]
    exact this

theorem updates_append (p : Params) : ∀ (a b : List Frame) (g : Guidance), updates p (a ++ b) g = (updates p a g).bind (updates p b) := by
  intro a
  induction a with
  | nil => intro b g; rfl
  | cons f fs ih =>
    intro b g
    show (updateGuidance p f g).bind (updates p (fs ++ b)) = ((updateGuidance p f g).bind (updates p fs)).bind (updates p b)
    cases updateGuidance p f g with
    | none => rfl
    | some w => exact ih b w

/-- **C60**: in real time, whatever came before, after 67 frames at unity ratio (and as long as they go on) phases are reset over the
whole spectrum: the range that is reset holds every frequency from 0 up to half the rate. -/
theorem C60_unity {p : Params} (hp : p.Supported) (fs us : List Frame) (hs : ∀ f ∈ fs ++ us, Sane p f) (hu : ∀ f ∈ us, Unity f) (hl : 67 ≤ us.length)
    {g : Guidance} (h : updates p (fs ++ us) {} = some g) (x : Rat) (hx0 : 0 ≤ x) (hx1 : x < p.nyquist) : inRange x g.phaseReset := by
  rw [updates_append] at h
  obtain ⟨a, h1, h2⟩ := Option.bind_eq_some_iff.mp h
  have fa := updates_fair hp fs {} a (fun f hf => hs f (by simp [hf])) (fun hh => by cases hh) h1
  cases us with
  | nil => simp at hl
  | cons f us =>
    unfold updates at h2
    obtain ⟨w, h3, h4⟩ := Option.bind_eq_some_iff.mp h2
    have s := hs f (by simp)
    have u := hu f (by simp)
    have gw := grown_first hp s u h3 fa
    have end' := grown_run hp us 0 w g (fun f hf => ⟨hs f (by simp [hf]), hu f (by simp [hf])⟩) gw (update_phaseReset hp s h3 fa gw.present) h4
    rw [Nat.zero_add] at end'
    have hk : 66 ≤ us.length := by rw [List.length_cons] at hl; omega
    refine ⟨end'.present, ?_, ?_⟩
    · rcases end'.f0' with h | h
      · rw [h]; exact hx0
      · exfalso
        have h1 : ((9 / 10 : Rat)) ^ us.length ≤ (9 / 10) ^ 66 := pow_le_pow_of_le_one (by norm_num) (by norm_num) hk
        have h2 : (96000 : Rat) * (9 / 10) ^ 66 < 100 := by norm_num
        have := end'.f0
        linarith
    · have h1 : ((11 / 10 : Rat)) ^ 66 ≤ (11 / 10) ^ us.length := pow_le_pow_right₀ (by norm_num) hk
      have h2 : (96000 : Rat) ≤ 4000 * (11 / 10) ^ 66 := by norm_num
      have hn2 : p.nyquist ≤ 96000 := by unfold Params.nyquist; have := hp.2; linarith
      have := end'.f1
      rw [min_eq_left (by linarith)] at this
      linarith

/-- A frame with a reset from 5000 Hz. -/
def Ex.loud : Frame := { Ex.flat 1025 with seg := ⟨0, 5000, 12000⟩ }

/-- A frame at unity. -/
def Ex.unity : Frame := { Ex.loud with unityCount := 1, realTime := true }

/-- 67 frames at unity after one that had a reset from 5000 Hz. -/
example : ∃ g, updates { rate := 44100 } ([Ex.loud] ++ List.replicate 67 Ex.unity) {} = some g ∧ inRange 100 g.phaseReset := by
  have hd : (updates { rate := 44100 } ([Ex.loud] ++ List.replicate 67 Ex.unity) {}).isSome = true := by decide +kernel
  obtain ⟨g, hg⟩ := Option.isSome_iff_exists.mp hd
  refine ⟨g, hg, C60_unity (by unfold Params.Supported; constructor <;> norm_num) _ _ ?_ ?_ (by rw [List.length_replicate]) hg 100 (by norm_num)
    (by unfold Params.nyquist; norm_num)⟩
  · intro f hf
    rcases List.mem_append.mp hf with h | h
    · rw [List.mem_singleton.mp h]
      refine ⟨?_, ?_, ?_⟩ <;> (unfold Inside Params.nyquist Ex.loud Ex.flat; norm_num)
    · rw [List.eq_of_mem_replicate h]
      refine ⟨?_, ?_, ?_⟩ <;> (unfold Inside Params.nyquist Ex.unity Ex.loud Ex.flat; norm_num)
  · intro f hf
    rw [List.eq_of_mem_replicate hf]
    exact ⟨by decide, rfl⟩

/-! ## C59 -/

/-- R3Stretcher.cpp:551-584 `reset` and R3Stretcher.h:253-268 `ChannelData::reset`, as far as the guidance of a channel goes: it is not
among the things that are reset. -/
def afterReset (g : Guidance) : Guidance := g

/-- A range as others see it. -/
def Range.view (r : Range) : Option (Rat × Rat) := if r.present then some (r.f0, r.f1) else none

/-- What the rest of the engine is told: the bands and the ranges that are present. -/
def Guidance.view (g : Guidance) : List FftBand × List LockBand × List (Option (Rat × Rat)) :=
  (g.fftBands, g.lockBands, [g.kick.view, g.preKick.view, g.highUnlocked.view, g.phaseReset.view, g.channelLock.view])

/-- **C59**, as claimed: after a reset the guidance for a sequence of frames is that which a new engine would have for them. -/
def C59_statement : Prop := ∀ (p : Params) (_ : p.Supported) (before after : List Frame) (a b c : Guidance), after ≠ [] →
  updates p before {} = some a → updates p after (afterReset a) = some b → updates p after {} = some c → b.view = c.view

/-- A frame with the same magnitude everywhere: the first one puts the limit of the lowest band at 700 Hz, the next at the
nearest bin.  After a reset the first one is treated as the next. -/
theorem C59_violated : ¬ C59_statement := by
  intro h
  have k1 : (updates { rate := 44100 } [Ex.flat 1025] {}).isSome = true := by decide +kernel
  obtain ⟨a, ha⟩ := Option.isSome_iff_exists.mp k1
  have k2 : (updates { rate := 44100 } [Ex.flat 1025, Ex.flat 1025] {}).map (fun g => (g.fftBandCount, g.fft0.f1)) = some (3, 363825 / 512) := by decide +kernel
  have k3 : (updates { rate := 44100 } [Ex.flat 1025] {}).map (fun g => (g.fftBandCount, g.fft0.f1)) = some (3, 700) := by decide +kernel
  have e : updates { rate := 44100 } [Ex.flat 1025, Ex.flat 1025] {} = updates { rate := 44100 } [Ex.flat 1025] a := by
    rw [show [Ex.flat 1025, Ex.flat 1025] = [Ex.flat 1025] ++ [Ex.flat 1025] from rfl, updates_append, ha]
    rfl
  rw [e] at k2
  rw [Option.map_eq_some_iff] at k2
  obtain ⟨b, hb, hb2⟩ := k2
  rw [ha] at k3
  have := h { rate := 44100 } (by unfold Params.Supported; constructor <;> norm_num) [Ex.flat 1025] [Ex.flat 1025] a b a (by simp) ha hb ha
  simp only [Option.map_some, Option.some.injEq, Prod.mk.injEq] at k3 hb2
  have hv := congrArg (fun v => v.1) this
  simp only [Guidance.view, Guidance.fftBands] at hv
  rw [k3.1, hb2.1] at hv
  simp only [List.take, List.cons.injEq] at hv
  have := congrArg FftBand.f1 hv.1
  rw [k3.2, hb2.2] at this
  norm_num at this

/-- **C59**, in single-window mode and without unity in real time: the guidance does not depend on the past at all. -/
theorem C59_partial {p : Params} (hm : p.single = true) (before after : List Frame) {a b c : Guidance} (hne : after ≠ [])
    (hn : ∀ f ∈ after, ¬ Unity f) (_ : updates p before {} = some a) (hb : updates p after (afterReset a) = some b) (hc : updates p after {} = some c) :
    b.view = c.view := by
  have step : ∀ (f : Frame) (g h g' h' : Guidance), ¬ Unity f → updateGuidance p f g = some g' → updateGuidance p f h = some h' → g'.view = h'.view := by
    intro f g h g' h' hu h1 h2
    unfold updateGuidance at h1 h2
    simp only at h1 h2
    rw [hm] at h1 h2
    split at h1
    · rename_i hsil
      rw [if_pos hsil] at h2
      cases h1; cases h2
      unfold updateForSilence
      rw [hm]
      rfl
    · rename_i hsil
      rw [if_neg hsil] at h2
      split at h1
      · rename_i huc
        rw [if_pos huc] at h2
        cases h1; cases h2
        have hrt : f.realTime = false := by
          cases hr : f.realTime with
          | false => rfl
          | true => exact absurd ⟨huc, hr⟩ hu
        unfold updateForUnity
        rw [hrt]
        unfold updateForSilence
        rw [hm]
        rfl
      · rename_i huc
        rw [if_neg huc] at h2
        unfold updateNormal at h1 h2
        simp only at h1 h2
        rw [hm] at h1 h2
        cases h1; cases h2
        unfold unlock setRanges
        simp only
        by_cases c1 : f.ratio > 2 <;> by_cases c2 : f.seg.residualAbove > f.seg.percussiveAbove <;>
          by_cases c3 : f.seg.residualAbove > f.seg.percussiveAbove + 4000 ∧ f.prevSeg.residualAbove < f.prevSeg.percussiveAbove + 4000 <;>
          simp only [c1, c2, c3, if_true, if_false, and_self] <;> rfl
  have key : ∀ (fs : List Frame) (g h g' h' : Guidance), fs ≠ [] → (∀ f ∈ fs, ¬ Unity f) → updates p fs g = some g' → updates p fs h = some h' → g'.view = h'.view := by
    intro fs
    induction fs with
    | nil => intro g h g' h' hne; exact absurd rfl hne
    | cons f fs ih =>
      intro g h g' h' _ hu h1 h2
      unfold updates at h1 h2
      obtain ⟨w, x1, x2⟩ := Option.bind_eq_some_iff.mp h1
      obtain ⟨v, y1, y2⟩ := Option.bind_eq_some_iff.mp h2
      cases fs with
      | nil => cases x2; cases y2; exact step f g h _ _ (hu f (by simp)) x1 y1
      | cons f' fs' => exact ih w v g' h' (by simp) (fun f hf => hu f (by simp [hf])) x2 y2
  exact key after _ _ b c hne hn hb hc

/-- A frame in single-window mode. -/
example : (updates { rate := 44100, single := true } [Ex.flat 1025] {}).isSome = true ∧ ¬ Unity (Ex.flat 1025) :=
  ⟨by decide +kernel, fun h => absurd h.1 (by decide)⟩

/-! ## C61 -/

/-- R3Stretcher.cpp:1227-1270, 1411-1424: what the engine passes on for frame `t`, from the magnitudes the transforms give for each frame and
the segmentation of each.  Those of the frame itself and the one before have been scaled; those of the one to come have not. -/
def fed (p : Params) (raw : Nat → List Rat) (seg : Nat → Segmentation) (ratio mean : Rat) (outhop : Nat) (realTime : Bool) (t : Nat) : Frame :=
  { ratio := ratio, outhop := outhop, mean := mean, realTime := realTime
    mags := (raw t).map fun x => x * (1 / p.classify), prev := (raw (t - 1)).map fun x => x * (1 / p.classify), next := raw (t + 1)
    seg := seg t, prevSeg := seg (t - 1), nextSeg := seg (t + 1) }

/-- **C61**, as claimed: in multi-window mode, away from unity and silence, a frame is treated as the one before a kick exactly if the next one is
treated as a kick. -/
def C61_statement : Prop := ∀ (p : Params) (_ : p.Supported) (_ : p.single = false) (raw : Nat → List Rat) (_ : ∀ t, p.classify / 2 + 1 ≤ (raw t).length)
  (_ : ∀ t, ∀ x ∈ raw t, 0 ≤ x) (seg : Nat → Segmentation) (ratio mean : Rat) (_ : 1 / 1000000 ≤ mean) (outhop : Nat) (rt : Bool) (t : Nat) (g g1 g2 : Guidance),
  updateGuidance p (fed p raw seg ratio mean outhop rt t) g = some g1 → updateGuidance p (fed p raw seg ratio mean outhop rt (t + 1)) g1 = some g2 →
  (g1.preKick.present = true ↔ g2.kick.present = true)

/-- The flags after an update. -/
theorem flags {p : Params} (hm : p.single = false) {f : Frame} (hmean : 1 / 1000000 ≤ f.mean) (hu : f.unityCount = 0) {g g' : Guidance}
    (h : updateGuidance p f g = some g') : ∃ k, kickTest p f = some k ∧ g'.kick.present = k.1 ∧ g'.preKick.present = (!k.1 && k.2) := by
  unfold updateGuidance at h
  simp only at h
  rw [if_neg (by simp; intro _; simpa using hmean), if_neg (by omega), Option.map_eq_some_iff] at h
  obtain ⟨w, hw, rfl⟩ := h
  have e1 : (unlock p f.ratio w).kick = w.kick ∧ (unlock p f.ratio w).preKick = w.preKick := by unfold unlock; split <;> exact ⟨rfl, rfl⟩
  rw [e1.1, e1.2]
  unfold updateNormal at hw
  simp only at hw
  rw [hm] at hw
  simp only [Bool.false_eq_true, if_false, Option.bind_eq_bind] at hw
  obtain ⟨k, hk, hw⟩ := Option.bind_eq_some_iff.mp hw
  obtain ⟨lo, _, hw⟩ := Option.bind_eq_some_iff.mp hw
  obtain ⟨hi, _, hw⟩ := Option.bind_eq_some_iff.mp hw
  cases hw
  refine ⟨k, hk, ?_⟩
  have e2 : ∀ lo hi v, (multiBands p f lo hi v).kick = v.kick ∧ (multiBands p f lo hi v).preKick = v.preKick := by
    intro lo hi v
    unfold multiBands
    simp only
    split <;> exact ⟨rfl, rfl⟩
  rw [(e2 _ _ _).1, (e2 _ _ _).2]
  unfold setRanges setKick
  simp only
  obtain ⟨k1, k2⟩ := k
  cases k1 <;> cases k2 <;> exact ⟨rfl, rfl⟩

theorem sumTo_scale (l : List Rat) (c : Rat) : ∀ b, sumTo (l.map fun x => x * c) b = (sumTo l b).map fun x => x * c := by
  intro b
  induction b with
  | zero => simp [sumTo]
  | succ b ih =>
    unfold sumTo
    rw [ih, List.getElem?_map]
    cases sumTo l b with
    | none => rfl
    | some x =>
      cases l[b + 1]? with
      | none => rfl
      | some y =>
        simp only [Option.map_some, Option.bind_eq_bind, Option.bind_some, Option.pure_def, Option.some.injEq]
        ring

/-- **C61**, one half: no kick comes unannounced. -/
theorem C61_partial {p : Params} (hm : p.single = false) (raw : Nat → List Rat) (seg : Nat → Segmentation) (ratio mean : Rat)
    (hmean : 1 / 1000000 ≤ mean) (outhop : Nat) (rt : Bool) (t : Nat) {g g1 g2 : Guidance}
    (h1 : updateGuidance p (fed p raw seg ratio mean outhop rt t) g = some g1) (h2 : updateGuidance p (fed p raw seg ratio mean outhop rt (t + 1)) g1 = some g2)
    (hk : g2.kick.present = true) : g1.preKick.present = true := by
  obtain ⟨k, k1, _, k3⟩ := flags hm hmean rfl h1
  obtain ⟨j, j1, j2, _⟩ := flags hm hmean rfl h2
  rw [j2] at hk
  unfold kickTest at k1 j1
  simp only [Option.bind_eq_bind] at k1 j1
  obtain ⟨a, a1, k1⟩ := Option.bind_eq_some_iff.mp k1
  obtain ⟨b, b1, k1⟩ := Option.bind_eq_some_iff.mp k1
  obtain ⟨c, c1, j1⟩ := Option.bind_eq_some_iff.mp j1
  obtain ⟨d, _, j1⟩ := Option.bind_eq_some_iff.mp j1
  cases k1
  cases j1
  simp only [fed, Nat.add_sub_cancel, Bool.and_eq_true, decide_eq_true_eq] at hk
  obtain ⟨⟨x1, x2⟩, x3⟩ := hk
  subst x3
  have hb : b = true := by
    unfold checkPotentialKick at b1 c1
    simp only [fed, Nat.add_sub_cancel, Option.bind_eq_bind, sumTo_scale] at b1 c1
    obtain ⟨p1, q1, c1⟩ := Option.bind_eq_some_iff.mp c1
    obtain ⟨p2, q2, c1⟩ := Option.bind_eq_some_iff.mp c1
    obtain ⟨p3, q3, b1⟩ := Option.bind_eq_some_iff.mp b1
    obtain ⟨p4, q4, b1⟩ := Option.bind_eq_some_iff.mp b1
    rw [Option.map_eq_some_iff] at q1 q2 q4
    obtain ⟨r1, s1, rfl⟩ := q1
    obtain ⟨r2, s2, rfl⟩ := q2
    obtain ⟨r4, s4, rfl⟩ := q4
    rw [q3] at s1
    cases s1
    rw [s2] at s4
    cases s4
    simp only [Option.pure_def, Option.some.injEq, Bool.and_eq_true, decide_eq_true_eq] at c1
    simp only [Option.pure_def, Option.some.injEq] at b1
    rw [← b1]
    have hcl : (1 : Rat) ≤ p.classify := by
      have := classify_ge p
      have : 1 ≤ p.classify := by omega
      exact_mod_cast this
    have hp3 : p3 * (1 / (p.classify : Rat)) ≤ p3 := by
      have hpos : 0 < p3 * (1 / (p.classify : Rat)) := by linarith [c1.1]
      have hpc : (0 : Rat) < 1 / p.classify := by positivity
      have hp3 : 0 < p3 := by
        by_contra hneg
        have := mul_nonpos_of_nonpos_of_nonneg (not_lt.mp hneg) hpc.le
        linarith
      have : (1 : Rat) / p.classify ≤ 1 := by rw [div_le_one (by linarith)]; exact hcl
      nlinarith
    simp only [Bool.and_eq_true, decide_eq_true_eq]
    exact ⟨by linarith [c1.1], by linarith [c1.2]⟩
  subst hb
  rw [k3]
  clear k3
  show (!(decide ((seg t).percussiveBelow > 40) && decide ((seg (t - 1)).percussiveBelow < 40) && a) &&
    (!(decide ((seg t).percussiveBelow > 40) && decide ((seg (t - 1)).percussiveBelow < 40) && a) &&
      decide ((seg (t + 1)).percussiveBelow > 40) && decide ((seg t).percussiveBelow < 40) && true)) = true
  have y1 : decide ((seg t).percussiveBelow > 40) = false := by rw [decide_eq_false_iff_not]; linarith
  have y2 : decide ((seg (t + 1)).percussiveBelow > 40) = true := by rw [decide_eq_true_eq]; exact x1
  have y3 : decide ((seg t).percussiveBelow < 40) = true := by rw [decide_eq_true_eq]; exact x2
  rw [y1, y2, y3]
  rfl

/-- A steady spectrum of which the second frame is classified as percussive at the low end: the first is treated as one before a kick, as the
comparison is of magnitudes not scaled with ones scaled, but the second is not louder than the first and is no kick. -/
theorem C61_violated : ¬ C61_statement := by
  intro h
  have hc : ({ rate := 8000 } : Params).classify = 1024 := by decide +kernel
  have k1 : (updateGuidance { rate := 8000 } (fed { rate := 8000 } (fun _ => List.replicate 513 1000) (fun t => if t = 1 then {} else ⟨100, 0, 0⟩) (3 / 2) 1 128 false 1) {}).map
      (fun g => g.preKick.present) = some true := by decide +kernel
  rw [Option.map_eq_some_iff] at k1
  obtain ⟨g1, h1, p1⟩ := k1
  have k2 : ((updateGuidance { rate := 8000 } (fed { rate := 8000 } (fun _ => List.replicate 513 1000) (fun t => if t = 1 then {} else ⟨100, 0, 0⟩) (3 / 2) 1 128 false 1) {}).bind
      (updateGuidance { rate := 8000 } (fed { rate := 8000 } (fun _ => List.replicate 513 1000) (fun t => if t = 1 then {} else ⟨100, 0, 0⟩) (3 / 2) 1 128 false 2))).map
      (fun g => g.kick.present) = some false := by decide +kernel
  rw [h1] at k2
  rw [Option.map_eq_some_iff] at k2
  obtain ⟨g2, h2, p2⟩ := k2
  have := (h { rate := 8000 } (by unfold Params.Supported; constructor <;> norm_num) rfl (fun _ => List.replicate 513 1000)
    (fun _ => by rw [hc, List.length_replicate]) (fun _ x hx => by rw [List.eq_of_mem_replicate hx]; norm_num) (fun t => if t = 1 then {} else ⟨100, 0, 0⟩)
    (3 / 2) 1 (by norm_num) 128 false 1 {} g1 g2 h1 h2).mp p1
  rw [p2] at this
  cases this

/-- A kick that is announced. -/
example : ((updateGuidance { rate := 8000 } (fed { rate := 8000 } (fun t => List.replicate 513 (1000 * t)) (fun t => if t = 1 then {} else ⟨100, 0, 0⟩) (3 / 2) 1 128 false 1) {}).bind
      (updateGuidance { rate := 8000 } (fed { rate := 8000 } (fun t => List.replicate 513 (1000 * t)) (fun t => if t = 1 then {} else ⟨100, 0, 0⟩) (3 / 2) 1 128 false 2))).map
      (fun g => g.kick.present) = some true := by decide +kernel

end Verif.Guide
