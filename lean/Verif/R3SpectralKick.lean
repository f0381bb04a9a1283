import Verif.R3Spectral
/-!
# What is held back before a kick, in the spectra of the finer engine (C69)
-/
namespace Verif.R3
open Verif.Guide (Guidance)

variable {κ : Type}

/-- A bin of a list, 0 beyond it. -/
def at' (l : List ℝ) (k : Nat) : ℝ := (l[k]?).getD 0

theorem at_mapIdx (l : List ℝ) (f : Nat → ℝ → ℝ) {k : Nat} (hk : k < l.length) : at' (l.mapIdx f) k = f k (at' l k) := by
  simp [at', List.getElem?_mapIdx, hk]

/-- Before a kick: of each bin, what goes on and what is held back is together what there was, unless something held back before is still waiting in this bin; and no more goes on than there was. -/
theorem hold_conserves (p : Params) (g : Guidance) (s : Scale) {k : Nat} (hm : k < s.mag.length) (hp : k < s.pendingKick.length) (h0 : at' s.pendingKick k = 0) :
    at' (hold p g s).mag k + at' (hold p g s).pendingKick k = at' s.mag k ∧ 0 ≤ at' (hold p g s).pendingKick k ∧
      (kickBin p g k → at' (hold p g s).mag k = min (at' s.mag k) (at' s.prevMag k)) := by
  by_cases hk : kickBin p g k ∧ 0 < at' s.mag k - at' s.prevMag k
  · have e1 : at' (hold p g s).mag k = at' s.mag k - (at' s.mag k - at' s.prevMag k) := (at_mapIdx _ _ hm).trans (if_pos hk)
    have e2 : at' (hold p g s).pendingKick k = at' s.mag k - at' s.prevMag k := (at_mapIdx _ _ hp).trans (if_pos hk)
    rw [e1, e2]
    refine ⟨by ring, le_of_lt hk.2, fun _ => ?_⟩
    rw [min_eq_right (by linarith [hk.2])]
    ring
  · have e1 : at' (hold p g s).mag k = at' s.mag k := (at_mapIdx _ _ hm).trans (if_neg hk)
    have e2 : at' (hold p g s).pendingKick k = at' s.pendingKick k := (at_mapIdx _ _ hp).trans (if_neg hk)
    rw [e1, e2, h0]
    refine ⟨add_zero _, le_refl _, fun hb => ?_⟩
    rw [min_eq_left]
    by_contra hc
    exact hk ⟨hb, by linarith⟩

/-- At the kick: what was held back is added, and nothing is held back any more. -/
theorem release_conserves (p : Params) (g : Guidance) (s : Scale) {k : Nat} (hm : k < s.mag.length) (hp : k < s.pendingKick.length) :
    at' (release p g s).mag k + at' (release p g s).pendingKick k = at' s.mag k + at' s.pendingKick k ∧ (kickBin p g k → at' (release p g s).pendingKick k = 0) := by
  unfold release
  simp only
  rw [at_mapIdx _ _ hm, at_mapIdx _ _ hp]
  by_cases hk : kickBin p g k
  · rw [if_pos hk, if_pos hk, add_zero]
    exact ⟨rfl, fun _ => rfl⟩
  · rw [if_neg hk, if_neg hk]
    exact ⟨rfl, fun h => absurd h hk⟩

/-- **C69**, for a frame of the spectra over the reals: unless something was already held back when a frame before a kick comes, `adjustPreKick` neither adds to a bin nor takes from it anything but what it holds back;
of the other scales it changes nothing. -/
theorem C69_frame (p : Params) (c : ChannelData κ) (n : Nat) {k : Nat} (hm : k < (c.scales n).mag.length) (hp : k < (c.scales n).pendingKick.length)
    (h0 : c.guidance.preKick.present = true → at' (c.scales n).pendingKick k = 0) :
    at' ((adjustPreKick p c).scales n).mag k + at' ((adjustPreKick p c).scales n).pendingKick k = at' (c.scales n).mag k + at' (c.scales n).pendingKick k ∧
      (n ≠ c.guidance.fft0.fftSize → (adjustPreKick p c).scales n = c.scales n) ∧
      (n = c.guidance.fft0.fftSize → p.windowShort = false → c.guidance.preKick.present = true → kickBin p c.guidance k → at' ((adjustPreKick p c).scales n).mag k = min (at' (c.scales n).mag k) (at' (c.scales n).prevMag k)) ∧
      (n = c.guidance.fft0.fftSize → p.windowShort = false → c.guidance.preKick.present = false → c.guidance.kick.present = true → kickBin p c.guidance k →
        at' ((adjustPreKick p c).scales n).mag k = at' (c.scales n).mag k + at' (c.scales n).pendingKick k) := by
  unfold adjustPreKick
  simp only
  by_cases hn : n = c.guidance.fft0.fftSize
  · rw [if_pos hn]
    by_cases hw : p.windowShort = true
    · rw [if_pos hw]
      exact ⟨rfl, fun h => absurd hn h, fun _ h => (by rw [hw] at h; cases h), fun _ h => (by rw [hw] at h; cases h)⟩
    · rw [if_neg hw]
      by_cases hk : c.guidance.preKick.present = true
      · rw [if_pos hk]
        obtain ⟨a, _, b⟩ := hold_conserves p c.guidance (c.scales n) hm hp (h0 hk)
        exact ⟨by rw [a, h0 hk, add_zero], fun h => absurd hn h, fun _ _ _ => b, fun _ _ h => (by rw [hk] at h; cases h)⟩
      · rw [if_neg hk]
        by_cases hr : c.guidance.kick.present = true
        · rw [if_pos hr]
          obtain ⟨a, b⟩ := release_conserves p c.guidance (c.scales n) hm hp
          refine ⟨a, fun h => absurd hn h, fun _ _ h => absurd h hk, fun _ _ _ _ hb => ?_⟩
          have := b hb
          rw [this, add_zero] at a
          exact a
        · rw [if_neg hr]
          exact ⟨rfl, fun h => absurd hn h, fun _ _ h => absurd h hk, fun _ _ _ h => absurd h hr⟩
  · rw [if_neg hn]
    exact ⟨rfl, fun _ => rfl, fun h => absurd h hn, fun h => absurd h hn⟩

/-- A frame before a kick up to 200 Hz: of bin 2, that went from 1 to 3, 2 are held back. -/
example : ∃ (p : Params) (c : ChannelData Unit), p.windowShort = false ∧ c.guidance.preKick.present = true ∧ kickBin p c.guidance 2 ∧ at' (c.scales 2048).mag 2 = 3 ∧
    at' ((adjustPreKick p c).scales 2048).mag 2 = 1 ∧ at' ((adjustPreKick p c).scales 2048).pendingKick 2 = 2 := by
  refine ⟨{ sampleRate := 44100, channels := 1 }, ⟨fun _ => ⟨[0, 0, 3], [0, 0, 0], [0, 0, 0], [0, 0, 1], [0, 0, 0], fun _ => 0⟩, [], [], false,
    { fft0 := { fftSize := 2048, f0 := 0, f1 := 700 }, preKick := ⟨true, 0, 200⟩ }, ()⟩, rfl, rfl, ?_, rfl, ?_⟩
  · unfold kickBin
    decide +kernel
  · obtain ⟨a, _, b, _⟩ := C69_frame (κ := Unit) { sampleRate := 44100, channels := 1 } ⟨fun _ => ⟨[0, 0, 3], [0, 0, 0], [0, 0, 0], [0, 0, 1], [0, 0, 0], fun _ => 0⟩, [], [], false,
      { fft0 := { fftSize := 2048, f0 := 0, f1 := 700 }, preKick := ⟨true, 0, 200⟩ }, ()⟩ 2048 (k := 2) (by decide) (by decide) (fun _ => rfl)
    have b := b rfl rfl rfl (by unfold kickBin; decide +kernel)
    simp only [at', List.getElem?_cons_succ, List.getElem?_cons_zero, Option.getD_some] at a b ⊢
    rw [b] at a ⊢
    constructor
    · norm_num
    · norm_num at a
      linarith

end Verif.R3
