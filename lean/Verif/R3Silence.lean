import Verif.R3Values
import Verif.R3UnityRound
/-! # Silence in the spectral part of the finer engine -/
namespace Verif.R3
open Verif.Guide (Guidance Reachable)

variable {κ : Type}

/-- The bin is one of those of the size that are ever converted. -/
def InPolar (p : Params) (n k : Nat) : Prop := (polarRange p n).1 ≤ k ∧ k < (polarRange p n).1 + (polarRange p n).2

/-! ### Bins that are put out have been converted -/

theorem polar_of_range {p : Params} {g : Guidance} (hs : Synth.Shape p.guide g) {b : Guide.FftBand} (hb : b ∈ g.fftBands) {lo m : Nat}
    (h : PhaseAdvance.binRange ⟨p.guide, b.fftSize⟩ g = some (lo, m)) : polarRange p b.fftSize = (lo, m) ∧ b.fftSize ∈ p.scales := by
  have fin : ∀ l : Guide.Limits, (Guide.bandLimits p.guide)[PhaseAdvance.bandOf ⟨p.guide, b.fftSize⟩ g]? = some l → (Guide.bandLimits p.guide).find? (fun l => l.fftSize == b.fftSize) = some l →
      polarRange p b.fftSize = (lo, m) := by
    intro l h1 h2
    unfold PhaseAdvance.binRange at h
    simp only at h
    rw [h1, Option.bind_some] at h
    split at h
    · cases h
    · unfold polarRange
      rw [h2]
      exact Option.some.inj h
  obtain ⟨f1, f2⟩ := classify_facts p
  unfold Guide.Guidance.fftBands at hb
  cases hm : p.guide.single with
  | true =>
    obtain ⟨s1, s2⟩ := hs.single hm
    rw [s1] at hb
    have : b = g.fft0 := by simpa using hb
    subst this
    have hsz : g.fft0.fftSize = p.classificationFftSize := by rw [s2]; rfl
    refine ⟨fin (Guide.limits p.guide.classify p.guide.rate 0 p.guide.nyquist) ?_ ?_, by rw [hsz]; exact classify_mem p⟩
    · unfold Guide.bandLimits PhaseAdvance.bandOf
      rw [if_pos hm, if_pos rfl]
      rfl
    · unfold Guide.bandLimits
      rw [if_pos hm, List.find?_cons_of_pos]
      rw [hsz]
      simp [Guide.limits, guide_classify]
  | false =>
    obtain ⟨s1, a, c, s2, s3, s4, _⟩ := hs.multi hm
    rw [s1] at hb
    have e0 : g.fft0.fftSize = p.longestFftSize := by rw [s2]; rfl
    have e1 : g.fft1.fftSize = p.classificationFftSize := by rw [s3]; rfl
    have e2 : g.fft2.fftSize = p.shortestFftSize := by rw [s4]; rfl
    obtain ⟨l1, l2⟩ := longest_classify p hm
    have hbl : Guide.bandLimits p.guide = [Guide.limits p.guide.longest p.guide.rate 0 p.guide.maxLower, Guide.limits p.guide.classify p.guide.rate 0 p.guide.nyquist,
        Guide.limits p.guide.shortest p.guide.rate p.guide.minHigher p.guide.nyquist] := by unfold Guide.bandLimits; rw [hm]; rfl
    have mem : ∀ n, n = p.longestFftSize ∨ n = p.classificationFftSize ∨ n = p.shortestFftSize → n ∈ p.scales := by
      intro n hn
      unfold Params.scales
      rw [show p.windowShort = false from hm]
      simpa using hn
    have : b = g.fft0 ∨ b = g.fft1 ∨ b = g.fft2 := by simpa using hb
    rcases this with rfl | rfl | rfl
    · refine ⟨fin (Guide.limits p.guide.longest p.guide.rate 0 p.guide.maxLower) ?_ ?_, mem _ (Or.inl e0)⟩
      · rw [hbl]; unfold PhaseAdvance.bandOf; rw [if_pos rfl]; rfl
      · rw [hbl, List.find?_cons_of_pos]
        rw [e0]; simp [Guide.limits, guide_longest]
    · refine ⟨fin (Guide.limits p.guide.classify p.guide.rate 0 p.guide.nyquist) ?_ ?_, mem _ (Or.inr (Or.inl e1))⟩
      · rw [hbl]; unfold PhaseAdvance.bandOf; rw [if_neg (by simp only; omega), if_pos rfl]; rfl
      · rw [hbl, List.find?_cons_of_neg, List.find?_cons_of_pos]
        · rw [e1]; simp [Guide.limits, guide_classify]
        · rw [e1]; simp only [Guide.limits, guide_longest, beq_iff_eq]; omega
    · refine ⟨fin (Guide.limits p.guide.shortest p.guide.rate p.guide.minHigher p.guide.nyquist) ?_ ?_, mem _ (Or.inr (Or.inr e2))⟩
      · rw [hbl]; unfold PhaseAdvance.bandOf; rw [if_neg (by simp only; omega), if_neg (by simp only; omega), if_pos rfl]; rfl
      · rw [hbl, List.find?_cons_of_neg, List.find?_cons_of_neg, List.find?_cons_of_pos]
        · rw [e2]; simp [Guide.limits, guide_shortest]
        · rw [e2]; simp only [Guide.limits, guide_classify, beq_iff_eq]; omega
        · rw [e2]; simp only [Guide.limits, guide_longest, beq_iff_eq]; omega

/-- Each bin that is put out was converted in the same frame. -/
theorem inPolar_of_puts {p : Params} {g : Guidance} (h : Reachable p.guide g) {b : Guide.FftBand} (hb : b ∈ g.fftBands) {k : Nat} (hk : Synth.Puts p.guide.rate b k) :
    InPolar p b.fftSize k ∧ b.fftSize ∈ p.scales := by
  obtain ⟨lo, m, h1, h2, h3⟩ := (Synth.C67_analysed (guide_supported p) h b hb).1 k hk
  obtain ⟨e1, e2⟩ := polar_of_range (Synth.reachable_shape (guide_supported p) h) hb h1
  unfold InPolar
  rw [e1]
  exact ⟨⟨h2, h3⟩, e2⟩

/-! ### Zero -/

theorem transformed_zero {n : Nat} {x : Nat → ℝ} (h : ∀ i, x i = 0) (k : Nat) : transformed n x k = 0 := by
  unfold transformed FFT.spectrum
  refine Finset.sum_eq_zero fun i _ => ?_
  simp [swapHalves, h]

theorem cut_zero {p : Params} {n o : Nat} {source : List ℝ} (h : ∀ a ∈ source, a = 0) (i : Nat) : cutAt p n o source i = 0 := by
  unfold cutAt
  cases hs : source[o + i]? with
  | none => simp
  | some a => rw [h a (List.mem_of_getElem? hs)]; simp

/-- No more than zero in the bins of the range. -/
def ZeroIn (p : Params) (n : Nat) (l : List ℝ) : Prop := ∀ k, InPolar p n k → (l[k]?).getD 0 = 0

theorem zeroIn_set {p : Params} {n : Nat} {f : Nat → ℝ} (h : ∀ k, f k = 0) (l : List ℝ) : ZeroIn p n (setFrom (polarRange p n).1 (polarRange p n).2 f l) := by
  intro k hk
  by_cases hl : k < l.length
  · rw [setFrom_get hk.1 hk.2 hl, h]; rfl
  · rw [List.getElem?_eq_none (by rw [setFrom_length]; omega)]; rfl

/-- A channel in which nothing sounds. -/
structure Hush (p : Params) (c : ChannelData κ) : Prop where
  acc : ∀ n i, (c.scales n).acc i = 0
  pending : ∀ n ∈ p.scales, ZeroIn p n (c.scales n).pendingKick
  prev : ∀ n ∈ p.scales, ZeroIn p n (c.scales n).prevMag
  ahead : c.haveReadahead = true → ZeroIn p p.classificationFftSize c.raMag

/-- And in the present frame. -/
def Mute (p : Params) (c : ChannelData κ) : Prop := Hush p c ∧ ∀ n ∈ p.scales, ZeroIn p n (c.scales n).mag

theorem spectra_mute {p : Params} (hop : Hop) {source : List ℝ} (hz : ∀ a ∈ source, a = 0) {c : ChannelData κ} (h : Hush p c) : Mute p (spectra p hop source c) := by
  have kept : ∀ n, ((spectra p hop source c).scales n).acc = (c.scales n).acc ∧ ((spectra p hop source c).scales n).pendingKick = (c.scales n).pendingKick ∧
      ((spectra p hop source c).scales n).prevMag = (c.scales n).prevMag := by
    intro n
    unfold spectra fromReadahead polar
    simp only
    split <;> split <;> (try split) <;> exact ⟨rfl, rfl, rfl⟩
  have zt : ∀ n o k, transformed n (cutAt p n o source) k = 0 := fun n o k => transformed_zero (cut_zero hz) k
  refine ⟨⟨?_, ?_, ?_, ?_⟩, ?_⟩
  · intro n i; rw [(kept n).1]; exact h.acc n i
  · intro n hn; rw [(kept n).2.1]; exact h.pending n hn
  · intro n hn; rw [(kept n).2.2]; exact h.prev n hn
  · intro hh
    unfold spectra at hh ⊢
    simp only at hh ⊢
    split
    · exact zeroIn_set (fun k => by rw [zt, norm_zero]) _
    · rename_i hu
      simp only [hu, Bool.or_false] at hh
      exact h.ahead (by simpa using hh)
  · intro n hn
    unfold spectra
    simp only
    split
    · exact zeroIn_set (fun k => by rw [zt, norm_zero, zero_mul]) _
    · rename_i hp
      have hcopy : n = p.classificationFftSize ∧ (hop.useReadahead && c.haveReadahead && hop.inhop == hop.prevInhop) = true := by
        by_contra hx
        exact hp ⟨hn, hx⟩
      obtain ⟨hn', hcp⟩ := hcopy
      obtain ⟨⟨h1, h2⟩, _⟩ : (hop.useReadahead = true ∧ c.haveReadahead = true) ∧ (hop.inhop == hop.prevInhop) = true := by simpa [Bool.and_eq_true] using hcp
      rw [if_pos ⟨hn', h1⟩, hcp]
      unfold fromReadahead
      simp only [if_true]
      intro k hk
      rw [hn'] at hk
      have := h.ahead h2 k hk
      rw [List.getElem?_map]
      cases hr : c.raMag[k]? with
      | none => rfl
      | some a =>
        rw [hr] at this
        simp only [Option.getD_some] at this
        rw [this]; simp

/-- Formants leave silence. -/
theorem formed_mute {p : Params} (o : Open κ) (hop : Hop) {c : ChannelData κ} (h : Mute p c) : Mute p (formed p o hop c) := by
  refine ⟨⟨h.1.acc, h.1.pending, h.1.prev, h.1.ahead⟩, fun n hn k hk => ?_⟩
  show ((List.mapIdx _ _)[k]?).getD 0 = 0
  have := h.2 n hn k hk
  rw [List.getElem?_mapIdx]
  cases hr : (c.scales n).mag[k]? with
  | none => rfl
  | some a =>
    rw [hr] at this
    have : a = 0 := this
    rw [this]
    simp

theorem shaped_mute {p : Params} (o : Open κ) (hop : Hop) {source : List ℝ} (hz : ∀ a ∈ source, a = 0) {c : ChannelData κ} (h : Hush p c) : Mute p (shaped p o hop source c) :=
  formed_mute o hop (spectra_mute hop hz h)

theorem withPhases_mute {p : Params} {c : ChannelData κ} (h : Mute p c) (n : Nat) (q : List ℝ) : Mute p (withPhases n c q) := by
  have kept : ∀ m, ((withPhases n c q).scales m).acc = (c.scales m).acc ∧ ((withPhases n c q).scales m).pendingKick = (c.scales m).pendingKick ∧
      ((withPhases n c q).scales m).prevMag = (c.scales m).prevMag ∧ ((withPhases n c q).scales m).mag = (c.scales m).mag := by
    intro m
    unfold withPhases
    simp only
    split <;> exact ⟨rfl, rfl, rfl, rfl⟩
  refine ⟨⟨?_, ?_, ?_, h.1.ahead⟩, ?_⟩
  · intro m i; rw [(kept m).1]; exact h.1.acc m i
  · intro m hm; rw [(kept m).2.1]; exact h.1.pending m hm
  · intro m hm; rw [(kept m).2.2.1]; exact h.1.prev m hm
  · intro m hm; rw [(kept m).2.2.2]; exact h.2 m hm

theorem mapIdx_getD {l : List ℝ} {f : Nat → ℝ → ℝ} {k : Nat} (h : f k ((l[k]?).getD 0) = 0) : ((l.mapIdx f)[k]?).getD 0 = 0 := by
  rw [List.getElem?_mapIdx]
  cases hl : l[k]? with
  | none => rfl
  | some a => rw [hl] at h; simpa using h

theorem adjustPreKick_mute {p : Params} {c : ChannelData κ} (h : Mute p c) : Mute p (adjustPreKick p c) := by
  have kept : ∀ m, ((adjustPreKick p c).scales m).acc = (c.scales m).acc ∧ ((adjustPreKick p c).scales m).prevMag = (c.scales m).prevMag := by
    intro m
    unfold adjustPreKick
    simp only
    split
    · split
      · exact ⟨rfl, rfl⟩
      · split
        · exact ⟨rfl, rfl⟩
        · split <;> exact ⟨rfl, rfl⟩
    · exact ⟨rfl, rfl⟩
  have zero : ∀ m ∈ p.scales, ZeroIn p m ((adjustPreKick p c).scales m).pendingKick ∧ ZeroIn p m ((adjustPreKick p c).scales m).mag := by
    intro m hm
    have z1 := h.1.pending m hm
    have z2 := h.1.prev m hm
    have z3 := h.2 m hm
    unfold adjustPreKick
    simp only
    split
    · split
      · exact ⟨z1, z3⟩
      · split
        · unfold hold
          refine ⟨fun k hk => mapIdx_getD ?_, fun k hk => mapIdx_getD ?_⟩
          · rw [z3 k hk, z2 k hk, if_neg (by simp), z1 k hk]
          · rw [z3 k hk, z2 k hk, if_neg (by simp)]
        · split
          · unfold release
            refine ⟨fun k hk => mapIdx_getD ?_, fun k hk => mapIdx_getD ?_⟩
            · rw [z1 k hk]; split <;> rfl
            · rw [z3 k hk, z1 k hk]; split <;> simp
          · exact ⟨z1, z3⟩
    · exact ⟨z1, z3⟩
  refine ⟨⟨?_, fun m hm => (zero m hm).1, ?_, h.1.ahead⟩, fun m hm => (zero m hm).2⟩
  · intro m i; rw [(kept m).1]; exact h.1.acc m i
  · intro m hm; rw [(kept m).2]; exact h.1.prev m hm

theorem accumulate_mute {p : Params} {g : Guidance} (hg : Reachable p.guide g) {b : Guide.FftBand} (hb : b ∈ g.fftBands) (outhop : Nat) {s : Scale} (ha : ∀ i, s.acc i = 0)
    (hm : b.fftSize ∈ p.scales → ZeroIn p b.fftSize s.mag) (i : Nat) : accumulate p outhop b s i = 0 := by
  have hf : ∀ k, filtered p outhop b s k = 0 := by
    intro k
    unfold filtered
    simp only
    split
    · rename_i hk
      obtain ⟨a, c⟩ := inPolar_of_puts hg hb (k := k) hk
      rw [hm c k a]
      simp
    · rfl
  have ht : ∀ j, swapHalves b.fftSize (FFT.resum b.fftSize (filtered p outhop b s)) j = 0 := by
    intro j
    have : ∀ j, FFT.resum b.fftSize (filtered p outhop b s) j = 0 := by
      intro j
      rw [show filtered p outhop b s = fun _ => 0 from funext hf]
      simp [FFT.resum, FFT.mirrored]
    unfold swapHalves
    split <;> exact this _
  unfold accumulate
  simp only [ht, ha, zero_mul]
  split <;> simp

theorem bands_mute {p : Params} {g : Guidance} (hg : Reachable p.guide g) (outhop : Nat) : ∀ (bs : List Guide.FftBand), (∀ b ∈ bs, b ∈ g.fftBands) → ∀ (scales : Nat → Scale), (∀ n i, (scales n).acc i = 0) →
    (∀ n ∈ p.scales, ZeroIn p n (scales n).mag) → ∀ n i, (synthesiseBands p outhop bs scales n).acc i = 0 := by
  intro bs
  induction bs with
  | nil => intro _ scales h _; exact h
  | cons b bs ih =>
    intro hb scales h1 h2
    unfold synthesiseBands
    refine ih (fun b' h' => hb b' (by simp [h'])) _ ?_ ?_
    · intro n i
      unfold synthesiseBand
      split
      · rename_i e
        simp only
        rw [e]
        exact accumulate_mute hg (hb b (by simp)) outhop (h1 _) (h2 _) i
      · exact h1 n i
    · intro n hn
      unfold synthesiseBand
      split
      · exact h2 n hn
      · exact h2 n hn

theorem synthesise_mute {p : Params} (outhop : Nat) {c : ChannelData κ} (hg : Reachable p.guide c.guidance) (h : Mute p c) : Hush p (synthesise p outhop c).1 ∧ ∀ i, (synthesise p outhop c).2 i = 0 := by
  have hb := bands_mute hg outhop c.guidance.fftBands (fun _ h => h) c.scales h.1.acc h.2
  refine ⟨⟨?_, ?_, ?_, h.1.ahead⟩, ?_⟩
  · intro n i
    unfold synthesise
    simp only
    split
    · simp only [moveOn]
      split
      · exact hb _ _
      · rfl
    · exact hb _ _
  · intro n hn
    obtain ⟨_, _, _, _, e⟩ := synthesiseBands_facts p outhop c.guidance.fftBands c.scales n
    unfold synthesise
    simp only [if_pos hn, e]
    exact h.1.pending n hn
  · intro n hn
    obtain ⟨_, _, _, e, _⟩ := synthesiseBands_facts p outhop c.guidance.fftBands c.scales n
    unfold synthesise
    simp only [if_pos hn]
    rcases e with e | e <;> rw [e]
    · exact h.1.prev n hn
    · exact h.2 n hn
  · intro i
    unfold synthesise
    simp only
    refine List.sum_eq_zero ?_
    intro x hx
    obtain ⟨n, _, rfl⟩ := List.mem_map.mp hx
    exact hb n i

/-! ### A round -/

theorem analyseAll_mute {p : Params} (o : Open κ) (hop : Hop) : ∀ (sources : List (List ℝ)) (cs : List (ChannelData κ)) (k unity : Nat) (r : List (ChannelData κ) × Nat), (∀ x ∈ sources, ∀ a ∈ x, a = 0) → (∀ c ∈ cs, Hush p c) →
    analyseAll p o hop k unity sources cs = some r → ∀ c ∈ r.1, Mute p c := by
  intro sources
  induction sources with
  | nil => intro cs k unity r _ _ h; cases cs <;> (cases h; simp)
  | cons w ws ih =>
    intro cs k unity r hz hq h
    cases cs with
    | nil => cases h; simp
    | cons c cs =>
      unfold analyseAll at h
      obtain ⟨a, ha, h⟩ := Option.bind_eq_some_iff.mp h
      obtain ⟨b, hb, h⟩ := Option.bind_eq_some_iff.mp h
      cases h
      have hm := shaped_mute o hop (hz w (by simp)) (hq c (by simp))
      intro d hd
      rcases List.mem_cons.mp hd with rfl | hd
      · unfold analyse at ha
        simp only at ha
        rw [Option.map_eq_some_iff] at ha
        obtain ⟨g, _, rfl⟩ := ha
        exact ⟨⟨hm.1.acc, hm.1.pending, hm.1.prev, hm.1.ahead⟩, hm.2⟩
      · exact ih cs _ _ b (fun x hx => hz x (by simp [hx])) (fun c hc => hq c (by simp [hc])) hb d hd

theorem advanceAll_mute {p : Params} (hop : Hop) : ∀ (ns : List Nat) (s s' : Spectral κ), (∀ c ∈ s.chans, Mute p c) → advanceAll p hop ns s = some s' → ∀ c ∈ s'.chans, Mute p c := by
  intro ns
  induction ns with
  | nil => intro s s' h e; cases e; exact h
  | cons n ns ih =>
    intro s s' h e
    unfold advanceAll at e
    obtain ⟨s1, e1, e2⟩ := Option.bind_eq_some_iff.mp e
    refine ih s1 s' ?_ e2
    unfold advanceScale at e1
    obtain ⟨a, _, e1⟩ := Option.bind_eq_some_iff.mp e1
    cases e1
    intro c hc
    obtain ⟨i, hi, rfl⟩ := List.mem_iff_getElem.mp hc
    rw [List.getElem_zipWith]
    exact withPhases_mute (h _ (List.getElem_mem _)) n _

theorem spectralRound_mute {p : Params} (hc : 0 < p.channels) (o : Open κ) {s : Spectral κ} (h : Fits p s) (hq : ∀ c ∈ s.chans, Hush p c) (hop : Hop) {sources : List (List ℝ)} (hl : sources.length = p.channels)
    (hz : ∀ x ∈ sources, ∀ a ∈ x, a = 0) : ∃ r, spectralRound p o s hop sources = some r ∧ Fits p r.1 ∧ r.2.length = p.channels ∧ (∀ c ∈ r.1.chans, Hush p c) ∧ ∀ m ∈ r.2, ∀ i, m i = 0 := by
  obtain ⟨r, r1, r2, r3⟩ := spectralRound_some hc o h hop hl
  refine ⟨r, r1, r2, r3, ?_⟩
  obtain ⟨cs, u, e1, e2, e3⟩ := analyseAll_some (p := p) o hop sources s.chans 0 s.unity (by rw [hl, h.channels]) h.sized
  have hcs : ∀ c ∈ cs, Sized p c ∧ Reachable p.guide c.guidance := analysed_sized o hop (by rw [hl, h.channels]) h.sized e2 e3
  obtain ⟨s', a1, a2, a3⟩ := advanceAll_some hc hop p.scales (fun _ h => h) { s with chans := cs, unity := u }
    ⟨by rw [← h.channels]; exact e2, fun c hc => (hcs c hc).1, h.guided, h.fit⟩ (fun c hc => (hcs c hc).2)
  have m1 := analyseAll_mute o hop sources s.chans 0 s.unity (cs, u) hz hq e1
  have m2 := advanceAll_mute hop p.scales { s with chans := cs, unity := u } s' m1 a1
  unfold spectralRound at r1
  simp only [e1, a1, Option.bind_eq_bind, Option.bind_some] at r1
  cases r1
  have gk : ∀ c : ChannelData κ, (adjustPreKick p c).guidance = c.guidance := fun _ => rfl
  constructor
  · intro c hc
    simp only [List.map_map, List.mem_map, Function.comp] at hc
    obtain ⟨d, hd, rfl⟩ := hc
    exact (synthesise_mute _ (by rw [gk]; exact a3 d hd) (adjustPreKick_mute (m2 d hd))).1
  · intro m hm i
    simp only [List.map_map, List.mem_map, Function.comp] at hm
    obtain ⟨d, hd, rfl⟩ := hm
    exact (synthesise_mute _ (by rw [gk]; exact a3 d hd) (adjustPreKick_mute (m2 d hd))).2 i

theorem create_hush (p : Params) (o : Open κ) : ∀ c ∈ (Spectral.create p o).chans, Hush p c := by
  intro c hc
  rw [List.eq_of_mem_replicate hc]
  have z : ∀ (n m k : Nat), ((List.replicate m (0 : ℝ))[k]?).getD 0 = 0 := by
    intro n m k
    rw [List.getElem?_replicate]
    split <;> rfl
  refine ⟨fun _ _ => rfl, fun n _ k _ => z n _ k, fun n _ k _ => z n _ k, fun h => ?_⟩
  cases h

/-- A reset silences all. -/
theorem reset_hush (p : Params) (o : Open κ) (s : Spectral κ) : ∀ c ∈ (Spectral.reset p o s).chans, Hush p c := by
  intro c hc
  obtain ⟨d, hd, rfl⟩ := List.mem_map.mp hc
  have z : ∀ (l : List ℝ) (k : Nat), ((l.map fun _ => (0 : ℝ))[k]?).getD 0 = 0 := by
    intro l k
    rw [List.getElem?_map]
    cases l[k]? <;> rfl
  refine ⟨fun _ _ => rfl, fun n _ k _ => z _ k, fun n _ k _ => z _ k, fun h => ?_⟩
  cases h

end Verif.R3
