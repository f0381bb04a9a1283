import Verif.R3Spectral
import Verif.PhaseSafe
import Verif.R3Limits
/-! # The spectral part of the finer engine stays within its arrays -/
namespace Verif.R3
open Verif.Guide (Guidance Reachable)

variable {κ : Type}

theorem guide_supported (p : Params) : p.guide.Supported := by
  show 8000 ≤ validRate p.sampleRate ∧ validRate p.sampleRate ≤ 192000
  unfold validRate
  split
  · constructor <;> norm_num
  · split
    · constructor <;> norm_num
    · constructor <;> linarith

theorem guide_classify (p : Params) : p.guide.classify = p.classificationFftSize := rfl
theorem guide_longest (p : Params) : p.guide.longest = p.longestFftSize := rfl
theorem guide_shortest (p : Params) : p.guide.shortest = p.shortestFftSize := rfl

theorem classify_mem (p : Params) : p.classificationFftSize ∈ p.scales := by
  unfold Params.scales
  split <;> simp

theorem scale_of_mem {p : Params} {n : Nat} (h : n ∈ p.scales) : PhaseAdvance.Params.Scale ⟨p.guide, n⟩ := by
  unfold Params.scales at h
  unfold PhaseAdvance.Params.Scale
  show n = p.classificationFftSize ∨ p.windowShort = false ∧ (n = p.longestFftSize ∨ n = p.shortestFftSize)
  split at h
  · left; simpa using h
  · rename_i hw
    simp only [List.mem_cons, List.not_mem_nil, or_false] at h
    rcases h with h | h | h
    · exact Or.inr ⟨by simpa using hw, Or.inl h⟩
    · exact Or.inl h
    · exact Or.inr ⟨by simpa using hw, Or.inr h⟩

/-- A guidance the guide has given, or one to begin with: that of the stretcher (Guide.h:70-80) or that of the live shifter (R3LiveShifter.cpp:109-111). -/
def Started (p : Guide.Params) (g : Guidance) : Prop := Reachable p g ∨ g = {} ∨ p.single = true ∧ g = { phaseReset := ⟨true, 0, p.nyquist⟩ }

/-- The arrays are as large as they have to be, and the guidance is one that the guide has given. -/
structure Sized (p : Params) (c : ChannelData κ) : Prop where
  mag : ∀ n ∈ p.scales, n / 2 + 1 ≤ (c.scales n).mag.length
  phase : ∀ n ∈ p.scales, n / 2 + 1 ≤ (c.scales n).phase.length
  advanced : ∀ n ∈ p.scales, n / 2 + 1 ≤ (c.scales n).advanced.length
  prevMag : ∀ n ∈ p.scales, n / 2 + 1 ≤ (c.scales n).prevMag.length
  pending : ∀ n ∈ p.scales, n / 2 + 1 ≤ (c.scales n).pendingKick.length
  raMag : p.classificationFftSize / 2 + 1 ≤ c.raMag.length
  raPhase : p.classificationFftSize / 2 + 1 ≤ c.raPhase.length
  guidance : Started p.guide c.guidance

/-- The same of the whole. -/
structure Fits (p : Params) (s : Spectral κ) : Prop where
  channels : s.chans.length = p.channels
  sized : ∀ c ∈ s.chans, Sized p c
  guided : ∀ n ∈ p.scales, (s.guided n).length = p.channels
  fit : ∀ n ∈ p.scales, ∀ c ∈ s.guided n, PhaseAdvance.Fit ⟨p.guide, n⟩ c

theorem setFrom_length {α : Type} (lo n : Nat) (f : Nat → α) (l : List α) : (setFrom lo n f l).length = l.length := by simp [setFrom]

theorem setFrom_get {α : Type} {lo n : Nat} {f : Nat → α} {l : List α} {i : Nat} (h1 : lo ≤ i) (h2 : i < lo + n) (h3 : i < l.length) : (setFrom lo n f l)[i]? = some (f i) := by
  unfold setFrom
  rw [List.getElem?_mapIdx, List.getElem?_eq_getElem h3, Option.map_some, if_pos ⟨h1, h2⟩]

theorem polar_sized (p : Params) (n : Nat) (x : Nat → ℝ) (s : Scale) :
    (polar p n x s).mag.length = s.mag.length ∧ (polar p n x s).phase.length = s.phase.length ∧ (polar p n x s).advanced = s.advanced ∧ (polar p n x s).prevMag = s.prevMag ∧
      (polar p n x s).acc = s.acc ∧ (polar p n x s).pendingKick = s.pendingKick := by
  simp [polar, setFrom_length]

theorem spectra_sized {p : Params} (hop : Hop) (source : List ℝ) {c : ChannelData κ} (h : Sized p c) : Sized p (spectra p hop source c) := by
  have hs : ∀ n ∈ p.scales, n / 2 + 1 ≤ ((spectra p hop source c).scales n).mag.length ∧ n / 2 + 1 ≤ ((spectra p hop source c).scales n).phase.length ∧
      ((spectra p hop source c).scales n).advanced = (c.scales n).advanced ∧ ((spectra p hop source c).scales n).prevMag = (c.scales n).prevMag ∧
      ((spectra p hop source c).scales n).pendingKick = (c.scales n).pendingKick := by
    intro n hn
    have h1 := h.mag n hn
    have h2 := h.phase n hn
    have h3 := h.raMag
    have h4 := h.raPhase
    unfold spectra
    simp only
    generalize hs0 : (if n = p.classificationFftSize ∧ hop.useReadahead = true then fromReadahead p (hop.useReadahead && c.haveReadahead && hop.inhop == hop.prevInhop) c (c.scales n) else c.scales n) = s0
    have key : n / 2 + 1 ≤ s0.mag.length ∧ n / 2 + 1 ≤ s0.phase.length ∧ s0.advanced = (c.scales n).advanced ∧ s0.prevMag = (c.scales n).prevMag ∧ s0.pendingKick = (c.scales n).pendingKick := by
      rw [← hs0]
      split
      · rename_i hc
        unfold fromReadahead
        rw [hc.1] at h1 h2 ⊢
        cases (hop.useReadahead && c.haveReadahead && hop.inhop == hop.prevInhop) <;> simp <;> omega
      · exact ⟨h1, h2, rfl, rfl, rfl⟩
    split
    · obtain ⟨e1, e2, e3, e4, _, e5⟩ := polar_sized p n (cutAt p n ((p.longestFftSize - n) / 2) source) s0
      rw [e1, e2, e3, e4, e5]
      exact key
    · exact key
  refine ⟨fun n hn => (hs n hn).1, fun n hn => (hs n hn).2.1, ?_, ?_, ?_, ?_, ?_, h.guidance⟩
  · intro n hn; rw [(hs n hn).2.2.1]; exact h.advanced n hn
  · intro n hn; rw [(hs n hn).2.2.2.1]; exact h.prevMag n hn
  · intro n hn; rw [(hs n hn).2.2.2.2]; exact h.pending n hn
  · show p.classificationFftSize / 2 + 1 ≤ (if _ then setFrom _ _ _ _ else _).length
    split
    · rw [setFrom_length]; exact h.raMag
    · exact h.raMag
  · show p.classificationFftSize / 2 + 1 ≤ (if _ then setFrom _ _ _ _ else _).length
    split
    · rw [setFrom_length]; exact h.raPhase
    · exact h.raPhase

/-- Formants change nothing but magnitudes. -/
theorem formed_sized {p : Params} (o : Open κ) (hop : Hop) {c : ChannelData κ} (h : Sized p c) : Sized p (formed p o hop c) :=
  ⟨fun n hn => by show n / 2 + 1 ≤ (List.mapIdx _ _).length; rw [List.length_mapIdx]; exact h.mag n hn, h.phase, h.advanced, h.prevMag, h.pending, h.raMag, h.raPhase, h.guidance⟩

theorem shaped_sized {p : Params} (o : Open κ) (hop : Hop) (source : List ℝ) {c : ChannelData κ} (h : Sized p c) : Sized p (shaped p o hop source c) := formed_sized o hop (spectra_sized hop source h)

theorem updates_snoc (p : Guide.Params) : ∀ (fs : List Guide.Frame) (g : Guidance) (f : Guide.Frame), Guide.updates p (fs ++ [f]) g = (Guide.updates p fs g).bind (Guide.updateGuidance p f) := by
  intro fs
  induction fs with
  | nil =>
    intro g f
    show (Guide.updateGuidance p f g).bind _ = Guide.updateGuidance p f g
    cases Guide.updateGuidance p f g <;> rfl
  | cons x xs ih =>
    intro g f
    show (Guide.updateGuidance p x g).bind _ = _
    simp only [Guide.updates]
    cases h : Guide.updateGuidance p x g with
    | none => rfl
    | some g' => exact ih g' f

/-- A frame of silence leads from nothing to where the live shifter begins, as far as the guide can tell. -/
theorem start_update {p : Guide.Params} (h1 : p.single = true) (f : Guide.Frame) :
    Guide.updateGuidance p { f with mean := 0, resetOnSilence := true } {} = some (Guide.updateForSilence p (Guide.singleBands p f.ratio f.outhop (Guide.cleared {}))) ∧
    Guide.updateGuidance p f { phaseReset := ⟨true, 0, p.nyquist⟩ } = Guide.updateGuidance p f (Guide.updateForSilence p (Guide.singleBands p f.ratio f.outhop (Guide.cleared {}))) := by
  constructor
  · unfold Guide.updateGuidance
    simp only [h1, if_true, Bool.true_and]
    rw [if_pos (by norm_num)]
  · unfold Guide.updateGuidance
    simp only [h1, if_true, Guide.updateForSilence, Guide.singleBands, Guide.cleared]

theorem reachable_update {p : Guide.Params} (hp : p.Supported) {f : Guide.Frame} (hw : Guide.Whole p f) {g : Guidance} (h : Started p g) :
    ∃ g', Guide.updateGuidance p f g = some g' ∧ Reachable p g' := by
  obtain ⟨fs, b, hfs, hb, hg, low⟩ : ∃ fs b, (∀ f ∈ fs, Guide.Whole p f) ∧ Guide.updates p fs {} = some b ∧ Guide.updateGuidance p f g = Guide.updateGuidance p f b ∧ Guide.Low p b := by
    rcases h with h | rfl | ⟨h1, rfl⟩
    · obtain ⟨fs, h0, h1, h2⟩ := h
      exact ⟨fs, g, h1, h2, rfl, (Guide.reachable_low hp ⟨fs, h0, h1, h2⟩).1⟩
    · exact ⟨[], {}, by simp, rfl, rfl, le_refl _, le_refl _, le_refl _, le_refl _, le_refl _, le_refl _⟩
    · obtain ⟨e1, e2⟩ := start_update h1 f
      have w : ∀ x ∈ [{ f with mean := 0, resetOnSilence := true }], Guide.Whole p x := by
        intro x hx
        rw [List.mem_singleton.mp hx]
        exact ⟨hw.mags, hw.prev, hw.next⟩
      have u : Guide.updates p [{ f with mean := 0, resetOnSilence := true }] {} = some (Guide.updateForSilence p (Guide.singleBands p f.ratio f.outhop (Guide.cleared {}))) := by
        simp only [Guide.updates, e1, Option.bind_some]
      exact ⟨_, _, w, u, e2, (Guide.reachable_low hp ⟨_, by simp, w, u⟩).1⟩
  obtain ⟨g', h1, _⟩ := Guide.update_low hp hw low
  refine ⟨g', by rw [hg]; exact h1, fs ++ [f], by simp, ?_, ?_⟩
  · intro x hx
    rcases List.mem_append.mp hx with hx | hx
    · exact hfs x hx
    · rw [List.mem_singleton.mp hx]; exact hw
  · rw [updates_snoc, hb]; exact h1

theorem analyse_sized {p : Params} (o : Open κ) (hop : Hop) (k : Nat) (source : List ℝ) (unity : Nat) {c : ChannelData κ} (h : Sized p c) :
    ∃ g rest seen, analyse p o hop k source unity c = some ({ shaped p o hop source c with rest := rest, guidance := g }, countUnity hop unity) ∧ Reachable p.guide g ∧
      Guide.updateGuidance p.guide (frameFor p o hop k (countUnity hop unity) seen (shaped p o hop source c)) c.guidance = some g := by
  have hs := shaped_sized o hop source h
  have cm := classify_mem p
  unfold analyse
  generalize hl : o.look (shaped p o hop source c).rest (if hop.useReadahead then (shaped p o hop source c).raMag else ((shaped p o hop source c).scales p.classificationFftSize).mag)
    ((shaped p o hop source c).scales p.classificationFftSize).mag = l
  obtain ⟨rest, seen⟩ := l
  obtain ⟨g, h1, h2⟩ := reachable_update (guide_supported p) (f := frameFor p o hop k (countUnity hop unity) seen (shaped p o hop source c)) (by
    refine ⟨?_, ?_, ?_⟩
    · show p.classificationFftSize / 2 + 1 ≤ (List.map _ _).length
      rw [List.length_map]
      split
      · exact hs.mag _ cm
      · exact hs.prevMag _ cm
    · show p.classificationFftSize / 2 + 1 ≤ (List.map _ _).length
      rw [List.length_map]
      exact hs.prevMag _ cm
    · show p.classificationFftSize / 2 + 1 ≤ (List.map _ _).length
      rw [List.length_map]
      split
      · exact hs.raMag
      · exact hs.mag _ cm) h.guidance
  refine ⟨g, rest, seen, ?_, h2, h1⟩
  simp only [hl]
  rw [show (shaped p o hop source c).guidance = c.guidance from rfl, h1]
  rfl

theorem Sized.with {p : Params} {c : ChannelData κ} (h : Sized p c) {g : Guidance} (hg : Reachable p.guide g) (rest : κ) : Sized p { c with rest := rest, guidance := g } :=
  ⟨h.mag, h.phase, h.advanced, h.prevMag, h.pending, h.raMag, h.raPhase, Or.inl hg⟩

/-- The analysis of all channels. -/
theorem analyseAll_some {p : Params} (o : Open κ) (hop : Hop) : ∀ (sources : List (List ℝ)) (cs : List (ChannelData κ)) (k unity : Nat), sources.length = cs.length → (∀ c ∈ cs, Sized p c) →
    ∃ cs' u, analyseAll p o hop k unity sources cs = some (cs', u) ∧ cs'.length = cs.length ∧ ∀ i c w, cs[i]? = some c → sources[i]? = some w → ∃ v c',
      analyse p o hop (k + i) w v c = some (c', countUnity hop v) ∧ cs'[i]? = some c' := by
  intro sources
  induction sources with
  | nil =>
    intro cs k unity hl _
    have : cs = [] := List.length_eq_zero_iff.mp (by simpa using hl.symm)
    subst this
    exact ⟨[], unity, rfl, rfl, by simp⟩
  | cons w ws ih =>
    intro cs k unity hl hs
    cases cs with
    | nil => simp at hl
    | cons c cs =>
      obtain ⟨g, rest, seen, h1, h2, _⟩ := analyse_sized o hop k w unity (hs c (by simp))
      obtain ⟨cs', u, e1, e2, e3⟩ := ih cs (k + 1) (countUnity hop unity) (by simpa using hl) (fun c hc => hs c (by simp [hc]))
      refine ⟨{ shaped p o hop w c with rest := rest, guidance := g } :: cs', u, ?_, by simp [e2], ?_⟩
      · unfold analyseAll
        simp only [h1, e1, Option.bind_eq_bind, Option.bind_some]
        rfl
      · intro i c0 w0 hc hw
        cases i with
        | zero =>
          simp only [List.getElem?_cons_zero, Option.some.injEq] at hc hw
          subst hc hw
          exact ⟨unity, _, h1, by simp⟩
        | succ i =>
          simp only [List.getElem?_cons_succ] at hc hw
          obtain ⟨v, c', f1, f2⟩ := e3 i c0 w0 hc hw
          exact ⟨v, c', by rw [← f1]; congr 1; omega, by simpa using f2⟩

theorem withPhases_sized {p : Params} {n : Nat} {c : ChannelData κ} (h : Sized p c) {ph : List ℝ} (hp : n / 2 + 1 ≤ ph.length) : Sized p (withPhases n c ph) := by
  refine ⟨?_, ?_, ?_, ?_, ?_, h.raMag, h.raPhase, h.guidance⟩ <;> intro m hm <;> simp only [withPhases] <;> by_cases e : m = n
  · rw [if_pos e]; exact h.mag m hm
  · rw [if_neg e]; exact h.mag m hm
  · rw [if_pos e]; exact h.phase m hm
  · rw [if_neg e]; exact h.phase m hm
  · rw [if_pos e, e]; exact hp
  · rw [if_neg e]; exact h.advanced m hm
  · rw [if_pos e]; exact h.prevMag m hm
  · rw [if_neg e]; exact h.prevMag m hm
  · rw [if_pos e]; exact h.pending m hm
  · rw [if_neg e]; exact h.pending m hm

/-- The phases of a scale: what is passed, and what comes of it. -/
theorem advanceScale_some {p : Params} (hc : 0 < p.channels) (hop : Hop) {n : Nat} (hn : n ∈ p.scales) {s : Spectral κ} (h : Fits p s) (hg : ∀ c ∈ s.chans, Reachable p.guide c.guidance) :
    ∃ guided phases, PhaseAdvance.advance Real.pi ⟨p.guide, n⟩ p.useMidSide hop.prevInhop hop.prevOuthop (s.guided n) (s.chans.map (inputOf n)) (s.chans.map fun c => (c.scales n).advanced) =
        some (guided, phases) ∧ phases.length = p.channels ∧
      advanceScale p hop n s = some { s with guided := fun m => if m = n then guided else s.guided m, chans := List.zipWith (withPhases n) s.chans phases } ∧
      Fits p { s with guided := fun m => if m = n then guided else s.guided m, chans := List.zipWith (withPhases n) s.chans phases } ∧
      ∀ c ∈ List.zipWith (withPhases n) s.chans phases, Reachable p.guide c.guidance := by
  obtain ⟨gs, ph, a1, a2, a3, a4, a5⟩ := PhaseAdvance.advance_safe (p := ⟨p.guide, n⟩) Real.pi (guide_supported p) (scale_of_mem hn) p.useMidSide hop.prevInhop hop.prevOuthop
    (cs := s.guided n) (xs := s.chans.map (inputOf n)) (outs := s.chans.map fun c => (c.scales n).advanced)
    (by intro e; have := h.guided n hn; rw [e] at this; simp at this; omega)
    (by rw [h.guided n hn, List.length_map, h.channels]) (by rw [h.guided n hn, List.length_map, h.channels]) (h.fit n hn)
    (by
      intro x hx
      obtain ⟨c, hc, rfl⟩ := List.mem_map.mp hx
      exact ⟨(h.sized c hc).mag n hn, (h.sized c hc).phase n hn, (h.sized c hc).prevMag n hn, hg c hc⟩)
    (by
      intro x hx
      obtain ⟨c, hc, rfl⟩ := List.mem_map.mp hx
      exact (h.sized c hc).advanced n hn)
  have hmem : ∀ c ∈ List.zipWith (withPhases n) s.chans ph, ∃ d ∈ s.chans, ∃ q ∈ ph, c = withPhases n d q := by
    intro c hc
    obtain ⟨i, hi, e⟩ := List.getElem_of_mem hc
    rw [List.getElem_zipWith] at e
    exact ⟨_, List.getElem_mem _, _, List.getElem_mem _, e.symm⟩
  refine ⟨gs, ph, a1, by rw [a3, h.guided n hn], ?_, ?_, ?_⟩
  · unfold advanceScale
    simp only [a1, Option.bind_eq_bind, Option.bind_some]
    rfl
  · refine ⟨?_, ?_, ?_, ?_⟩
    · simp only [List.length_zipWith]
      rw [h.channels, a3, h.guided n hn, Nat.min_self]
    · intro c hc
      obtain ⟨d, hd, q, hq, rfl⟩ := hmem c hc
      exact withPhases_sized (h.sized d hd) (a5 q hq)
    · intro m hm
      by_cases e : m = n
      · simp only [if_pos e]; rw [a2, h.guided n hn]
      · simp only [if_neg e]; exact h.guided m hm
    · intro m hm
      by_cases e : m = n
      · simp only [if_pos e]; rw [e]; exact a4
      · simp only [if_neg e]; exact h.fit m hm
  · intro c hc
    obtain ⟨d, hd, q, hq, rfl⟩ := hmem c hc
    exact hg d hd

theorem advanceAll_some {p : Params} (hc : 0 < p.channels) (hop : Hop) : ∀ (ns : List Nat), (∀ n ∈ ns, n ∈ p.scales) → ∀ (s : Spectral κ), Fits p s →
    (∀ c ∈ s.chans, Reachable p.guide c.guidance) → ∃ s', advanceAll p hop ns s = some s' ∧ Fits p s' ∧ ∀ c ∈ s'.chans, Reachable p.guide c.guidance := by
  intro ns
  induction ns with
  | nil => intro _ s h hg; exact ⟨s, rfl, h, hg⟩
  | cons n ns ih =>
    intro hn s h hg
    obtain ⟨gs, ph, _, _, e1, e2, e3⟩ := advanceScale_some hc hop (hn n (by simp)) h hg
    obtain ⟨s', f1, f2⟩ := ih (fun m hm => hn m (by simp [hm])) _ e2 e3
    exact ⟨s', by unfold advanceAll; rw [e1]; exact f1, f2⟩

theorem adjustPreKick_sized {p : Params} {c : ChannelData κ} (h : Sized p c) : Sized p (adjustPreKick p c) := by
  have key : ∀ m, ((adjustPreKick p c).scales m).mag.length = (c.scales m).mag.length ∧ ((adjustPreKick p c).scales m).phase = (c.scales m).phase ∧
      ((adjustPreKick p c).scales m).advanced = (c.scales m).advanced ∧ ((adjustPreKick p c).scales m).prevMag = (c.scales m).prevMag ∧
      ((adjustPreKick p c).scales m).pendingKick.length = (c.scales m).pendingKick.length := by
    intro m
    unfold adjustPreKick
    simp only
    split
    · split
      · simp
      · split
        · simp [hold]
        · split
          · simp [release]
          · simp
    · simp
  refine ⟨?_, ?_, ?_, ?_, ?_, h.raMag, h.raPhase, h.guidance⟩ <;> intro m hm <;> obtain ⟨k1, k2, k3, k4, k5⟩ := key m
  · rw [k1]; exact h.mag m hm
  · rw [k2]; exact h.phase m hm
  · rw [k3]; exact h.advanced m hm
  · rw [k4]; exact h.prevMag m hm
  · rw [k5]; exact h.pending m hm

theorem synthesiseBands_facts (p : Params) (outhop : Nat) : ∀ (bs : List Guide.FftBand) (scales : Nat → Scale) (n : Nat),
    (synthesiseBands p outhop bs scales n).mag = (scales n).mag ∧ (synthesiseBands p outhop bs scales n).phase = (scales n).phase ∧
      (synthesiseBands p outhop bs scales n).advanced = (scales n).advanced ∧
      ((synthesiseBands p outhop bs scales n).prevMag = (scales n).prevMag ∨ (synthesiseBands p outhop bs scales n).prevMag = (scales n).mag) ∧
      (synthesiseBands p outhop bs scales n).pendingKick = (scales n).pendingKick := by
  intro bs
  induction bs with
  | nil => intro scales n; exact ⟨rfl, rfl, rfl, Or.inl rfl, rfl⟩
  | cons b bs ih =>
    intro scales n
    obtain ⟨e1, e2, e3, e4, e5⟩ := ih (synthesiseBand p outhop b scales) n
    unfold synthesiseBands
    rw [e1, e2, e3, e5]
    unfold synthesiseBand at e4 ⊢
    by_cases e : n = b.fftSize
    · simp only [if_pos e] at e4 ⊢
      refine ⟨trivial, trivial, trivial, ?_, trivial⟩
      rcases e4 with e4 | e4
      · exact Or.inr e4
      · exact Or.inr e4
    · simp only [if_neg e] at e4 ⊢
      exact ⟨trivial, trivial, trivial, e4, trivial⟩

theorem synthesise_sized {p : Params} (outhop : Nat) {c : ChannelData κ} (h : Sized p c) : Sized p (synthesise p outhop c).1 := by
  have key : ∀ n ∈ p.scales, ∃ acc, (synthesise p outhop c).1.scales n = { synthesiseBands p outhop c.guidance.fftBands c.scales n with acc := acc } := by
    intro n hn
    exact ⟨_, by show (if n ∈ p.scales then _ else _) = _; rw [if_pos hn]⟩
  refine ⟨?_, ?_, ?_, ?_, ?_, h.raMag, h.raPhase, h.guidance⟩ <;> intro n hn <;> obtain ⟨acc, e⟩ := key n hn <;> rw [e] <;>
    obtain ⟨e1, e2, e3, e4, e5⟩ := synthesiseBands_facts p outhop c.guidance.fftBands c.scales n
  · rw [e1]; exact h.mag n hn
  · rw [e2]; exact h.phase n hn
  · rw [e3]; exact h.advanced n hn
  · rcases e4 with e4 | e4 <;> simp only [e4]
    · exact h.prevMag n hn
    · exact h.mag n hn
  · simp only [e5]; exact h.pending n hn

/-- What the analysis gives. -/
theorem analysed_sized {p : Params} (o : Open κ) (hop : Hop) {sources : List (List ℝ)} {old cs : List (ChannelData κ)} (hl : sources.length = old.length) (h : ∀ c ∈ old, Sized p c) (e2 : cs.length = old.length)
    (e3 : ∀ i c w, old[i]? = some c → sources[i]? = some w → ∃ v c', analyse p o hop (0 + i) w v c = some (c', countUnity hop v) ∧ cs[i]? = some c') :
    ∀ c ∈ cs, Sized p c ∧ Reachable p.guide c.guidance := by
  intro c hc
  obtain ⟨i, hi, rfl⟩ := List.getElem_of_mem hc
  obtain ⟨v, c', f1, f2⟩ := e3 i old[i] (sources[i]'(by rw [hl]; omega)) (List.getElem?_eq_getElem (by omega)) (List.getElem?_eq_getElem _)
  rw [List.getElem?_eq_getElem hi] at f2
  cases f2
  have hz := h _ (List.getElem_mem (by omega : i < old.length))
  obtain ⟨g, rest, seen, g1, g2, _⟩ := analyse_sized o hop (0 + i) (sources[i]'(by rw [hl]; omega)) v hz
  rw [g1] at f1
  have e : _ = cs[i] := (Prod.mk.inj (Option.some.inj f1)).1
  rw [← e]
  exact ⟨(shaped_sized o hop _ hz).with g2 rest, g2⟩

/-- A round comes to its end without leaving an array. -/
theorem spectralRound_some {p : Params} (hc : 0 < p.channels) (o : Open κ) {s : Spectral κ} (h : Fits p s) (hop : Hop) {sources : List (List ℝ)} (hl : sources.length = p.channels) :
    ∃ r, spectralRound p o s hop sources = some r ∧ Fits p r.1 ∧ r.2.length = p.channels := by
  obtain ⟨cs, u, e1, e2, e3⟩ := analyseAll_some (p := p) o hop sources s.chans 0 s.unity (by rw [hl, h.channels]) h.sized
  have hcs : ∀ c ∈ cs, Sized p c ∧ Reachable p.guide c.guidance := analysed_sized o hop (by rw [hl, h.channels]) h.sized e2 e3
  obtain ⟨s', a1, a2, a3⟩ := advanceAll_some hc hop p.scales (fun _ h => h) { s with chans := cs, unity := u }
    ⟨by rw [← h.channels]; exact e2, fun c hc => (hcs c hc).1, h.guided, h.fit⟩ (fun c hc => (hcs c hc).2)
  refine ⟨_, by unfold spectralRound; simp only [e1, a1, Option.bind_eq_bind, Option.bind_some]; rfl, ?_, ?_⟩
  · refine ⟨by simp [a2.channels], ?_, a2.guided, a2.fit⟩
    intro c hc
    simp only [List.map_map, List.mem_map, Function.comp] at hc
    obtain ⟨d, hd, rfl⟩ := hc
    exact synthesise_sized _ (adjustPreKick_sized (a2.sized d hd))
  · simp [a2.channels]

theorem create_fits (p : Params) (o : Open κ) : Fits p (Spectral.create p o) := by
  refine ⟨by simp [Spectral.create], ?_, fun n _ => by simp [Spectral.create], ?_⟩
  · intro c hc
    rw [List.eq_of_mem_replicate hc]
    refine ⟨?_, ?_, ?_, ?_, ?_, ?_, ?_, Or.inr (Or.inl rfl)⟩ <;> simp [ChannelData.create, Scale.create]
  · intro n _ c hc
    rw [List.eq_of_mem_replicate hc]
    refine ⟨by simp [PhaseAdvance.create], by simp [PhaseAdvance.create], by simp [PhaseAdvance.create], by simp [PhaseAdvance.create], by simp [PhaseAdvance.create], ?_, ?_⟩
    · intro x hx
      have := List.eq_of_mem_replicate hx
      have := PhaseAdvance.bins_pos ⟨p.guide, n⟩
      omega
    · intro x hx
      simp only [PhaseAdvance.create, List.mem_map, List.mem_range] at hx
      obtain ⟨a, ha, rfl⟩ := hx
      simp only [Int.ofNat_eq_natCast]
      omega

theorem reset_fits {p : Params} (o : Open κ) {s : Spectral κ} (h : Fits p s) : Fits p (Spectral.reset p o s) := by
  refine ⟨by simp [Spectral.reset, h.channels], ?_, fun n hn => by simp [Spectral.reset, h.guided n hn], ?_⟩
  · intro c hc
    obtain ⟨d, hd, rfl⟩ := List.mem_map.mp hc
    have hz := h.sized d hd
    refine ⟨hz.mag, hz.phase, hz.advanced, ?_, ?_, hz.raMag, hz.raPhase, hz.guidance⟩ <;> intro n hn <;> simp only [ChannelData.reset, Scale.reset, List.length_map]
    · exact hz.prevMag n hn
    · exact hz.pending n hn
  · intro n hn c hc
    obtain ⟨d, hd, rfl⟩ := List.mem_map.mp hc
    have fd := h.fit n hn d hd
    refine ⟨fd.cur, by simp [PhaseAdvance.reset], by simp [PhaseAdvance.reset], by simp [PhaseAdvance.reset], fd.unl, fd.curIn, ?_⟩
    intro x hx
    have := List.eq_of_mem_replicate hx
    have := PhaseAdvance.bins_pos ⟨p.guide, n⟩
    omega

end Verif.R3
