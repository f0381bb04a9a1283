import Verif.R3UnityRound
/-! # A whole round of the finer engine at unity, offline or with one window -/
namespace Verif.R3
open Verif.Guide (Guidance Reachable)

variable {κ : Type}

/-- Where the frame of the classification scale begins. -/
def Params.offset (p : Params) : Nat := (p.longestFftSize - p.classificationFftSize) / 2

/-- The frame of the classification scale, cut at a distance from where it begins. -/
noncomputable def frameAt (p : Params) (d : Nat) (source : List ℝ) : Nat → ℝ := cutAt p p.classificationFftSize (p.offset + d) source

/-- These magnitudes (times a factor) and phases are those of the frame. -/
def Shows (p : Params) (a : ℝ) (x : Nat → ℝ) (mag phase : List ℝ) : Prop :=
  ∀ k ≤ p.classificationFftSize / 2, mag[k]? = some (‖transformed p.classificationFftSize x k‖ * a) ∧ phase[k]? = some (transformed p.classificationFftSize x k).arg

theorem shows_set {p : Params} {x : Nat → ℝ} (a : ℝ) {mag phase : List ℝ} (hm : p.classificationFftSize / 2 + 1 ≤ mag.length) (hp : p.classificationFftSize / 2 + 1 ≤ phase.length) :
    Shows p a x (setFrom (polarRange p p.classificationFftSize).1 (polarRange p p.classificationFftSize).2 (fun k => ‖transformed p.classificationFftSize x k‖ * a) mag)
      (setFrom (polarRange p p.classificationFftSize).1 (polarRange p p.classificationFftSize).2 (fun k => (transformed p.classificationFftSize x k).arg) phase) := by
  intro k hk
  rw [polarRange_classify]
  exact ⟨setFrom_get (by omega) (by simp only; omega) (by omega), setFrom_get (by omega) (by simp only; omega) (by omega)⟩

theorem spectra_classify {p : Params} {hop : Hop} {source : List ℝ} {c : ChannelData κ} (hs : Sized p c)
    (hra : hop.useReadahead = true → c.haveReadahead = true → Shows p 1 (frameAt p 0 source) c.raMag c.raPhase) :
    Shows p (1 / p.classificationFftSize) (frameAt p 0 source) ((spectra p hop source c).scales p.classificationFftSize).mag ((spectra p hop source c).scales p.classificationFftSize).phase := by
  have cm := classify_mem p
  unfold spectra
  simp only
  by_cases hcopy : (hop.useReadahead && c.haveReadahead && hop.inhop == hop.prevInhop) = true
  · rw [hcopy]
    obtain ⟨⟨h1, h2⟩, _⟩ : (hop.useReadahead = true ∧ c.haveReadahead = true) ∧ (hop.inhop == hop.prevInhop) = true := by simpa [Bool.and_eq_true] using hcopy
    rw [if_neg (by simp), if_pos ⟨trivial, h1⟩]
    intro k hk
    obtain ⟨a, b⟩ := hra h1 h2 k hk
    unfold fromReadahead
    simp only [if_true]
    refine ⟨?_, b⟩
    rw [List.getElem?_map, a, Option.map_some, mul_one]
  · rw [Bool.not_eq_true] at hcopy
    rw [hcopy, if_pos ⟨cm, by simp⟩]
    unfold polar
    simp only
    refine shows_set _ ?_ ?_
    · split
      · simp only [fromReadahead, Bool.false_eq_true, if_false, List.length_map]; exact hs.mag _ cm
      · exact hs.mag _ cm
    · split
      · simp only [fromReadahead, Bool.false_eq_true, if_false]; exact hs.phase _ cm
      · exact hs.phase _ cm

theorem spectra_ahead {p : Params} {hop : Hop} {source : List ℝ} {c : ChannelData κ} (hs : Sized p c) (hu : hop.useReadahead = true) :
    Shows p 1 (frameAt p hop.inhop source) (spectra p hop source c).raMag (spectra p hop source c).raPhase := by
  unfold spectra
  simp only [hu, if_true]
  have := shows_set (x := frameAt p hop.inhop source) 1 hs.raMag hs.raPhase
  simp only [mul_one] at this
  intro k hk
  rw [mul_one]
  have := this k hk
  rw [mul_one] at this
  exact this

theorem spectra_acc (p : Params) (hop : Hop) (source : List ℝ) (c : ChannelData κ) (n : Nat) : ((spectra p hop source c).scales n).acc = (c.scales n).acc := by
  unfold spectra fromReadahead polar
  simp only
  split <;> split <;> (try split) <;> rfl

/-- The formants are where they should be. -/
def Unmoved (o : Open κ) (hop : Hop) : Prop := o.preserved = false ∨ hop.formantScale = .fin 0 ∧ hop.pitchScale = 1 ∨ hop.formantScale = .fin 1

/-- With this formant scale and without a pitch shift, the formants are where they should be. -/
def Open.still (o : Open κ) (x : Dbl) : Prop := o.preserved = false ∨ x = .fin 0 ∨ x = .fin 1

theorem formed_eq {p : Params} {o : Open κ} {hop : Hop} (h : Unmoved o hop) (c : ChannelData κ) : formed p o hop c = c := by
  have key : ∀ mag n i, formantFactor p o hop mag n i = 1 := by
    intro mag n i
    unfold formantFactor
    split
    · rename_i hr
      have hσ : ∃ q, hop.formantScale = .fin q ∧ (if q = 0 then 1 / hop.pitchScale else q) = 1 := by
        rcases h with h | ⟨h1, h2⟩ | h
        · rw [h] at hr; exact absurd hr.1 (by simp)
        · exact ⟨0, h1, by rw [h2]; norm_num⟩
        · exact ⟨1, h, by norm_num⟩
      obtain ⟨q, h1, h2⟩ := hσ
      simp only [h1]
      rw [h2]
      have hn : 0 < n := by
        obtain ⟨l, hl, e, _⟩ := hr.2
        have hc := Guide.classify_ge p.guide
        unfold Guide.bandLimits at hl
        split at hl
        · rw [List.mem_singleton.mp hl] at e
          rw [← e]; show 0 < p.guide.classify; omega
        · rename_i hs
          simp only [List.mem_cons, List.not_mem_nil, or_false] at hl
          rcases hl with rfl | rfl | rfl <;> rw [← e]
          · show 0 < p.guide.longest
            simp [Guide.Params.longest, hs]; omega
          · show 0 < p.guide.classify; omega
          · show 0 < p.guide.shortest
            simp [Guide.Params.shortest, hs]; omega
      have pos := Formant.between_pos (Formant.envelope_pos p.guide.classify (Formant.cutoff p.guide.rate) mag) (show (0 : Rat) ≤ (i : Rat) * ((p.guide.classify : Rat) / n) by positivity) (Formant.reached_inside (guide_supported p) hr.2 hn)
      rw [Formant.ratio, div_one, div_self pos.ne', max_eq_right (by norm_num), min_eq_right (by norm_num)]
    · rfl
  unfold formed
  simp only [key, mul_one]
  have : ∀ l : List ℝ, (l.mapIdx fun _ m => m) = l := by
    intro l
    apply List.ext_getElem?
    intro i
    rw [List.getElem?_mapIdx]
    cases l[i]? <;> rfl
  simp only [this]

theorem shaped_eq {p : Params} {o : Open κ} {hop : Hop} (h : Unmoved o hop) (source : List ℝ) (c : ChannelData κ) : shaped p o hop source c = spectra p hop source c := formed_eq h _

/-! ### Phases -/

/-- The phases of the classification scale that are put out are those taken in. -/
def Okay (p : Params) (c : ChannelData κ) : Prop :=
  ∀ k, k < p.classificationFftSize / 2 → ∀ a, (c.scales p.classificationFftSize).phase[k]? = some a → -Real.pi < a → a ≤ Real.pi → (c.scales p.classificationFftSize).advanced[k]? = some a

/-- Nothing but the phases put out differs. -/
structure Same (c c' : ChannelData κ) : Prop where
  guidance : c'.guidance = c.guidance
  raMag : c'.raMag = c.raMag
  raPhase : c'.raPhase = c.raPhase
  have' : c'.haveReadahead = c.haveReadahead
  mag : ∀ n, (c'.scales n).mag = (c.scales n).mag
  phase : ∀ n, (c'.scales n).phase = (c.scales n).phase
  acc : ∀ n, (c'.scales n).acc = (c.scales n).acc

theorem Same.trans {a b c : ChannelData κ} (h : Same a b) (h' : Same b c) : Same a c :=
  ⟨h'.guidance.trans h.guidance, h'.raMag.trans h.raMag, h'.raPhase.trans h.raPhase, h'.have'.trans h.have', fun n => (h'.mag n).trans (h.mag n), fun n => (h'.phase n).trans (h.phase n), fun n => (h'.acc n).trans (h.acc n)⟩

theorem same_withPhases (n : Nat) (c : ChannelData κ) (q : List ℝ) : Same c (withPhases n c q) := by
  refine ⟨rfl, rfl, rfl, rfl, ?_, ?_, ?_⟩ <;> intro m <;> simp only [withPhases] <;> split <;> rfl

/-- The phases of the classification scale last put out are those taken in. -/
def AllAligned (p : Params) (s : Spectral κ) : Prop :=
  ∀ (i : Nat) (ch : PhaseAdvance.Chan ℝ), (s.guided p.classificationFftSize)[i]? = some ch → ∀ k < p.classificationFftSize / 2, PhaseAdvance.Aligned Real.pi ch k

theorem advanceScale_unity {p : Params} (hc : 0 < p.channels) {hop : Hop} (hin : 0 < hop.prevInhop) (hsame : hop.prevInhop = hop.prevOuthop) {n : Nat} (hn : n ∈ p.scales) {s : Spectral κ} (h : Fits p s)
    (hal : AllAligned p s)
    (hg : ∀ c ∈ s.chans, Reachable p.guide c.guidance ∧ GuidedPlainly p.guide c.guidance) :
    ∃ s', advanceScale p hop n s = some s' ∧ Fits p s' ∧ AllAligned p s' ∧ ∀ (i : Nat) (c : ChannelData κ), s.chans[i]? = some c → ∃ c' : ChannelData κ, s'.chans[i]? = some c' ∧ Same c c' ∧ (Okay p c ∨ n = p.classificationFftSize → Okay p c') := by
  obtain ⟨gs, ph, a1, a2, a3, a4, _⟩ := advanceScale_some hc hop hn h (fun c hc => (hg c hc).1)
  -- a bin of a channel of the classification scale
  have bin : n = p.classificationFftSize → ∀ (i : Nat) (c : ChannelData κ), s.chans[i]? = some c → ∀ k < p.classificationFftSize / 2,
      ∃ ch' o', gs[i]? = some ch' ∧ ph[i]? = some o' ∧ PhaseAdvance.Transparent Real.pi (inputOf p.classificationFftSize c) o' k ∧ PhaseAdvance.Aligned Real.pi ch' k := by
    intro e i c hci k hk
    subst e
    have hi : i < s.chans.length := (List.getElem?_eq_some_iff.mp hci).1
    obtain ⟨c0, t0, e0⟩ : ∃ c0 t0, s.chans = c0 :: t0 := by
      cases hs : s.chans with
      | nil => rw [hs] at hi; simp at hi
      | cons a b => exact ⟨a, b, rfl⟩
    have hm0 : c0 ∈ s.chans := by rw [e0]; simp
    have hsh := Synth.bandRange (guide_supported p) (Synth.reachable_shape (guide_supported p) (hg c0 hm0).1)
    have hr : PhaseAdvance.binRange ⟨p.guide, p.classificationFftSize⟩ (inputOf p.classificationFftSize c0).guidance = some (0, p.classificationFftSize / 2 + 1) := by
      cases hw : p.guide.single
      · exact (hsh.2 hw).2.1
      · exact hsh.1 hw
    have hig : i < (s.guided p.classificationFftSize).length := by rw [h.guided _ hn, ← h.channels]; exact hi
    exact PhaseAdvance.advance_step Real.pi_pos a1 hin (x0 := inputOf p.classificationFftSize c0) (by rw [e0]; rfl) hr (k := i) (i := k)
      (List.getElem?_eq_getElem hig) (x := inputOf p.classificationFftSize c) (by rw [List.getElem?_map, hci]; rfl) (o := (c.scales p.classificationFftSize).advanced) (by rw [List.getElem?_map, hci]; rfl)
      (by omega) (by omega) (Or.inl ⟨hsame, hal i _ (List.getElem?_eq_getElem hig) k hk⟩)
  refine ⟨_, a3, a4, ?_, fun i c hci => ?_⟩
  · intro i ch hch k hk
    by_cases e : n = p.classificationFftSize
    · simp only [e, if_true] at hch
      have hl := a4.guided n hn
      simp only [if_true] at hl
      have hi : i < s.chans.length := by
        rw [h.channels, ← hl]
        exact (List.getElem?_eq_some_iff.mp hch).1
      obtain ⟨ch', _, b1, _, _, b4⟩ := bin e i _ (List.getElem?_eq_getElem hi) k hk
      rw [hch] at b1
      rw [Option.some.inj b1]
      exact b4
    · simp only [Ne.symm e, if_false] at hch
      exact hal i ch hch k hk
  have hi : i < s.chans.length := by
    by_contra hx
    rw [List.getElem?_eq_none (by omega)] at hci
    cases hci
  have hip : i < ph.length := by rw [a2, ← h.channels]; exact hi
  refine ⟨withPhases n c ph[i], ?_, same_withPhases n c _, ?_⟩
  · simp only
    rw [List.getElem?_zipWith, hci, List.getElem?_eq_getElem hip]
  · intro hor
    by_cases e : n = p.classificationFftSize
    · intro k hk a hka h1 h2
      obtain ⟨ch', o', _, o2, o3, _⟩ := bin e i c hci k hk
      subst e
      simp only [withPhases, if_true] at hka ⊢
      obtain ⟨a', b', t1, t2, _, t4⟩ := o3
      have : a' = a := by
        have t1 : (c.scales p.classificationFftSize).phase[k]? = some a' := t1
        rw [hka] at t1
        exact (Option.some.inj t1).symm
      subst this
      rw [List.getElem?_eq_getElem hip] at o2
      cases o2
      rw [t2, t4 h1 h2]
    · rcases hor with ho | ho
      · intro k hk a hka
        simp only [withPhases, if_neg (Ne.symm e)] at hka ⊢
        exact ho k hk a hka
      · exact absurd ho e

theorem advanceAll_unity {p : Params} (hc : 0 < p.channels) {hop : Hop} (hin : 0 < hop.prevInhop) (hsame : hop.prevInhop = hop.prevOuthop) : ∀ (ns : List Nat), (∀ n ∈ ns, n ∈ p.scales) → ∀ (s : Spectral κ), Fits p s →
    AllAligned p s →
    (∀ c ∈ s.chans, Reachable p.guide c.guidance ∧ GuidedPlainly p.guide c.guidance) →
    ∃ s', advanceAll p hop ns s = some s' ∧ Fits p s' ∧ AllAligned p s' ∧ ∀ (i : Nat) (c : ChannelData κ), s.chans[i]? = some c → ∃ c' : ChannelData κ, s'.chans[i]? = some c' ∧ Same c c' ∧ (Okay p c ∨ p.classificationFftSize ∈ ns → Okay p c') := by
  intro ns
  induction ns with
  | nil => intro _ s h hal _; exact ⟨s, rfl, h, hal, fun i c hc => ⟨c, hc, ⟨rfl, rfl, rfl, rfl, fun _ => rfl, fun _ => rfl, fun _ => rfl⟩, fun h => by simpa using h⟩⟩
  | cons n ns ih =>
    intro hn s h hal hg
    obtain ⟨s1, e1, e2, ea, e3⟩ := advanceScale_unity hc hin hsame (hn n (by simp)) h hal hg
    obtain ⟨s', f1, f2, fa, f3⟩ := ih (fun m hm => hn m (by simp [hm])) s1 e2 ea (by
      intro c hcm
      obtain ⟨i, hi, rfl⟩ := List.getElem_of_mem hcm
      have hi' : i < s.chans.length := by rw [h.channels, ← e2.channels]; exact hi
      obtain ⟨c', g1, g2, _⟩ := e3 i _ (List.getElem?_eq_getElem hi')
      rw [List.getElem?_eq_getElem hi] at g1
      rw [Option.some.inj g1, g2.guidance]
      exact hg _ (List.getElem_mem hi'))
    refine ⟨s', by unfold advanceAll; rw [e1]; exact f1, f2, fa, fun i c hci => ?_⟩
    obtain ⟨c1, g1, g2, g3⟩ := e3 i c hci
    obtain ⟨c', k1, k2, k3⟩ := f3 i c1 g1
    refine ⟨c', k1, g2.trans k2, fun hor => k3 ?_⟩
    rcases hor with ho | ho
    · exact Or.inl (g3 (Or.inl ho))
    · rcases List.mem_cons.mp ho with ho | ho
      · exact Or.inl (g3 (Or.inr ho.symm))
      · exact Or.inr ho

/-! ### The round -/

/-- What a round at unity does to a channel: `m` is its mixdown. -/
structure Passes (p : Params) (hop : Hop) (source : List ℝ) (c c' : ChannelData κ) (m : Nat → ℝ) : Prop where
  have' : c'.haveReadahead = (c.haveReadahead || hop.useReadahead)
  ahead : hop.useReadahead = true → Shows p 1 (frameAt p hop.inhop source) c'.raMag c'.raPhase
  mix : ∀ i, m i = (p.scales.map fun n => (c.scales n).acc i + if n = p.classificationFftSize then contribution p hop.outhop (frameAt p 0 source) i else 0).sum
  acc : ∀ n ∈ p.scales, ∀ i, (c'.scales n).acc i = moveOn p hop.outhop (fun i => (c.scales n).acc i + if n = p.classificationFftSize then contribution p hop.outhop (frameAt p 0 source) i else 0) i

theorem round_unity {p : Params} (hc : 0 < p.channels) (hrt : p.realTime = false ∨ p.windowShort = true) (o : Open κ) {s : Spectral κ} (h : Fits p s) (hal : AllAligned p s) {hop : Hop}
    (hu : |hop.timeRatio * hop.pitchScale - 1| < 1 / 10000000) (hform : Unmoved o hop) (hin : 0 < hop.prevInhop) (hsame : hop.prevInhop = hop.prevOuthop) {sources : List (List ℝ)} (hl : sources.length = p.channels)
    (hra : ∀ (i : Nat) (c : ChannelData κ) (w : List ℝ), s.chans[i]? = some c → sources[i]? = some w → hop.useReadahead = true → c.haveReadahead = true → Shows p 1 (frameAt p 0 w) c.raMag c.raPhase) :
    ∃ s' mix, spectralRound p o s hop sources = some (s', mix) ∧ Fits p s' ∧ AllAligned p s' ∧ mix.length = p.channels ∧ ∀ (i : Nat) (c : ChannelData κ) (w : List ℝ), s.chans[i]? = some c → sources[i]? = some w →
      ∃ c' m, s'.chans[i]? = some c' ∧ mix[i]? = some m ∧ Passes p hop w c c' m := by
  obtain ⟨cs, u, e1, e2, e3⟩ := analyseAll_some (p := p) o hop sources s.chans 0 s.unity (by rw [hl, h.channels]) h.sized
  have key : ∀ (i : Nat) (c : ChannelData κ) (w : List ℝ), s.chans[i]? = some c → sources[i]? = some w → ∃ c1, cs[i]? = some c1 ∧ Sized p c1 ∧ Reachable p.guide c1.guidance ∧ GuidedPlainly p.guide c1.guidance ∧
      c1.scales = (spectra p hop w c).scales ∧ c1.raMag = (spectra p hop w c).raMag ∧ c1.raPhase = (spectra p hop w c).raPhase ∧ c1.haveReadahead = (c.haveReadahead || hop.useReadahead) := by
    intro i c w hci hwi
    obtain ⟨v, c', f1, f2⟩ := e3 i c w hci hwi
    have hz := h.sized c (List.mem_of_getElem? hci)
    obtain ⟨g, rest, seen, g1, g2, g3⟩ := analyse_sized o hop (0 + i) w v hz
    rw [shaped_eq hform] at g1 g3
    rw [g1] at f1
    have e : _ = c' := (Prod.mk.inj (Option.some.inj f1)).1
    refine ⟨c', f2, ?_⟩
    rw [← e]
    refine ⟨(spectra_sized hop w hz).with g2 rest, g2, update_plain ?_ hrt g3, rfl, rfl, rfl, rfl⟩
    show 0 < countUnity hop v
    unfold countUnity
    rw [if_pos hu]
    omega
  have hcs : ∀ c ∈ cs, Sized p c ∧ Reachable p.guide c.guidance ∧ GuidedPlainly p.guide c.guidance := by
    intro c hc
    obtain ⟨i, hi, rfl⟩ := List.getElem_of_mem hc
    have hi1 : i < s.chans.length := by omega
    have hi2 : i < sources.length := by rw [hl, ← h.channels]; exact hi1
    obtain ⟨c1, k1, k2, k3, k4, _⟩ := key i _ _ (List.getElem?_eq_getElem hi1) (List.getElem?_eq_getElem hi2)
    rw [List.getElem?_eq_getElem hi] at k1
    rw [Option.some.inj k1]
    exact ⟨k2, k3, k4⟩
  obtain ⟨s', a1, a2, aa, a3⟩ := advanceAll_unity hc hin hsame p.scales (fun _ h => h) { s with chans := cs, unity := u }
    ⟨by rw [← h.channels]; exact e2, fun c hc => (hcs c hc).1, h.guided, h.fit⟩ hal (fun c hc => (hcs c hc).2)
  refine ⟨_, _, by unfold spectralRound; simp only [e1, a1, Option.bind_eq_bind, Option.bind_some]; rfl, ?_, by intro i ch hch; exact aa i ch hch, by simp [a2.channels], ?_⟩
  · refine ⟨by simp [a2.channels], ?_, a2.guided, a2.fit⟩
    intro c hc
    simp only [List.map_map, List.mem_map, Function.comp] at hc
    obtain ⟨d, hd, rfl⟩ := hc
    exact synthesise_sized _ (adjustPreKick_sized (a2.sized d hd))
  · intro i c w hci hwi
    obtain ⟨c1, k1, k2, k3, k4, k5, k6, k7, k8⟩ := key i c w hci hwi
    obtain ⟨c2, l1, l2, l3⟩ := a3 i c1 k1
    have hz := h.sized c (List.mem_of_getElem? hci)
    have hp2 : GuidedPlainly p.guide c2.guidance := by rw [l2.guidance]; exact k4
    have hkick : adjustPreKick p c2 = c2 := by
      unfold adjustPreKick
      cases hw : p.windowShort
      · rw [hp2.noPreKick hw, hp2.noKick hw]
        simp
      · simp
    have hsp := spectra_classify (hop := hop) hz (hra i c w hci hwi)
    have hok := l3 (Or.inr (classify_mem p))
    have hb : ∀ n i, (synthesiseBands p hop.outhop c2.guidance.fftBands c2.scales n).acc i =
        (c.scales n).acc i + if n = p.classificationFftSize then contribution p hop.outhop (frameAt p 0 w) i else 0 := by
      intro n i
      rw [bands_unity hp2 (x := frameAt p 0 w), l2.acc, k5, spectra_acc]
      · intro k hk
        rw [l2.mag, k5]
        exact (hsp k (by omega)).1
      · intro k hk
        refine hok k (by omega) _ ?_ (Complex.neg_pi_lt_arg _) (Complex.arg_le_pi _)
        rw [l2.phase, k5]
        exact (hsp k (by omega)).2
    refine ⟨(synthesise p hop.outhop c2).1, (synthesise p hop.outhop c2).2, by simp [l1, hkick], by simp [l1, hkick], ?_⟩
    refine ⟨?_, ?_, ?_, ?_⟩
    · show c2.haveReadahead = _
      rw [l2.have', k8]
    · intro hu
      show Shows p 1 _ c2.raMag c2.raPhase
      rw [l2.raMag, l2.raPhase, k6, k7]
      exact spectra_ahead hz hu
    · intro i
      show (p.scales.map fun n => (synthesiseBands p hop.outhop c2.guidance.fftBands c2.scales n).acc i).sum = _
      simp only [hb]
    · intro n hn i
      show (if n ∈ p.scales then _ else _ : Scale).acc i = _
      rw [if_pos hn]
      show moveOn p hop.outhop (synthesiseBands p hop.outhop c2.guidance.fftBands c2.scales n).acc i = _
      congr 1
      funext i
      exact hb n i

end Verif.R3
