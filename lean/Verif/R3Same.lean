import Verif.PhaseSame
import Verif.R3Silence
/-! # Channels with the same audio, and a channel that is silent, in a round of the spectral part of the finer engine -/
namespace Verif.R3
open Verif.Guide (Guidance Reachable)

variable {κ : Type}

theorem updateGuidance_unity (p : Guide.Params) (f f' : Guide.Frame) (g : Guidance) (h : { f with unityCount := f'.unityCount } = f') (hu : f.unityCount > 0 ↔ f'.unityCount > 0) :
    Guide.updateGuidance p f g = Guide.updateGuidance p f' g := by
  rw [← h]
  unfold Guide.updateGuidance
  simp only [hu]
  rfl

theorem countUnity_pos (hop : Hop) (a b : Nat) : countUnity hop a > 0 ↔ countUnity hop b > 0 := by
  unfold countUnity
  split <;> omega

/-- Which channel it is makes no difference without mid/side. -/
theorem analyse_same {p : Params} (hm : p.useMidSide = false) (o : Open κ) (hop : Hop) (a b : Nat) (w : List ℝ) (u v : Nat) (c : ChannelData κ) :
    (analyse p o hop a w u c).map Prod.fst = (analyse p o hop b w v c).map Prod.fst := by
  unfold analyse
  simp only [Option.map_map]
  rw [updateGuidance_unity p.guide _ (frameFor p o hop b (countUnity hop v) (o.look (shaped p o hop w c).rest (if hop.useReadahead then (shaped p o hop w c).raMag else ((shaped p o hop w c).scales p.classificationFftSize).mag)
    ((shaped p o hop w c).scales p.classificationFftSize).mag).2 (shaped p o hop w c)) _ ?_ (countUnity_pos hop u v)]
  · rfl
  · unfold frameFor
    simp only [hm, Bool.false_and]

theorem advanceAll_same {p : Params} (hc : 0 < p.channels) (hm : p.useMidSide = false) (hop : Hop) {i j : Nat} (hi : i < p.channels) (hj : j < p.channels) : ∀ (ns : List Nat), (∀ n ∈ ns, n ∈ p.scales) → ∀ (s s' : Spectral κ), Fits p s →
    (∀ c ∈ s.chans, Reachable p.guide c.guidance) → s.chans[i]? = s.chans[j]? → (∀ n ∈ p.scales, (s.guided n)[i]? = (s.guided n)[j]?) → advanceAll p hop ns s = some s' →
    s'.chans[i]? = s'.chans[j]? ∧ ∀ n ∈ p.scales, (s'.guided n)[i]? = (s'.guided n)[j]? := by
  intro ns
  induction ns with
  | nil => intro _ s s' _ _ h1 h2 e; cases e; exact ⟨h1, h2⟩
  | cons n ns ih =>
    intro hn s s' hf hg h1 h2 e
    obtain ⟨gs, ph, a1, a2, a3, a4, a5⟩ := advanceScale_some hc hop (hn n (by simp)) hf hg
    unfold advanceAll at e
    rw [a3, Option.bind_some] at e
    rw [hm] at a1
    obtain ⟨b1, b2⟩ := PhaseAdvance.advance_same a1 (i := i) (j := j) (by rw [List.length_map, hf.channels]; exact hi) (h2 n (hn n (by simp))) (by rw [List.getElem?_map, List.getElem?_map, h1])
      (by rw [List.getElem?_map, List.getElem?_map, h1])
    refine ih (fun m hm => hn m (by simp [hm])) _ s' a4 a5 ?_ ?_ e
    · show (List.zipWith (withPhases n) s.chans ph)[i]? = (List.zipWith (withPhases n) s.chans ph)[j]?
      rw [List.getElem?_zipWith, List.getElem?_zipWith, h1, b2]
    · intro m hm'
      show (if m = n then gs else s.guided m)[i]? = (if m = n then gs else s.guided m)[j]?
      split
      · exact b1
      · exact h2 m hm'

/-- Without mid/side, two channels in the same state that are given the same stay in the same state, and the same comes of them. -/
theorem spectralRound_same {p : Params} (hc : 0 < p.channels) (hm : p.useMidSide = false) (o : Open κ) {s : Spectral κ} (h : Fits p s) {i j : Nat} (hi : i < p.channels) (hj : j < p.channels) (h1 : s.chans[i]? = s.chans[j]?)
    (h2 : ∀ n ∈ p.scales, (s.guided n)[i]? = (s.guided n)[j]?) (hop : Hop) {sources : List (List ℝ)} (hl : sources.length = p.channels) (hs : sources[i]? = sources[j]?) :
    ∃ r, spectralRound p o s hop sources = some r ∧ Fits p r.1 ∧ r.2.length = p.channels ∧ r.1.chans[i]? = r.1.chans[j]? ∧ (∀ n ∈ p.scales, (r.1.guided n)[i]? = (r.1.guided n)[j]?) ∧ r.2[i]? = r.2[j]? := by
  obtain ⟨r, r1, r2, r3⟩ := spectralRound_some hc o h hop hl
  refine ⟨r, r1, r2, r3, ?_⟩
  obtain ⟨cs, u, e1, e2, e3⟩ := analyseAll_some (p := p) o hop sources s.chans 0 s.unity (by rw [hl, h.channels]) h.sized
  have hcs : ∀ c ∈ cs, Sized p c ∧ Reachable p.guide c.guidance := analysed_sized o hop (by rw [hl, h.channels]) h.sized e2 e3
  have hf : Fits p { s with chans := cs, unity := u } := ⟨by rw [← h.channels]; exact e2, fun c hc => (hcs c hc).1, h.guided, h.fit⟩
  obtain ⟨s', a1, a2, a3⟩ := advanceAll_some hc hop p.scales (fun _ h => h) { s with chans := cs, unity := u } hf (fun c hc => (hcs c hc).2)
  have same : cs[i]? = cs[j]? := by
    have g1 : s.chans[i]? = some (s.chans[i]'(by rw [h.channels]; exact hi)) := List.getElem?_eq_getElem _
    have g2 : sources[i]? = some (sources[i]'(by rw [hl]; exact hi)) := List.getElem?_eq_getElem _
    obtain ⟨v, c', f1, f2⟩ := e3 i _ _ g1 g2
    obtain ⟨v', c'', f3, f4⟩ := e3 j _ _ (h1 ▸ g1) (hs ▸ g2)
    have := analyse_same hm o hop (0 + i) (0 + j) (sources[i]'(by rw [hl]; exact hi)) v v' (s.chans[i]'(by rw [h.channels]; exact hi))
    rw [f1, f3] at this
    rw [f2, f4]
    simpa using this
  obtain ⟨m1, m2⟩ := advanceAll_same hc hm hop hi hj p.scales (fun _ h => h) _ s' hf (fun c hc => (hcs c hc).2) same h2 a1
  unfold spectralRound at r1
  simp only [e1, a1, Option.bind_eq_bind, Option.bind_some] at r1
  cases r1
  exact ⟨by simp only [List.getElem?_map, m1], m2, by simp only [List.getElem?_map, m1]⟩

theorem create_same (p : Params) (o : Open κ) {i j : Nat} (hi : i < p.channels) (hj : j < p.channels) : (Spectral.create p o).chans[i]? = (Spectral.create p o).chans[j]? ∧
    ∀ n ∈ p.scales, ((Spectral.create p o).guided n)[i]? = ((Spectral.create p o).guided n)[j]? := by
  unfold Spectral.create
  simp only [List.getElem?_replicate, if_pos hi, if_pos hj]
  exact ⟨trivial, fun _ _ => trivial⟩

theorem reset_same (p : Params) (o : Open κ) {s : Spectral κ} {i j : Nat} (h1 : s.chans[i]? = s.chans[j]?) (h2 : ∀ n ∈ p.scales, (s.guided n)[i]? = (s.guided n)[j]?) :
    (Spectral.reset p o s).chans[i]? = (Spectral.reset p o s).chans[j]? ∧ ∀ n ∈ p.scales, ((Spectral.reset p o s).guided n)[i]? = ((Spectral.reset p o s).guided n)[j]? := by
  unfold Spectral.reset
  simp only [List.getElem?_map, h1, true_and]
  intro n hn
  rw [h2 n hn]

/-! ### A silent channel -/

theorem advanceAll_mute_at {p : Params} (hop : Hop) (k : Nat) : ∀ (ns : List Nat) (s s' : Spectral κ), (∀ c, s.chans[k]? = some c → Mute p c) → advanceAll p hop ns s = some s' → ∀ c, s'.chans[k]? = some c → Mute p c := by
  intro ns
  induction ns with
  | nil => intro s s' h e; cases e; exact h
  | cons n ns ih =>
    intro s s' h e
    unfold advanceAll at e
    obtain ⟨s1, e1, e2⟩ := Option.bind_eq_some_iff.mp e
    refine ih s1 s' ?_ e2
    unfold advanceScale at e1
    obtain ⟨a, _, e1⟩ := Option.bind_eq_some_iff.mp e1
    cases e1
    intro c hc
    simp only [List.getElem?_zipWith] at hc
    cases h1 : s.chans[k]? with
    | none => rw [h1] at hc; cases hc
    | some d =>
      cases h2 : a.2[k]? with
      | none => rw [h1, h2] at hc; cases hc
      | some ph =>
        rw [h1, h2] at hc
        cases hc
        exact withPhases_mute (h d h1) n ph

/-- A channel in which nothing sounds and that is given silence gives silence, whatever the others are given. -/
theorem spectralRound_mute_at {p : Params} (hc : 0 < p.channels) (o : Open κ) {s : Spectral κ} (h : Fits p s) {k : Nat} (hk : k < p.channels) (hq : ∀ c, s.chans[k]? = some c → Hush p c) (hop : Hop)
    {sources : List (List ℝ)} (hl : sources.length = p.channels) (hz : ∀ x, sources[k]? = some x → ∀ a ∈ x, a = 0) :
    ∃ r, spectralRound p o s hop sources = some r ∧ Fits p r.1 ∧ r.2.length = p.channels ∧ (∀ c, r.1.chans[k]? = some c → Hush p c) ∧ ∀ m, r.2[k]? = some m → ∀ i, m i = 0 := by
  obtain ⟨r, r1, r2, r3⟩ := spectralRound_some hc o h hop hl
  refine ⟨r, r1, r2, r3, ?_⟩
  obtain ⟨cs, u, e1, e2, e3⟩ := analyseAll_some (p := p) o hop sources s.chans 0 s.unity (by rw [hl, h.channels]) h.sized
  have hcs : ∀ c ∈ cs, Sized p c ∧ Reachable p.guide c.guidance := analysed_sized o hop (by rw [hl, h.channels]) h.sized e2 e3
  obtain ⟨s', a1, a2, a3⟩ := advanceAll_some hc hop p.scales (fun _ h => h) { s with chans := cs, unity := u }
    ⟨by rw [← h.channels]; exact e2, fun c hc => (hcs c hc).1, h.guided, h.fit⟩ (fun c hc => (hcs c hc).2)
  have m1 : ∀ c, cs[k]? = some c → Mute p c := by
    intro c hc'
    have g1 : s.chans[k]? = some (s.chans[k]'(by rw [h.channels]; exact hk)) := List.getElem?_eq_getElem _
    have g2 : sources[k]? = some (sources[k]'(by rw [hl]; exact hk)) := List.getElem?_eq_getElem _
    obtain ⟨v, c', f1, f2⟩ := e3 k _ _ g1 g2
    rw [hc'] at f2
    cases f2
    have hm := shaped_mute o hop (hz _ g2) (hq _ g1)
    unfold analyse at f1
    simp only at f1
    rw [Option.map_eq_some_iff] at f1
    obtain ⟨g, _, f1⟩ := f1
    cases f1
    exact ⟨⟨hm.1.acc, hm.1.pending, hm.1.prev, hm.1.ahead⟩, hm.2⟩
  have m2 := advanceAll_mute_at hop k p.scales { s with chans := cs, unity := u } s' m1 a1
  unfold spectralRound at r1
  simp only [e1, a1, Option.bind_eq_bind, Option.bind_some] at r1
  cases r1
  have gk : ∀ c : ChannelData κ, (adjustPreKick p c).guidance = c.guidance := fun _ => rfl
  constructor
  · intro c hc
    simp only [List.getElem?_map, Option.map_map, Option.map_eq_some_iff, Function.comp] at hc
    obtain ⟨d, hd, rfl⟩ := hc
    exact (synthesise_mute _ (by rw [gk]; exact a3 d (List.mem_of_getElem? hd)) (adjustPreKick_mute (m2 d hd))).1
  · intro m hm i
    simp only [List.getElem?_map, Option.map_map, Option.map_eq_some_iff, Function.comp] at hm
    obtain ⟨d, hd, rfl⟩ := hm
    exact (synthesise_mute _ (by rw [gk]; exact a3 d (List.mem_of_getElem? hd)) (adjustPreKick_mute (m2 d hd))).2 i

end Verif.R3
