import Verif.R3UnityRun
import Verif.R3UnityStep
/-! # The finer engine at unity, offline or with one window: what each round puts out -/
namespace Verif.R3
open Finset (range)

variable {κ τ ρ : Type}

theorem padded_get {n : Nat} (l : List ℝ) {i : Nat} (hi : i < n) : ((padded n l)[i]?).getD 0 = (l[i]?).getD 0 := by
  unfold padded
  by_cases h : i < (l.take n).length
  · rw [List.getElem?_append_left h, List.getElem?_take_of_lt hi]
  · rw [List.getElem?_append_right (by omega)]
    have hl : l.length ≤ i := by rw [List.length_take] at h; omega
    rw [List.getElem?_eq_none (l := l) hl]
    by_cases h2 : i - (l.take n).length < n - l.length
    · rw [List.getElem?_replicate, if_pos h2]; rfl
    · rw [List.getElem?_eq_none (by simpa using h2)]

/-- The frame of the classification scale in round `m` at unity, when a channel is `x`. -/
noncomputable def unityFrame (p : Params) (x : List ℝ) (m : Nat) : Nat → ℝ := frameAt p 0 (padded p.windowSourceSize (x.drop (m * unityHop p)))

theorem cut_fits (p : Params) : p.offset + p.classificationFftSize ≤ p.windowSourceSize := by
  obtain ⟨h1, _, _, _, _, h6, h7⟩ := sizes_eq p
  unfold Params.offset
  rw [h6, h7, h1]
  split <;> omega

theorem ahead_fits (p : Params) (h : unityHop p < p.maxInhopWithReadahead) : p.offset + unityHop p + p.classificationFftSize ≤ p.windowSourceSize := by
  obtain ⟨h1, _, _, h4, _, h6, h7⟩ := sizes_eq p
  unfold Params.offset
  rw [h4] at h
  rw [h6, h7, h1]
  split at h <;> rename_i hw <;> simp only [hw, if_true, if_false, Bool.false_eq_true] <;> omega

theorem unityFrame_get {p : Params} {x : List ℝ} {m j : Nat} (hj : j < p.classificationFftSize) :
    unityFrame p x m j = analysisWindow p p.classificationFftSize j * (x[m * unityHop p + p.offset + j]?).getD 0 := by
  have := cut_fits p
  unfold unityFrame frameAt cutAt
  rw [padded_get _ (by omega), List.getElem?_drop, Nat.add_zero, Nat.add_assoc]

/-- Reading ahead sees the next frame. -/
theorem ahead_get {p : Params} (h : unityHop p < p.maxInhopWithReadahead) {x : List ℝ} {m j : Nat} (hj : j < p.classificationFftSize) :
    frameAt p (unityHop p) (padded p.windowSourceSize (x.drop (m * unityHop p))) j = unityFrame p x (m + 1) j := by
  have := ahead_fits p h
  rw [unityFrame_get hj]
  unfold frameAt cutAt
  rw [padded_get _ (by omega), List.getElem?_drop]
  congr 3
  ring_nf

theorem spectrum_congr {n : Nat} {x y : Nat → ℝ} (h : ∀ j < n, x j = y j) (k : Nat) : FFT.spectrum n x k = FFT.spectrum n y k := by
  unfold FFT.spectrum
  exact Finset.sum_congr rfl fun j hj => by rw [h j (Finset.mem_range.mp hj)]

theorem transformed_congr {n : Nat} (hn : n % 2 = 0) {x y : Nat → ℝ} (h : ∀ j < n, x j = y j) (k : Nat) : transformed n x k = transformed n y k := by
  refine spectrum_congr (fun j hj => ?_) k
  unfold swapHalves
  split
  · exact h _ (by omega)
  · exact h _ (by omega)

theorem top_congr {n : Nat} {x y : Nat → ℝ} (h : ∀ j < n, x j = y j) (j : Nat) : top n x j = top n y j := by
  unfold top
  congr 3
  funext k
  rw [spectrum_congr h]

theorem Shows.congr {p : Params} {a : ℝ} {x y : Nat → ℝ} {mag phase : List ℝ} (h : ∀ j < p.classificationFftSize, x j = y j) (hs : Shows p a x mag phase) : Shows p a y mag phase := by
  intro k hk
  rw [← transformed_congr (by have := (classify_facts p).1; omega) h]
  exact hs k hk

theorem contribution_beyond {p : Params} {h : Nat} {x : Nat → ℝ} {i : Nat} (hi : p.longestFftSize ≤ i) : contribution p h x i = 0 := by
  have h1 := synthesisSize_le p p.classificationFftSize
  have h2 := classify_le_longest p
  unfold contribution
  simp only
  rw [if_neg (by omega)]

/-- What has been added to the accumulator in the first `k` rounds, moved along. -/
noncomputable def gathered (p : Params) (x : List ℝ) (k i : Nat) : ℝ := ∑ m ∈ range k, contribution p (unityHop p) (unityFrame p x m) (i + (k - m) * unityHop p)

theorem gathered_beyond {p : Params} {x : List ℝ} {k i : Nat} (hi : p.longestFftSize ≤ i + unityHop p) : gathered p x k i = 0 := by
  unfold gathered
  refine Finset.sum_eq_zero fun m hm => contribution_beyond ?_
  have := Finset.mem_range.mp hm
  have : 1 * unityHop p ≤ (k - m) * unityHop p := Nat.mul_le_mul_right _ (by omega)
  omega

theorem gathered_succ (p : Params) (x : List ℝ) (k i : Nat) : gathered p x (k + 1) i = gathered p x k (i + unityHop p) + contribution p (unityHop p) (unityFrame p x k) (i + unityHop p) := by
  unfold gathered
  rw [Finset.sum_range_succ]
  congr 1
  · refine Finset.sum_congr rfl fun m hm => ?_
    have := Finset.mem_range.mp hm
    congr 1
    rw [show k + 1 - m = (k - m) + 1 by omega]
    ring
  · rw [Nat.add_sub_cancel_left, one_mul]

/-- The spectral part after `k` rounds at unity, when the channels are `x`. -/
structure Unity (p : Params) (x : Nat → List ℝ) (k : Nat) (s : Spectral κ) : Prop where
  fits : Fits p s
  aligned : AllAligned p s
  ahead : ∀ (c : Nat) (d : ChannelData κ), s.chans[c]? = some d → d.haveReadahead = true → unityHop p < p.maxInhopWithReadahead → Shows p 1 (unityFrame p (x c) k) d.raMag d.raPhase
  acc : ∀ (c : Nat) (d : ChannelData κ), s.chans[c]? = some d → ∀ n ∈ p.scales, ∀ i, (d.scales n).acc i = if n = p.classificationFftSize then gathered p (x c) k i else 0

theorem sum_scales (p : Params) (a : ℝ) : (p.scales.map fun n => if n = p.classificationFftSize then a else 0).sum = a := by
  have h2 := (classify_facts p).2
  unfold Params.scales
  cases hw : p.windowShort
  · obtain ⟨e1, e2⟩ := longest_classify p hw
    simp only [Bool.false_eq_true, if_false, List.map_cons, List.map_nil, List.sum_cons, List.sum_nil]
    rw [if_neg (by omega), if_neg (show p.shortestFftSize ≠ p.classificationFftSize by omega)]
    simp
  · simp

theorem unity_next {p : Params} (hc : 0 < p.channels) (hrt : p.realTime = false ∨ p.windowShort = true) (o : Open κ) {x : Nat → List ℝ} {k : Nat} {s : Spectral κ} (h : Unity p x k s)
    {hop : Hop} (hh : UnityHop o.still p hop) :
    ∃ s' mix, spectralRound p o s hop ((List.range p.channels).map fun c => padded p.windowSourceSize ((x c).drop (k * unityHop p))) = some (s', mix) ∧ Unity p x (k + 1) s' ∧
      ∀ c < p.channels, ∃ m, mix[c]? = some m ∧ ∀ i, m i = gathered p (x c) k i + contribution p (unityHop p) (unityFrame p (x c) k) i := by
  have hw : ∀ c < p.channels, ((List.range p.channels).map fun c => padded p.windowSourceSize ((x c).drop (k * unityHop p)))[c]? = some (padded p.windowSourceSize ((x c).drop (k * unityHop p))) := by
    intro c hcc
    rw [List.getElem?_map, List.getElem?_range hcc]
    rfl
  have hlt : ∀ (c : Nat) (d : ChannelData κ), s.chans[c]? = some d → c < p.channels := by
    intro c d hd
    have := (List.getElem?_eq_some_iff.mp hd).1
    rw [h.fits.channels] at this
    exact this
  obtain ⟨s', mix, a1, a2, aa, a3, a4⟩ := round_unity hc hrt o h.fits h.aligned (hop := hop) (by rw [hh.ratio, hh.pitch]; norm_num) (hh.formant.imp_right (Or.imp_left fun h => ⟨h, hh.pitch⟩)) (by rw [hh.prevInhop]; exact unityHop_pos p) (by rw [hh.prevInhop, hh.prevOuthop])
    (sources := (List.range p.channels).map fun c => padded p.windowSourceSize ((x c).drop (k * unityHop p))) (by simp) (by
      intro c d w hd hcw hu hr
      rw [hw c (hlt c d hd)] at hcw
      rw [← Option.some.inj hcw]
      rw [hh.ahead, decide_eq_true_iff] at hu
      exact h.ahead c d hd hr hu)
  have old : ∀ (c : Nat), c < p.channels → ∃ d, s.chans[c]? = some d := fun c hcc => ⟨_, List.getElem?_eq_getElem (by rw [h.fits.channels]; exact hcc)⟩
  have each : ∀ c < p.channels, ∃ (d d' : ChannelData κ) (m : Nat → ℝ), s.chans[c]? = some d ∧ s'.chans[c]? = some d' ∧ mix[c]? = some m ∧ Passes p hop (padded p.windowSourceSize ((x c).drop (k * unityHop p))) d d' m := by
    intro c hcc
    obtain ⟨d, hd⟩ := old c hcc
    obtain ⟨d', m, b1, b2, b3⟩ := a4 c d _ hd (hw c hcc)
    exact ⟨d, d', m, hd, b1, b2, b3⟩
  have key : ∀ c < p.channels, ∀ (d' : ChannelData κ), s'.chans[c]? = some d' → ∃ (d : ChannelData κ) (m : Nat → ℝ), s.chans[c]? = some d ∧ Passes p hop (padded p.windowSourceSize ((x c).drop (k * unityHop p))) d d' m := by
    intro c hcc d' hd'
    obtain ⟨d, e, m, b1, b2, b3, b4⟩ := each c hcc
    rw [hd'] at b2
    rw [Option.some.inj b2]
    exact ⟨d, m, b1, b4⟩
  have hlt' : ∀ (c : Nat) (d : ChannelData κ), s'.chans[c]? = some d → c < p.channels := by
    intro c d hd
    have := (List.getElem?_eq_some_iff.mp hd).1
    rw [a2.channels] at this
    exact this
  refine ⟨s', mix, a1, ⟨a2, aa, ?_, ?_⟩, ?_⟩
  · intro c d' hd' _ hu
    obtain ⟨d, m, _, b⟩ := key c (hlt' c d' hd') d' hd'
    have := b.ahead (by rw [hh.ahead, decide_eq_true_iff]; exact hu)
    rw [hh.inhop] at this
    exact this.congr fun j hj => ahead_get hu hj
  · intro c d' hd' n hn i
    obtain ⟨d, m, hd, b⟩ := key c (hlt' c d' hd') d' hd'
    rw [b.acc n hn i]
    unfold moveOn
    simp only [hh.outhop]
    by_cases hi : i + unityHop p < p.longestFftSize
    · rw [if_pos hi, h.acc c d hd n hn]
      by_cases e : n = p.classificationFftSize
      · simp only [e, if_true]
        rw [gathered_succ]
        rfl
      · simp only [e, if_false, add_zero]
    · rw [if_neg hi, gathered_beyond (by omega), ite_self]
  · intro c hcc
    obtain ⟨d, d', m, b1, b2, b3, b4⟩ := each c hcc
    refine ⟨m, b3, fun i => ?_⟩
    rw [b4.mix i, ← sum_scales p (gathered p (x c) k i + contribution p (unityHop p) (unityFrame p (x c) k) i)]
    congr 1
    refine List.map_congr_left fun n hn => ?_
    rw [h.acc c d b1 n hn, hh.outhop]
    by_cases e : n = p.classificationFftSize
    · simp only [e, if_true]
      rfl
    · simp only [e, if_false, add_zero]

theorem unity_create (p : Params) (o : Open κ) (x : Nat → List ℝ) : Unity p x 0 (Spectral.create p o) := by
  have : ∀ (c : Nat) (d : ChannelData κ), (Spectral.create p o).chans[c]? = some d → d = ChannelData.create p o := by
    intro c d hd
    exact List.eq_of_mem_replicate (List.mem_of_getElem? hd)
  refine ⟨create_fits p o, ?_, ?_, ?_⟩
  · intro i ch hch k hk
    have : ch = PhaseAdvance.create ⟨p.guide, p.classificationFftSize⟩ := List.eq_of_mem_replicate (List.mem_of_getElem? hch)
    have hb : k < (⟨p.guide, p.classificationFftSize⟩ : PhaseAdvance.Params).bins := by
      show k < p.classificationFftSize / 2 + 1
      omega
    rw [this]
    exact ⟨0, 0, by simp [PhaseAdvance.create, hb], by simp [PhaseAdvance.create, hb], PhaseAdvance.Cong.refl _ _⟩
  · intro c d hd hr
    rw [this c d hd] at hr
    cases hr
  · intro c d hd n hn i
    rw [this c d hd]
    unfold gathered
    simp [ChannelData.create, Scale.create]

theorem dsp_some {p : Params} {o : Open κ} (base : Env ℝ τ ρ) {s s' : Spectral κ} {hop : Hop} {w : List (List ℝ)} {mix : List (Nat → ℝ)} (h : spectralRound p o s hop w = some (s', mix)) :
    (spectralEnv p o base).dsp (some s) hop w = (some s', fun c i => ((mix[c]?).getD fun _ => 0) i) := by
  unfold spectralEnv
  simp only [Option.bind_some, h]

/-- What comes out of the rounds at unity. -/
theorem log_unity {p : Params} (hc : 0 < p.channels) (hrt : p.realTime = false ∨ p.windowShort = true) (o : Open κ) (base : Env ℝ τ ρ) {log : List (Entry ℝ)} {x : Nat → List ℝ}
    (hops : ∀ e ∈ log, UnityHop o.still p e.hop)
    (wins : ∀ (k : Nat) (e : Entry ℝ), log[k]? = some e → e.windows = (List.range p.channels).map fun c => padded p.windowSourceSize ((x c).drop (k * unityHop p))) :
    ∀ k ≤ log.length, (∃ s, replay (spectralEnv p o base) (log.take k) = some s ∧ Unity p x k s) ∧
      ∀ (e : Entry ℝ), log[k]? = some e → ∀ c < p.channels, ∀ i,
        ((spectralEnv p o base).dsp (replay (spectralEnv p o base) (log.take k)) e.hop e.windows).2 c i = gathered p (x c) k i + contribution p (unityHop p) (unityFrame p (x c) k) i := by
  have main : ∀ k ≤ log.length, ∃ s, replay (spectralEnv p o base) (log.take k) = some s ∧ Unity p x k s := by
    intro k
    induction k with
    | zero => intro _; exact ⟨_, rfl, unity_create p o x⟩
    | succ k ih =>
      intro hk
      obtain ⟨s, h1, h2⟩ := ih (by omega)
      obtain ⟨s', mix, b1, b2, _⟩ := unity_next hc hrt o h2 (hops log[k] (List.getElem_mem (by omega)))
      refine ⟨s', ?_, b2⟩
      have e : log.take (k + 1) = log.take k ++ [log[k]] := by rw [List.take_add_one, List.getElem?_eq_getElem (by omega)]; rfl
      unfold replay at h1 ⊢
      rw [e, List.foldl_append, h1, List.foldl_cons, List.foldl_nil, wins k _ (List.getElem?_eq_getElem (by omega))]
      simp only [dsp_some base b1]
  intro k hk
  refine ⟨main k hk, ?_⟩
  intro e he c hcc i
  obtain ⟨s, h1, h2⟩ := main k hk
  obtain ⟨s', mix, b1, b2, b3⟩ := unity_next hc hrt o h2 (hops e (List.mem_of_getElem? he))
  obtain ⟨m, m1, m2⟩ := b3 c hcc
  rw [h1, wins k e he]
  simp only [dsp_some base b1, m1, Option.getD_some]
  exact m2 i

end Verif.R3
