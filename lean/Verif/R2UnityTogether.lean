import Verif.R2UnityProps
import Verif.R2MidSide
/-!
# The faster engine at a ratio of 1, channels together (C84)
-/
namespace Verif.R2
open Verif.Round Finset

section
variable {ρ κ τ : Type} {f : Spectra} {q : R2Modify.Conf} {base : Env ℝ Spec ρ κ} {p : Params}

/-- Mid and side, each with the same gain, are left and right with that gain. -/
theorem mixed_gain (l : List (Frame ℝ)) (g : Nat → ℝ) :
    List.zipWith (· + ·) (l.mapIdx fun k x => (x 0 + x 1) / 2 * g k) (l.mapIdx fun k x => (x 0 - x 1) / 2 * g k) = l.mapIdx (fun k x => x 0 * g k) ∧
      List.zipWith (· - ·) (l.mapIdx fun k x => (x 0 + x 1) / 2 * g k) (l.mapIdx fun k x => (x 0 - x 1) / 2 * g k) = l.mapIdx (fun k x => x 1 * g k) := by
  constructor
  · refine List.ext_getElem (by simp) ?_
    intro k k1 k2
    simp only [List.getElem_zipWith, List.getElem_mapIdx]
    ring
  · refine List.ext_getElem (by simp) ?_
    intro k k1 k2
    simp only [List.getElem_zipWith, List.getElem_mapIdx]
    ring

/-- **C84**, channels together: with nothing changed, what has been retrieved of each channel is the beginning of the input of that channel, each sample multiplied by the gain of its place, and as much is
missing of it as is left in the output buffers (as mid and side). -/
theorem C84_together (K : Counted (realEnv f q base) τ) (ht : p.channelsTogether = true) (h2 : 2 ≤ p.channels) {s t : State ℝ Spec ρ κ} (hs : Prepared p (realEnv f q base) s t)
    (h : Unity { p with channelsTogether := false } q t) {input : List (Frame ℝ)} {final : Bool} {cs : List (Call ℝ)}
    (hcs : ∀ c ∈ cs, Playing c) (hend : ends (.process input final :: cs) = true) (hn : t.sizes.increment ≤ (given (.process input final :: cs)).length) :
    ∃ s' outs, run p (realEnv f q base) s (.process input final :: cs) = some (s', outs) ∧ s'.chans.length = p.channels ∧
      ∀ (c : Nat) cd, s'.chans[c]? = some cd → ∃ rest : List ℝ, rest.length = cd.outbuf.data.length ∧ delivered outs c ++ rest =
        (given (.process input final :: cs)).mapIdx fun k x => x c * gain t.sizes.window t.sizes.increment (given (.process input final :: cs)).length k := by
  have hoff : p.realTime = false := h.offline
  have hs' := hs.split hoff
  have e := given_encoded (p := p) (env := realEnv f q base) (.process input final :: cs)
  have hend' := ends_encoded (p := p) (env := realEnv f q base) (.process input final :: cs)
  simp only [List.map_cons, encodedCall] at e hend'
  have el := congrArg List.length e
  rw [List.length_map] at el
  obtain ⟨⟨s', outs, a1, a2, a3⟩, _⟩ := C84_unity hs' h (playing_encoded (p := p) (env := realEnv f q base) hcs) (hend'.trans hend) (by rw [el]; exact hn)
  have hsame : Same p.apart := Or.inr (Or.inl rfl)
  obtain ⟨a, b, s₀, pre, o, i1, i2⟩ := hs'.history
  obtain ⟨j1, _⟩ := step_run K p.apart hsame pre s₀ s o (step_create K p.apart i1) i2
  obtain ⟨k1, k2⟩ := step_run K p.apart hsame _ s s' outs j1 a1
  obtain ⟨d1, d2, d3, d4⟩ := delivered_level ht h2 (p := p) (outs := outs) (run_wide K hsame rfl _ _ _ _ j1 a1) (fun o ho l hl m hm => by
    obtain ⟨n, hn⟩ := k2 o ho
    rw [hn l hl, hn m hm])
  refine ⟨s', outs.map (decoded p), ?_, a2, ?_⟩
  · rw [run_apart (never_before hoff)]
    simp only [List.map_cons, encodedCall]
    show Option.map _ (run p.apart _ _ _) = _
    erw [a1]
    rfl
  have hlen : s'.chans.length = p.channels := a2
  obtain ⟨c0, hc0⟩ : ∃ cd, s'.chans[0]? = some cd := ⟨_, List.getElem?_eq_getElem (by omega)⟩
  obtain ⟨c1, hc1⟩ : ∃ cd, s'.chans[1]? = some cd := ⟨_, List.getElem?_eq_getElem (by omega)⟩
  rw [el] at a3
  generalize hg : given (.process input final :: cs) = g at *
  have hH : ∀ c cd, s'.chans[c]? = some cd → delivered outs c ++ cd.outbuf.data =
      g.mapIdx fun k x => midSide (realEnv f q base) x c * gain t.sizes.window t.sizes.increment g.length k := by
    intro c cd hc
    rw [a3 c cd hc, e]
    refine List.ext_getElem (by simp) ?_
    intro k k1 k2
    simp only [List.getElem_mapIdx, List.getElem_map]
    rw [encoded_eq ht h2]
  have h0 := hH 0 c0 hc0
  have h1 := hH 1 c1 hc1
  obtain ⟨m1, m2⟩ := mixed_gain g (gain t.sizes.window t.sizes.increment g.length)
  rw [show (g.mapIdx fun k x => midSide (realEnv f q base) x 0 * gain t.sizes.window t.sizes.increment g.length k) =
    g.mapIdx fun k x => (x 0 + x 1) / 2 * gain t.sizes.window t.sizes.increment g.length k from rfl] at h0
  rw [show (g.mapIdx fun k x => midSide (realEnv f q base) x 1 * gain t.sizes.window t.sizes.increment g.length k) =
    g.mapIdx fun k x => (x 0 - x 1) / 2 * gain t.sizes.window t.sizes.increment g.length k from rfl] at h1
  obtain ⟨m, hm⟩ := k1.level
  have l0 : c0.outbuf.data.length = m := hm c0 (List.mem_of_getElem? hc0)
  have l1 : c1.outbuf.data.length = m := hm c1 (List.mem_of_getElem? hc1)
  intro c cd hc
  have lc : cd.outbuf.data.length = m := hm cd (List.mem_of_getElem? hc)
  by_cases z0 : c = 0
  · subst z0
    refine ⟨List.zipWith (· + ·) c0.outbuf.data c1.outbuf.data, by simp [l0, l1, lc], ?_⟩
    rw [d1, ← m1, ← h0, ← h1, List.zipWith_append d4]
  · by_cases z1 : c = 1
    · subst z1
      refine ⟨List.zipWith (· - ·) c0.outbuf.data c1.outbuf.data, by simp [l0, l1, lc], ?_⟩
      rw [d2, ← m2, ← h0, ← h1, List.zipWith_append d4]
    · refine ⟨cd.outbuf.data, rfl, ?_⟩
      rw [d3 c (by omega), hH c cd hc]
      unfold midSide
      simp only [z0, z1, if_false]

end

/-- Two channels together. -/
def Ex.stereo : Params := { rate := 44100, channels := 2, channelsTogether := true }

/-- The resampler of `Ex.rest` gives as many samples as it is given, if there is room. -/
noncomputable def Ex.restCounted (f : Spectra) (q : R2Modify.Conf) : Counted (realEnv f q Ex.rest) Unit where
  key := id
  step := fun k room n _ _ => (k, min room n)
  stepReset := id
  keyStep := fun _ _ _ _ _ => rfl
  length := fun _ _ _ _ _ => List.length_take
  keyReset := fun _ => rfl

/-- Any audio of two channels; all of what is retrieved comes from it. -/
example (f : Spectra) (x : Nat → Frame ℝ) : ∃ s s' : State ℝ Spec Unit Unit, ∃ outs rest,
    run Ex.stereo (realEnv f ⟨44100, 2048, 341, 1, true, false, false, 600, 1200, 12000⟩ Ex.rest) s [.process ((List.range 2000).map x) true, .retrieve 500] = some (s', outs) ∧
      delivered outs 1 ++ rest = ((List.range 2000).map x).mapIdx fun k x => x 1 * gain 2048 341 2000 k := by
  have hz : calculateSizes Ex.stereo 0 (.fin 1) (.fin 1) = some ⟨1, 1, 341, 2048, 2048⟩ := by decide +kernel
  obtain ⟨s, t, h1, h2, h3⟩ := created (env := realEnv f ⟨44100, 2048, 341, 1, true, false, false, 600, 1200, 12000⟩ Ex.rest) hz (show baseFftSize Ex.stereo = some 2048 by decide +kernel)
  have hu : Unity { Ex.stereo with channelsTogether := false } ⟨44100, 2048, 341, 1, true, false, false, 600, 1200, 12000⟩ t :=
    ⟨rfl, rfl, Or.inl rfl, rfl, by decide, by rw [h2], by rw [h2], by rw [h3]; simp, by rw [h2], by rw [h2], rfl⟩
  have hg : given [Call.process ((List.range 2000).map x) true, .retrieve 500] = (List.range 2000).map x := rfl
  obtain ⟨s', outs, a1, a2, a3⟩ := C84_together (input := (List.range 2000).map x) (final := true) (cs := [.retrieve 500]) (Ex.restCounted f _) rfl (by decide) h1 hu
    (by intro c hc; simp only [List.mem_cons, List.not_mem_nil, or_false] at hc; rw [hc]; trivial) rfl (by rw [hg, h2, List.length_map, List.length_range]; decide)
  obtain ⟨cd, hcd⟩ : ∃ cd, s'.chans[1]? = some cd := ⟨_, List.getElem?_eq_getElem (by rw [a2]; decide)⟩
  obtain ⟨rest, _, a4⟩ := a3 1 cd hcd
  rw [hg, h2, List.length_map, List.length_range] at a4
  exact ⟨s, s', outs, rest, a1, a4⟩

end Verif.R2
