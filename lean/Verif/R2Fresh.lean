import Verif.R2Reset
/-!
# The spectral state at the beginning, offline

Whatever happened before, the spectral state of each channel has just been reset when processing begins.
-/
namespace Verif.R2
open Verif.Round Verif.StretchCalc

variable {α σ ρ κ : Type} [Zero α] [Add α] [Sub α] {p : Params} {env : Env α σ ρ κ}

/-- The spectral state of the channel has just been reset. -/
def Fresh (env : Env α σ ρ κ) (cd : Chan α σ ρ) : Prop := ∃ x, cd.spec = env.specReset x

omit [Add α] [Sub α] in
theorem configure_fresh (hp : p.realTime = false) {first : Bool} {s t : State α σ ρ κ} {a b : R3.Dbl} (h : configure p env first s a b = some t) :
    ∀ cd ∈ t.chans, Fresh env cd := by
  unfold configure at h
  obtain ⟨u, _, h⟩ := Option.bind_eq_some_iff.mp h
  obtain ⟨f, _, h⟩ := Option.bind_eq_some_iff.mp h
  cases h
  simp only [hp, Bool.false_eq_true, if_false]
  intro cd hcd
  obtain ⟨d, _, e⟩ := List.mem_map.mp hcd
  exact ⟨d.spec, by rw [← e]; rfl⟩

omit [Add α] [Sub α] in
theorem reconfigure_fresh (hp : p.realTime = false) {s t : State α σ ρ κ} {a b : R3.Dbl} (h : reconfigure p env s a b = some t) :
    ∀ cd ∈ t.chans, Fresh env cd := by
  unfold reconfigure at h
  simp only [hp, Bool.false_eq_true, if_false] at h
  split at h
  · obtain ⟨u, _, h⟩ := Option.bind_eq_some_iff.mp h
    exact configure_fresh hp h
  · exact configure_fresh hp h

theorem call_fresh (hp : p.realTime = false) {s t : State α σ ρ κ} (hk : Kept p s) (h0 : s.mode = .justCreated → ∀ cd ∈ s.chans, Fresh env cd) {c : Call α}
    {o : List (List α)} (h : call p env s c = some (t, o)) : t.mode = .justCreated → ∀ cd ∈ t.chans, Fresh env cd := by
  cases c with
  | setTimeRatio r =>
    obtain ⟨u, hu, e⟩ := Option.map_eq_some_iff.mp h
    cases e
    unfold setTimeRatio at hu
    split at hu
    · cases hu; exact h0
    · split at hu
      · cases hu; exact h0
      · exact fun _ => reconfigure_fresh hp hu
  | setPitchScale r =>
    obtain ⟨u, hu, e⟩ := Option.map_eq_some_iff.mp h
    cases e
    unfold setPitchScale at hu
    split at hu
    · cases hu; exact h0
    · split at hu
      · cases hu; exact h0
      · obtain ⟨v, hv, e⟩ := Option.map_eq_some_iff.mp hu
        have hr := reconfigure_fresh hp hv
        rw [← e]
        unfold resetResamplers
        split
        · intro _ cd hcd
          obtain ⟨d, hd, e⟩ := List.mem_map.mp hcd
          obtain ⟨x, hx⟩ := hr d hd
          exact ⟨x, by rw [← e, ← hx]⟩
        · exact fun _ => hr
  | setExpectedInputDuration n =>
    obtain ⟨u, hu, e⟩ := Option.map_eq_some_iff.mp h
    cases e
    unfold setExpectedInputDuration at hu
    split at hu
    · cases hu; exact h0
    · exact fun _ => reconfigure_fresh hp hu
  | setMaxProcessSize n =>
    obtain ⟨u, hu, e⟩ := Option.map_eq_some_iff.mp h
    cases e
    unfold setMaxProcessSize at hu
    split at hu
    · cases hu; exact h0
    · exact fun _ => reconfigure_fresh hp hu
  | setKeyFrameMap m =>
    cases h
    unfold setKeyFrameMap
    split
    · exact h0
    · split
      · exact h0
      · exact h0
  | study input final =>
    obtain ⟨u, hu, e⟩ := Option.map_eq_some_iff.mp h
    cases e
    unfold study at hu
    simp only [hp, Bool.false_eq_true, if_false] at hu
    split at hu
    · cases hu; exact h0
    · split at hu
      · cases hu
      · obtain ⟨y, hy, hu⟩ := Option.bind_eq_some_iff.mp hu
        cases hu
        obtain ⟨a1, _⟩ := studyInput_fields final _ _ _ _ _ hy
        intro hm
        have : (studyEnd final y.1 y.2).mode = .studying := by
          unfold studyEnd
          split
          · exact a1
          · exact a1
        rw [this] at hm
        cases hm
  | process input final =>
    obtain ⟨u, hu, e⟩ := Option.map_eq_some_iff.mp h
    cases e
    unfold process at hu
    split at hu
    · cases hu; exact h0
    · rename_i hf
      obtain ⟨v, hv, hu⟩ := Option.bind_eq_some_iff.mp hu
      obtain ⟨w, hw, hu⟩ := Option.bind_eq_some_iff.mp hu
      cases hu
      have hvk : v.chans.length = p.channels ∧ v.mode = .processing ∧ ∀ cd ∈ v.chans, Roomy v.sizes cd := by
        by_cases hm : s.mode = .justCreated ∨ s.mode = .studying
        · obtain ⟨_, b2, b3, b4⟩ := prologue_clean ⟨hm, hk.length, hk.roomy, hk.clean⟩ hv
          exact ⟨b3, b2, fun cd hcd => (b4 cd hcd).2⟩
        · have hm' : s.mode = .processing := by
            cases h : s.mode <;> simp_all
          unfold prologue at hv
          rw [hm'] at hv
          cases hv
          exact ⟨hk.length, hm', hk.roomy⟩
      obtain ⟨_, _, c3, _, _⟩ := processLoop_roomy hp _ _ _ _ (by simp) hvk.2.2 hw
      intro hm
      simp only at hm
      split at hm
      · cases hm
      · rw [c3, hvk.2.1] at hm
        cases hm
  | available =>
    obtain ⟨⟨u, n⟩, hu, e⟩ := Option.map_eq_some_iff.mp h
    cases e
    obtain ⟨v, hv, e⟩ := Option.map_eq_some_iff.mp hu
    cases e
    unfold finish at hv
    split at hv
    · cases hv; exact h0
    · rename_i cd cds hc
      split at hv
      · rename_i hi
        rw [hp, if_neg (by decide)] at hv
        obtain ⟨l, hl, e⟩ := Option.map_eq_some_iff.mp hv
        rw [← e]
        intro hm
        have := (hk.clean hm cd (by rw [hc]; exact List.mem_cons_self ..)).inputSize
        rw [this] at hi
        cases hi
      · cases hv; exact h0
  | retrieve n =>
    cases h
    unfold retrieve
    simp only
    obtain ⟨_, b2⟩ := readChannels_roomy s.chans n
    intro hm cd hcd
    obtain ⟨k, hk, e⟩ := List.mem_iff_getElem.mp hcd
    obtain ⟨d, m, hd, e⟩ := b2 k cd (by rw [List.getElem?_eq_getElem hk, e])
    obtain ⟨x, hx⟩ := h0 hm d (List.mem_of_getElem? hd)
    exact ⟨x, by rw [e, ← hx]⟩
  | reset =>
    obtain ⟨u, hu, e⟩ := Option.map_eq_some_iff.mp h
    cases e
    unfold reset at hu
    exact fun _ => reconfigure_fresh hp hu

theorem run_fresh (hp : p.realTime = false) : ∀ (cs : List (Call α)) (s t : State α σ ρ κ) (outs : List (List (List α))), Kept p s →
    (s.mode = .justCreated → ∀ cd ∈ s.chans, Fresh env cd) → run p env s cs = some (t, outs) → t.mode = .justCreated → ∀ cd ∈ t.chans, Fresh env cd := by
  intro cs
  induction cs with
  | nil => intro s t outs _ h0 h; cases h; exact h0
  | cons c cs ih =>
    intro s t outs hk h0 h
    unfold run at h
    obtain ⟨⟨s1, o⟩, h1, h⟩ := Option.bind_eq_some_iff.mp h
    obtain ⟨⟨s2, os⟩, h2, h⟩ := Option.bind_eq_some_iff.mp h
    cases h
    exact ih s1 _ _ (call_kept hp hk h1) (call_fresh hp hk h0 h1) h2

/-- When processing begins, all spectral states have just been reset. -/
theorem fresh_start (hp : p.realTime = false) {a b : R3.Dbl} {s₀ s t : State α σ ρ κ} {pre : List (Call α)} {outs : List (List (List α))}
    (h1 : create p env a b = some s₀) (h2 : run p env s₀ pre = some (s, outs)) (hm : s.mode = .justCreated ∨ s.mode = .studying)
    (h : prologue env s = some t) : ∀ cd ∈ t.chans, Fresh env cd := by
  unfold prologue at h
  rcases hm with hm | hm
  · rw [hm] at h
    cases h
    exact run_fresh hp pre s₀ s outs (create_kept hp h1) (fun _ => configure_fresh hp h1) h2 hm
  · rw [hm] at h
    obtain ⟨u, hu, e⟩ := Option.map_eq_some_iff.mp h
    rw [← e]
    intro cd hcd
    obtain ⟨d, _, e⟩ := List.mem_map.mp hcd
    exact ⟨d.spec, by rw [← e]; rfl⟩

end Verif.R2
