import Verif.PluginAgain
/-!
# Controls of the plugins (C102)

Whether the pitch scale, the crispness and the formant option that a host asks for are those that its audio is processed with.
-/
namespace Verif.Plugin

variable {σ ρ K : Type}

/-- A stretcher with settings that can be told, each call of `process` being noted with the settings at that time; only the calls for it change a setting, except that a reset may change the pitch scale. -/
structure Telling (E : Engine σ ρ K) where
  scale : σ → ρ
  crisp : σ → Int
  formant : σ → Bool
  log : σ → List (ρ × Int × Bool)
  process_log : ∀ s x, log (E.process s x) = log s ++ [(scale s, crisp s, formant s)]
  process_kept : ∀ s x, scale (E.process s x) = scale s ∧ crisp (E.process s x) = crisp s ∧ formant (E.process s x) = formant s
  retrieve_kept : ∀ s n, log (E.retrieve s n).1 = log s ∧ scale (E.retrieve s n).1 = scale s ∧ crisp (E.retrieve s n).1 = crisp s ∧ formant (E.retrieve s n).1 = formant s
  reset_kept : ∀ s, log (E.reset s) = log s ∧ crisp (E.reset s) = crisp s ∧ formant (E.reset s) = formant s
  setPitchScale : ∀ s r, scale (E.setPitchScale s r) = r ∧ log (E.setPitchScale s r) = log s ∧ crisp (E.setPitchScale s r) = crisp s ∧ formant (E.setPitchScale s r) = formant s
  setCrispness : ∀ s c, crisp (E.setCrispness s c) = c ∧ log (E.setCrispness s c) = log s ∧ scale (E.setCrispness s c) = scale s ∧ formant (E.setCrispness s c) = formant s
  setFormant : ∀ s f, formant (E.setFormant s f) = f ∧ log (E.setFormant s f) = log s ∧ scale (E.setFormant s f) = scale s ∧ crisp (E.setFormant s f) = crisp s

/-- The plugin knows the settings of its stretcher; it knows nothing about crispness before it has been asked for any. -/
structure Knows {E : Engine σ ρ K} (T : Telling E) (s : Shifter σ ρ K) : Prop where
  scale : T.scale s.engine = s.prevRatio
  crisp : s.crispness = -1 ∨ T.crisp s.engine = s.crispness
  formant : T.formant s.engine = s.formant

/-- What a host asks for. -/
structure Asked (p : Ports ρ K) (x : ρ × Int × Bool) : Prop where
  scale : x.1 = p.ratio
  crisp : ∀ c, p.crispness = some c → 0 ≤ c → c ≤ 3 → x.2.1 = c
  formant : ∀ f, p.formant = some f → x.2.2 = f

variable {E : Engine σ ρ K} {T : Telling E}

theorem Knows.activate [Zero K] {z : Sizes} {r : ρ} {s : Shifter σ ρ K} (h1 : s.crispness = -1 ∨ T.crisp s.engine = s.crispness) (h2 : T.formant s.engine = s.formant) : Knows T (activate E z r s) := by
  have a := T.reset_kept s.engine
  have b := T.setPitchScale (E.reset s.engine) r
  have c := T.process_kept (E.setPitchScale (E.reset s.engine) r) fun _ => List.replicate z.reserve 0
  constructor
  · exact c.1.trans b.1
  · exact h1.imp_right fun h => (c.2.1.trans (b.2.2.1.trans a.2.1)).trans h
  · exact (c.2.2.trans (b.2.2.2.trans a.2.2)).trans h2

theorem Knows.updateRatio [DecidableEq ρ] {p : Ports ρ K} {s : Shifter σ ρ K} (h : Knows T s) : Knows T (updateRatio E p s) ∧ (Plugin.updateRatio E p s).prevRatio = p.ratio ∧ T.log (Plugin.updateRatio E p s).engine = T.log s.engine := by
  unfold Plugin.updateRatio
  split
  · have b := T.setPitchScale s.engine p.ratio
    exact ⟨⟨b.1, h.crisp.imp_right fun h => b.2.2.1.trans h, b.2.2.2.trans h.formant⟩, rfl, b.2.1⟩
  · rename_i e
    exact ⟨h, (not_not.mp e).symm, rfl⟩

theorem Knows.updateCrispness {p : Ports ρ K} {s : Shifter σ ρ K} (h : Knows T s) : Knows T (updateCrispness E p s) ∧ (Plugin.updateCrispness E p s).prevRatio = s.prevRatio ∧
    (∀ c, p.crispness = some c → 0 ≤ c → c ≤ 3 → (Plugin.updateCrispness E p s).crispness = c) ∧ T.log (Plugin.updateCrispness E p s).engine = T.log s.engine := by
  unfold Plugin.updateCrispness
  cases e : p.crispness with
  | none => exact ⟨h, rfl, fun c hc => (by cases hc), rfl⟩
  | some c =>
    simp only []
    split
    · rename_i e1
      exact ⟨h, rfl, fun d hd _ _ => by cases hd; exact e1.symm, rfl⟩
    · split
      · refine ⟨h, rfl, fun d hd _ _ => ?_, rfl⟩
        cases hd
        omega
      · have b := T.setCrispness s.engine c
        exact ⟨⟨b.2.2.1.trans h.scale, Or.inr b.1, b.2.2.2.trans h.formant⟩, rfl, fun d hd _ _ => by cases hd; rfl, b.2.1⟩

theorem Knows.updateFormant {p : Ports ρ K} {s : Shifter σ ρ K} (h : Knows T s) : Knows T (updateFormant E p s) ∧ (Plugin.updateFormant E p s).prevRatio = s.prevRatio ∧
    (Plugin.updateFormant E p s).crispness = s.crispness ∧ (∀ f, p.formant = some f → (Plugin.updateFormant E p s).formant = f) ∧ T.log (Plugin.updateFormant E p s).engine = T.log s.engine := by
  unfold Plugin.updateFormant
  cases e : p.formant with
  | none => exact ⟨h, rfl, rfl, fun c hc => (by cases hc), rfl⟩
  | some f =>
    simp only []
    split
    · rename_i e1
      exact ⟨h, rfl, rfl, fun d hd => by cases hd; exact e1.symm, rfl⟩
    · have b := T.setFormant s.engine f
      exact ⟨⟨b.2.2.1.trans h.scale, h.crisp.imp_right fun h => b.2.2.2.trans h, b.1⟩, rfl, rfl, fun d hd => by cases hd; rfl, b.2.1⟩

/-- The settings the plugin has are those asked for. -/
structure Set (T : Telling E) (p : Ports ρ K) (s : Shifter σ ρ K) : Prop where
  knows : Knows T s
  scale : s.prevRatio = p.ratio
  crisp : ∀ c, p.crispness = some c → 0 ≤ c → c ≤ 3 → s.crispness = c
  formant : ∀ f, p.formant = some f → s.formant = f

theorem Set.asked {p : Ports ρ K} {s : Shifter σ ρ K} (h : Set T p s) : Asked p (T.scale s.engine, T.crisp s.engine, T.formant s.engine) := by
  refine ⟨h.knows.scale.trans h.scale, fun c h1 h2 h3 => ?_, fun f hf => h.knows.formant.trans (h.formant f hf)⟩
  have := h.crisp c h1 h2 h3
  rcases h.knows.crisp with e | e
  · omega
  · exact e.trans this

theorem Knows.settings [DecidableEq ρ] {p : Ports ρ K} {s : Shifter σ ρ K} (h : Knows T s) : Set T p (settings E p s) ∧ T.log (Plugin.settings E p s).engine = T.log s.engine := by
  obtain ⟨a1, a2, a3⟩ := h.updateRatio (p := p)
  obtain ⟨b1, b2, b3, b4⟩ := a1.updateCrispness (p := p)
  obtain ⟨c1, c2, c3, c4, c5⟩ := b1.updateFormant (p := p)
  exact ⟨⟨c1, c2.trans (b2.trans a2), fun c h1 h2 h3 => c3.trans (b3 c h1 h2 h3), c4⟩, c5.trans (b4.trans a3)⟩

theorem Set.feedOnce {p : Ports ρ K} {s : Shifter σ ρ K} (h : Set T p s) (x : Nat → List K) : Set T p (feedOnce E x s) ∧ ∃ y, T.log (Plugin.feedOnce E x s).engine = T.log s.engine ++ [y] ∧ Asked p y := by
  have a := T.process_kept s.engine x
  have b := T.retrieve_kept (E.process s.engine x) (min (E.available (E.process s.engine x)) (s.outputBuffer 0).space)
  refine ⟨⟨⟨b.2.1.trans (a.1.trans h.knows.scale), h.knows.crisp.imp_right fun e => b.2.2.1.trans (a.2.1.trans e), b.2.2.2.trans (a.2.2.trans h.knows.formant)⟩, h.scale, h.crisp, h.formant⟩, _,
    b.1.trans (T.process_log ..), h.asked⟩

theorem Set.feed {p : Ports ρ K} {m : Mem K} {off n : Nat} : ∀ (fuel processed : Nat) {s s' : Shifter σ ρ K}, Set T p s → feed E m p off n fuel processed s = some s' →
    Set T p s' ∧ ∃ l, T.log s'.engine = T.log s.engine ++ l ∧ ∀ y ∈ l, Asked p y
  | 0, processed, s, s', h, e => by
    unfold Plugin.feed at e
    split at e
    · cases e
    · cases e
      exact ⟨h, [], (List.append_nil _).symm, by simp⟩
  | fuel + 1, processed, s, s', h, e => by
    unfold Plugin.feed at e
    split at e
    · obtain ⟨a, y, e1, hy⟩ := h.feedOnce (chunk m p (off + processed) (min (n - processed) (E.required s.engine)))
      obtain ⟨b, l, e2, hl⟩ := Set.feed fuel _ a e
      refine ⟨b, y :: l, by rw [e2, e1, List.append_assoc]; rfl, ?_⟩
      intro z hz
      rcases List.mem_cons.mp hz with rfl | hz
      · exact hy
      · exact hl z hz
    · cases e
      exact ⟨h, [], (List.append_nil _).symm, by simp⟩

theorem Knows.blocks [DecidableEq ρ] {z : Sizes} {fuel : Nat} {p : Ports ρ K} {n : Nat} : ∀ (k off : Nat) {s s' : Shifter σ ρ K} {m m' : Mem K}, Knows T s → blocks E z fuel p n k off s m = some (s', m') →
    Knows T s' ∧ ∃ l, T.log s'.engine = T.log s.engine ++ l ∧ ∀ y ∈ l, Asked p y
  | 0, off, s, s', m, m', h, e => by
    unfold Plugin.blocks at e
    split at e
    · cases e
    · cases e
      exact ⟨h, [], (List.append_nil _).symm, by simp⟩
  | k + 1, off, s, s', m, m', h, e => by
    unfold Plugin.blocks at e
    split at e
    · obtain ⟨x, hx, e⟩ := Option.bind_eq_some_iff.mp e
      unfold runBlock at hx
      obtain ⟨t, ht, rfl⟩ := Option.map_eq_some_iff.mp hx
      obtain ⟨a1, a2⟩ := h.settings (p := p)
      obtain ⟨b, l, e2, hl⟩ := Set.feed fuel 0 a1 ht
      obtain ⟨c, l', e3, hl'⟩ := Knows.blocks k _ (by exact ⟨b.knows.scale, b.knows.crisp, b.knows.formant⟩) e
      refine ⟨c, l ++ l', ?_, fun y hy => (List.mem_append.mp hy).elim (hl y) (hl' y)⟩
      rw [e3]
      show T.log t.engine ++ l' = _
      rw [e2, a2, List.append_assoc]
    · cases e
      exact ⟨h, [], (List.append_nil _).symm, by simp⟩

variable [Field K] [LinearOrder K]

theorem Knows.run [DecidableEq ρ] {z : Sizes} {fuel : Nat} {p : Ports ρ K} {n : Nat} {s s' : Shifter σ ρ K} {m m' : Mem K} (h : Knows T s) (e : run E z fuel p n s m = some (s', m')) :
    Knows T s' ∧ ∃ l, T.log s'.engine = T.log s.engine ++ l ∧ ∀ y ∈ l, Asked p y := by
  unfold Plugin.run at e
  obtain ⟨x, hx, e⟩ := Option.map_eq_some_iff.mp e
  obtain ⟨a, l, e1, hl⟩ := Knows.blocks n 0 (by exact ⟨h.scale, h.crisp, h.formant⟩) hx
  cases e
  exact ⟨⟨a.scale, a.crisp, a.formant⟩, l, e1, hl⟩

theorem Knows.history [DecidableEq ρ] {z : Sizes} {fuel : Nat} : ∀ (es : List (Event ρ K)) {s s' : Shifter σ ρ K}, Knows T s → history E z fuel s es = some s' → Knows T s'
  | [], s, s', h, e => by
    cases e
    exact h
  | .run c :: es, s, s', h, e => by
    obtain ⟨x, hx, e⟩ := Option.bind_eq_some_iff.mp e
    exact Knows.history es (h.run hx).1 e
  | .activate r :: es, s, s', h, e => Knows.history es (Knows.activate h.crisp h.formant) e

/-- C102, the plugins with a stretcher: after any history, all audio of a call is processed with the pitch scale, the formant option and the crispness (of 0 to 3) that the host asks for in that call. -/
theorem C102_controls [DecidableEq ρ] (T : Telling E) {z : Sizes} {ch fuel : Nat} {e : σ} (he : T.formant e = false) {one : ρ} {es : List (Event ρ K)} {s s' : Shifter σ ρ K} (hs : history E z fuel (create E z ch e one) es = some s)
    {c : Call ρ K} {m : Mem K} (h : run E z fuel c.ports c.n s c.mem = some (s', m)) : ∃ l, T.log s'.engine = T.log s.engine ++ l ∧ ∀ y ∈ l, Asked c.ports y :=
  ((Knows.history es (Knows.activate (Or.inl rfl) he) hs).run h).2

/-- For examples: a stretcher that notes its settings. -/
def Ex.noting : Engine (Nat × Int × Bool × List (Nat × Int × Bool)) Nat Rat where
  required := fun _ => 2
  process := fun s _ => (s.1, s.2.1, s.2.2.1, s.2.2.2 ++ [(s.1, s.2.1, s.2.2.1)])
  available := fun _ => 0
  retrieve := fun s _ => (s, 0, fun _ => [])
  reset := fun s => (1, s.2)
  setPitchScale := fun s r => (r, s.2)
  setCrispness := fun s c => (s.1, c, s.2.2)
  setFormant := fun s f => (s.1, s.2.1, f, s.2.2.2)

def Ex.telling : Telling Ex.noting where
  scale := fun s => s.1
  crisp := fun s => s.2.1
  formant := fun s => s.2.2.1
  log := fun s => s.2.2.2
  process_log := fun _ _ => rfl
  process_kept := fun _ _ => ⟨rfl, rfl, rfl⟩
  retrieve_kept := fun _ _ => ⟨rfl, rfl, rfl, rfl⟩
  reset_kept := fun _ => ⟨rfl, rfl, rfl⟩
  setPitchScale := fun _ _ => ⟨rfl, rfl, rfl, rfl⟩
  setCrispness := fun _ _ => ⟨rfl, rfl, rfl, rfl⟩
  setFormant := fun _ _ => ⟨rfl, rfl, rfl, rfl⟩

/-- The hypotheses of C102_controls, the plugin being activated again and its settings being changed. -/
example : ∃ s s' m, history Ex.noting Ex.small 10 (create Ex.noting Ex.small 1 (1, 5, false, []) 1) [.run ⟨⟨fun _ => 0, fun _ => 1, 2, some 1, some true, 0⟩, 3, fun _ => [1, 2, 3]⟩, .activate 2] = some s ∧
    run Ex.noting Ex.small 10 ⟨fun _ => 0, fun _ => 1, 3, some 3, some false, 0⟩ 3 s (fun _ => [1, 2, 3]) = some (s', m) ∧
    s'.engine.2.2.2 = [(1, 5, false), (2, 1, true), (2, 1, true), (2, 1, true), (3, 3, false), (3, 3, false)] := by
  have h : ((history Ex.noting Ex.small 10 (create Ex.noting Ex.small 1 (1, 5, false, []) 1) [.run ⟨⟨fun _ => 0, fun _ => 1, 2, some 1, some true, 0⟩, 3, fun _ => [1, 2, 3]⟩, .activate 2]).bind fun s =>
      (run Ex.noting Ex.small 10 ⟨fun _ => 0, fun _ => 1, 3, some 3, some false, 0⟩ 3 s (fun _ => [1, 2, 3]))).map (fun x => x.1.engine.2.2.2) =
      some [(1, 5, false), (2, 1, true), (2, 1, true), (2, 1, true), (3, 3, false), (3, 3, false)] := by decide +kernel
  obtain ⟨x, hx, e⟩ := Option.map_eq_some_iff.mp h
  obtain ⟨s, hs, hr⟩ := Option.bind_eq_some_iff.mp hx
  exact ⟨s, x.1, x.2, hs, hr, e⟩

end Verif.Plugin

namespace Verif.Plugin.Live
open Verif.Plugin

variable {σ ρ K : Type}

/-- A live shifter with settings that can be told, each call of `shift` being noted with the settings at that time. -/
structure Telling (E : Engine σ ρ K) where
  scale : σ → ρ
  formant : σ → Bool
  log : σ → List (ρ × Bool)
  shift_log : ∀ s x, log (E.shift s x).1 = log s ++ [(scale s, formant s)]
  shift_kept : ∀ s x, scale (E.shift s x).1 = scale s ∧ formant (E.shift s x).1 = formant s
  reset_kept : ∀ s, log (E.reset s) = log s ∧ formant (E.reset s) = formant s
  setPitchScale : ∀ s r, scale (E.setPitchScale s r) = r ∧ log (E.setPitchScale s r) = log s ∧ formant (E.setPitchScale s r) = formant s
  setFormant : ∀ s f, formant (E.setFormant s f) = f ∧ log (E.setFormant s f) = log s ∧ scale (E.setFormant s f) = scale s

structure Knows {E : Engine σ ρ K} (T : Telling E) (s : Shifter σ ρ K) : Prop where
  scale : T.scale s.engine = s.prevRatio
  formant : T.formant s.engine = s.formant

/-- What a host asks for. -/
structure Asked (p : Ports ρ K) (x : ρ × Bool) : Prop where
  scale : x.1 = p.ratio
  formant : ∀ f, p.formant = some f → x.2 = f

variable {E : Engine σ ρ K} {T : Telling E}

theorem Knows.activate [Zero K] {r : ρ} {s : Shifter σ ρ K} (h2 : T.formant s.engine = s.formant) : Knows T (activate E r s) := by
  have a := T.reset_kept s.engine
  have b := T.setPitchScale (E.reset s.engine) r
  exact ⟨b.1, (b.2.2.trans a.2).trans h2⟩

theorem Knows.settings [DecidableEq ρ] {p : Ports ρ K} {s : Shifter σ ρ K} (h : Knows T s) : Knows T (settings E p s) ∧ (Live.settings E p s).prevRatio = p.ratio ∧
    (∀ f, p.formant = some f → (Live.settings E p s).formant = f) ∧ T.log (Live.settings E p s).engine = T.log s.engine := by
  have a : Knows T (updateRatio E p s) ∧ (updateRatio E p s).prevRatio = p.ratio ∧ T.log (updateRatio E p s).engine = T.log s.engine := by
    unfold updateRatio
    split
    · have b := T.setPitchScale s.engine p.ratio
      exact ⟨⟨b.1, b.2.2.trans h.formant⟩, rfl, b.2.1⟩
    · rename_i e
      exact ⟨h, (not_not.mp e).symm, rfl⟩
  obtain ⟨a1, a2, a3⟩ := a
  unfold Live.settings updateFormant
  cases e : p.formant with
  | none => exact ⟨a1, a2, fun c hc => (by cases hc), a3⟩
  | some f =>
    simp only []
    split
    · rename_i e1
      exact ⟨a1, a2, fun d hd => by cases hd; exact e1.symm, a3⟩
    · have b := T.setFormant (updateRatio E p s).engine f
      exact ⟨⟨b.2.2.trans a1.scale, b.1⟩, a2, fun d hd => by cases hd; rfl, b.2.1.trans a3⟩

theorem Knows.shiftAll {p : Ports ρ K} : ∀ (k : Nat) {s s' : Shifter σ ρ K}, Knows T s → s.prevRatio = p.ratio → (∀ f, p.formant = some f → s.formant = f) → shiftAll E k s = some s' →
    Knows T s' ∧ ∃ l, T.log s'.engine = T.log s.engine ++ l ∧ ∀ y ∈ l, Asked p y
  | 0, s, s', h, _, _, e => by
    unfold Live.shiftAll at e
    split at e
    · cases e
    · cases e
      exact ⟨h, [], (List.append_nil _).symm, by simp⟩
  | k + 1, s, s', h, h1, h2, e => by
    unfold Live.shiftAll at e
    split at e
    · have a := T.shift_kept s.engine fun c => (s.irb c).items.take E.blockSize
      obtain ⟨b, l, e2, hl⟩ := Knows.shiftAll k (s := shiftOnce E s) ⟨a.1.trans h.scale, a.2.trans h.formant⟩ h1 h2 e
      refine ⟨b, (T.scale s.engine, T.formant s.engine) :: l, ?_, ?_⟩
      · rw [e2]
        show T.log (E.shift s.engine _).1 ++ l = _
        rw [T.shift_log, List.append_assoc]
        rfl
      · intro y hy
        rcases List.mem_cons.mp hy with rfl | hy
        · exact ⟨h.scale.trans h1, fun f hf => h.formant.trans (h2 f hf)⟩
        · exact hl y hy
    · cases e
      exact ⟨h, [], (List.append_nil _).symm, by simp⟩

variable [Field K] [LinearOrder K]

theorem Knows.run [DecidableEq ρ] {p : Ports ρ K} {n : Nat} {s s' : Shifter σ ρ K} {m m' : Mem K} (h : Knows T s) (e : run E p n s m = some (s', m')) :
    Knows T s' ∧ ∃ l, T.log s'.engine = T.log s.engine ++ l ∧ ∀ y ∈ l, Asked p y := by
  unfold Live.run at e
  obtain ⟨a1, a2, a3, a4⟩ := h.settings (p := p)
  obtain ⟨x, hx, e⟩ := Option.map_eq_some_iff.mp e
  obtain ⟨b, l, e1, hl⟩ := Knows.shiftAll _ (by exact ⟨a1.scale, a1.formant⟩) (by exact a2) (by exact a3) hx
  cases e
  refine ⟨⟨b.scale, b.formant⟩, l, ?_, hl⟩
  exact e1.trans (congrArg (· ++ l) a4)

theorem Knows.history [DecidableEq ρ] : ∀ (es : List (Event ρ K)) {s s' : Shifter σ ρ K}, Knows T s → history E s es = some s' → Knows T s'
  | [], s, s', h, e => by
    cases e
    exact h
  | .run c :: es, s, s', h, e => by
    obtain ⟨x, hx, e⟩ := Option.bind_eq_some_iff.mp e
    exact Knows.history es (h.run hx).1 e
  | .activate r :: es, s, s', h, e => Knows.history es (Knows.activate h.formant) e

/-- C102, the live plugin. -/
theorem C102_live [DecidableEq ρ] (T : Telling E) {ch : Nat} {e : σ} (he : T.formant e = false) {one : ρ} {junk : Nat → List K} {es : List (Event ρ K)} {s s' : Shifter σ ρ K} (hs : history E (create E ch e one junk) es = some s)
    {c : Call ρ K} {m : Mem K} (h : run E c.ports c.n s c.mem = some (s', m)) : ∃ l, T.log s'.engine = T.log s.engine ++ l ∧ ∀ y ∈ l, Asked c.ports y :=
  ((Knows.history es (Knows.activate he) hs).run h).2

/-- For examples: a live shifter that notes its settings. -/
def Ex.noting : Engine (Nat × Bool × List (Nat × Bool)) Nat Rat where
  blockSize := 2
  startDelay := fun _ => 1
  shift := fun s x => ((s.1, s.2.1, s.2.2 ++ [(s.1, s.2.1)]), x)
  reset := fun s => s
  setPitchScale := fun s r => (r, s.2)
  setFormant := fun s f => (s.1, f, s.2.2)

def Ex.telling : Telling Ex.noting where
  scale := fun s => s.1
  formant := fun s => s.2.1
  log := fun s => s.2.2
  shift_log := fun _ _ => rfl
  shift_kept := fun _ _ => ⟨rfl, rfl⟩
  reset_kept := fun _ => ⟨rfl, rfl⟩
  setPitchScale := fun _ _ => ⟨rfl, rfl, rfl⟩
  setFormant := fun _ _ => ⟨rfl, rfl, rfl⟩

/-- The hypotheses of C102_live. -/
example : ∃ s s' m, history Ex.noting (create Ex.noting 1 (1, false, []) 1 fun _ => [9, 9]) [.run ⟨⟨fun _ => 0, fun _ => 1, 2, none, some true, 0⟩, 3, fun _ => [1, 2, 3]⟩] = some s ∧
    run Ex.noting ⟨fun _ => 0, fun _ => 1, 3, none, some false, 0⟩ 3 s (fun _ => [1, 2, 3]) = some (s', m) ∧ s'.engine.2.2 = [(2, true), (2, true), (3, false), (3, false)] := by
  have h : ((history Ex.noting (create Ex.noting 1 (1, false, []) 1 fun _ => [9, 9]) [.run ⟨⟨fun _ => 0, fun _ => 1, 2, none, some true, 0⟩, 3, fun _ => [1, 2, 3]⟩]).bind fun s =>
      run Ex.noting ⟨fun _ => 0, fun _ => 1, 3, none, some false, 0⟩ 3 s (fun _ => [1, 2, 3])).map (fun x => x.1.engine.2.2) = some [(2, true), (2, true), (3, false), (3, false)] := by decide +kernel
  obtain ⟨x, hx, e⟩ := Option.map_eq_some_iff.mp h
  obtain ⟨s, hs, hr⟩ := Option.bind_eq_some_iff.mp hx
  exact ⟨s, x.1, x.2, hs, hr, e⟩

end Verif.Plugin.Live
