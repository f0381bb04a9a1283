import Verif.PluginLiveProps
/-!
# Activating a plugin again (C101)

A host may deactivate a plugin and activate it again; what it does with earlier audio is then to be forgotten.
-/
namespace Verif.Plugin

variable {σ ρ K : Type} {E : Engine σ ρ K}

/-- A plugin without its counts of messages. -/
def forget (s : Shifter σ ρ K) : Shifter σ ρ K := { s with overruns := 0, underruns := 0 }

/-- The sizes of the buffers, which never change. -/
structure Caps (z : Sizes) (ch : Nat) (s : Shifter σ ρ K) : Prop where
  channels : s.channels = ch
  output : ∀ c, (s.outputBuffer c).cap = z.bufsize
  delay : ∀ c, (s.delayMix c).cap = z.bufsize

theorem settings_forget [DecidableEq ρ] (p : Ports ρ K) (s : Shifter σ ρ K) : forget (settings E p s) = settings E p (forget s) := by
  unfold settings updateFormant updateCrispness updateRatio forget
  cases p.crispness <;> cases p.formant <;> simp only [] <;> split_ifs <;> rfl

theorem settings_caps [DecidableEq ρ] {z : Sizes} {ch : Nat} {p : Ports ρ K} {s : Shifter σ ρ K} (h : Caps z ch s) : Caps z ch (settings E p s) := by
  have : (settings E p s).channels = s.channels ∧ (settings E p s).outputBuffer = s.outputBuffer ∧ (settings E p s).delayMix = s.delayMix := by
    unfold settings updateFormant updateCrispness updateRatio
    cases p.crispness <;> cases p.formant <;> simp only [] <;> split_ifs <;> exact ⟨rfl, rfl, rfl⟩
  exact ⟨by rw [this.1]; exact h.channels, by rw [this.2.1]; exact h.output, by rw [this.2.2]; exact h.delay⟩

theorem feed_forget (m : Mem K) (p : Ports ρ K) (off n : Nat) : ∀ (fuel processed : Nat) {s t : Shifter σ ρ K}, forget s = forget t →
    (feed E m p off n fuel processed s).map forget = (feed E m p off n fuel processed t).map forget
  | 0, processed, s, t, h => by
    unfold feed
    split
    · rfl
    · simp only [Option.map_some, h]
  | fuel + 1, processed, s, t, h => by
    unfold feed
    split
    · have he : (forget s).engine = (forget t).engine := by rw [h]
      change s.engine = t.engine at he
      rw [he]
      refine feed_forget m p off n fuel _ ?_
      have e : ∀ s : Shifter σ ρ K, ∀ x, forget (feedOnce E x s) = forget (feedOnce E x (forget s)) := fun _ _ => rfl
      rw [e s, e t, h]
    · simp only [Option.map_some, h]

theorem feed_caps {z : Sizes} {ch : Nat} (m : Mem K) (p : Ports ρ K) (off n : Nat) : ∀ (fuel processed : Nat) {s s' : Shifter σ ρ K}, Caps z ch s → feed E m p off n fuel processed s = some s' → Caps z ch s'
  | 0, processed, s, s', h, e => by
    unfold feed at e
    split at e
    · cases e
    · cases e
      exact h
  | fuel + 1, processed, s, s', h, e => by
    unfold feed at e
    split at e
    · exact feed_caps m p off n fuel _ (s := feedOnce E _ s) ⟨h.channels, h.output, h.delay⟩ e
    · cases e
      exact h

theorem runBlock_forget [DecidableEq ρ] {fuel : Nat} {p : Ports ρ K} {off n : Nat} {s t : Shifter σ ρ K} (h : forget s = forget t) (m : Mem K) :
    (runBlock E fuel p off n s m).map (fun x => (forget x.1, x.2)) = (runBlock E fuel p off n t m).map fun x => (forget x.1, x.2) := by
  have e := feed_forget (E := E) m p off n fuel 0 (s := settings E p s) (t := settings E p t) (by rw [settings_forget, settings_forget, h])
  unfold runBlock
  rw [show updateFormant E p (updateCrispness E p (updateRatio E p s)) = settings E p s from rfl, show updateFormant E p (updateCrispness E p (updateRatio E p t)) = settings E p t from rfl]
  rw [Option.map_map, Option.map_map]
  have key : ∀ o : Option (Shifter σ ρ K), o.map ((fun x : Shifter σ ρ K × Mem K => (forget x.1, x.2)) ∘ fun s =>
      ({ s with
          outputBuffer := fun c => (s.outputBuffer c).skip (min (s.outputBuffer c).items.length n)
          underruns := if (s.outputBuffer 0).items.length < n then s.underruns + 1 else s.underruns },
        deliver p off n s.channels s.outputBuffer m)) =
      (o.map forget).map fun s => ({ s with outputBuffer := fun c => (s.outputBuffer c).skip (min (s.outputBuffer c).items.length n) }, deliver p off n s.channels s.outputBuffer m) := by
    intro o
    cases o <;> rfl
  rw [key, key, e]

theorem runBlock_caps [DecidableEq ρ] {z : Sizes} {ch fuel : Nat} {p : Ports ρ K} {off n : Nat} {s s' : Shifter σ ρ K} {m m' : Mem K} (h : Caps z ch s) (e : runBlock E fuel p off n s m = some (s', m')) :
    Caps z ch s' := by
  unfold runBlock at e
  obtain ⟨t, ht, e⟩ := Option.map_eq_some_iff.mp e
  have := feed_caps m p off n fuel 0 (settings_caps (E := E) (p := p) h) ht
  cases e
  exact ⟨this.channels, this.output, this.delay⟩

theorem blocks_forget [DecidableEq ρ] (z : Sizes) (fuel : Nat) (p : Ports ρ K) (n : Nat) : ∀ (k off : Nat) {s t : Shifter σ ρ K} (_ : forget s = forget t) (m : Mem K),
    (blocks E z fuel p n k off s m).map (fun x => (forget x.1, x.2)) = (blocks E z fuel p n k off t m).map fun x => (forget x.1, x.2)
  | 0, off, s, t, h, m => by
    unfold blocks
    split
    · rfl
    · simp only [Option.map_some, h]
  | k + 1, off, s, t, h, m => by
    unfold blocks
    split
    · have e := runBlock_forget (E := E) (fuel := fuel) (p := p) (off := off) (n := min z.blockSize (n - off)) h m
      cases h1 : runBlock E fuel p off (min z.blockSize (n - off)) s m with
      | none =>
        rw [h1] at e
        rw [Option.map_eq_none_iff.mp e.symm]
      | some x =>
        rw [h1] at e
        obtain ⟨y, hy, e'⟩ := Option.map_eq_some_iff.mp e.symm
        rw [hy]
        simp only [Option.bind_some]
        rw [congrArg Prod.snd e']
        exact blocks_forget z fuel p n k _ (congrArg Prod.fst e').symm _
    · simp only [Option.map_some, h]

theorem blocks_caps [DecidableEq ρ] {z : Sizes} {ch : Nat} (z' : Sizes) (fuel : Nat) (p : Ports ρ K) (n : Nat) : ∀ (k off : Nat) {s s' : Shifter σ ρ K} {m m' : Mem K}, Caps z ch s → blocks E z' fuel p n k off s m = some (s', m') →
    Caps z ch s'
  | 0, off, s, s', m, m', h, e => by
    unfold blocks at e
    split at e
    · cases e
    · cases e
      exact h
  | k + 1, off, s, s', m, m', h, e => by
    unfold blocks at e
    split at e
    · obtain ⟨x, hx, e⟩ := Option.bind_eq_some_iff.mp e
      exact blocks_caps z' fuel p n k _ (runBlock_caps h hx) e
    · cases e
      exact h

variable [Field K] [LinearOrder K]

theorem run_forget [DecidableEq ρ] {z : Sizes} {fuel : Nat} {p : Ports ρ K} {n : Nat} {s t : Shifter σ ρ K} (h : forget s = forget t) (m : Mem K) :
    (run E z fuel p n s m).map (fun x => (forget x.1, x.2)) = (run E z fuel p n t m).map fun x => (forget x.1, x.2) := by
  have e := blocks_forget (E := E) z fuel p n n 0 (s := { s with delayMix := fun c => (s.delayMix c).write ((m (p.ins c)).take n) })
    (t := { t with delayMix := fun c => (t.delayMix c).write ((m (p.ins c)).take n) }) (by
      show { forget s with delayMix := fun c => ((forget s).delayMix c).write ((m (p.ins c)).take n) } = { forget t with delayMix := fun c => ((forget t).delayMix c).write ((m (p.ins c)).take n) }
      rw [h]) m
  unfold run
  rw [Option.map_map, Option.map_map]
  have key : ∀ o : Option (Shifter σ ρ K × Mem K), o.map ((fun x : Shifter σ ρ K × Mem K => (forget x.1, x.2)) ∘ fun x =>
      ({ x.1 with delayMix := fun c => (x.1.delayMix c).skip n }, mixAll p n x.1.channels x.1.delayMix x.2)) =
      (o.map fun x : Shifter σ ρ K × Mem K => (forget x.1, x.2)).map fun x => ({ x.1 with delayMix := fun c => (x.1.delayMix c).skip n }, mixAll p n x.1.channels x.1.delayMix x.2) := by
    intro o
    cases o <;> rfl
  rw [key, key, e]

theorem run_caps [DecidableEq ρ] {z : Sizes} {ch : Nat} {z' : Sizes} {fuel : Nat} {p : Ports ρ K} {n : Nat} {s s' : Shifter σ ρ K} {m m' : Mem K} (h : Caps z ch s) (e : run E z' fuel p n s m = some (s', m')) : Caps z ch s' := by
  unfold run at e
  obtain ⟨x, hx, e⟩ := Option.map_eq_some_iff.mp e
  have := blocks_caps z' fuel p n n 0 (s := { s with delayMix := fun c => (s.delayMix c).write ((m (p.ins c)).take n) }) ⟨h.channels, h.output, h.delay⟩ hx
  cases e
  exact ⟨this.channels, this.output, this.delay⟩

theorem runs_forget [DecidableEq ρ] {z : Sizes} {fuel : Nat} : ∀ (cs : List (Call ρ K)) {s t : Shifter σ ρ K}, forget s = forget t → (runs E z fuel s cs).map Prod.snd = (runs E z fuel t cs).map Prod.snd
  | [], _, _, _ => rfl
  | c :: cs, s, t, h => by
    have e := run_forget (E := E) (z := z) (fuel := fuel) (p := c.ports) (n := c.n) h c.mem
    unfold runs
    cases h1 : run E z fuel c.ports c.n s c.mem with
    | none =>
      rw [h1] at e
      rw [Option.map_eq_none_iff.mp e.symm]
    | some x =>
      rw [h1] at e
      obtain ⟨y, hy, e'⟩ := Option.map_eq_some_iff.mp e.symm
      rw [hy]
      simp only [Option.bind_some, Option.map_map]
      have := runs_forget (z := z) (fuel := fuel) cs (congrArg Prod.fst e').symm
      have e2 : y.2 = x.2 := (Prod.mk.inj e').2
      rw [e2]
      generalize runs E z fuel x.1 cs = a at this ⊢
      generalize runs E z fuel y.1 cs = b at this ⊢
      cases a <;> cases b <;> simp_all

/-- What a host does with a plugin: it lets it run, or activates it with a pitch scale set. -/
inductive Event (ρ K : Type) where
  | run (c : Call ρ K)
  | activate (ratio : ρ)

/-- Some of these. -/
def history [DecidableEq ρ] (E : Engine σ ρ K) (z : Sizes) (fuel : Nat) (s : Shifter σ ρ K) : List (Event ρ K) → Option (Shifter σ ρ K)
  | [] => some s
  | .run c :: es => (run E z fuel c.ports c.n s c.mem).bind fun x => history E z fuel x.1 es
  | .activate r :: es => history E z fuel (activate E z r s) es

theorem history_caps [DecidableEq ρ] {z : Sizes} {ch : Nat} {z' : Sizes} {fuel : Nat} : ∀ (es : List (Event ρ K)) {s s' : Shifter σ ρ K}, Caps z ch s → history E z' fuel s es = some s' → Caps z ch s'
  | [], s, s', h, e => by
    cases e
    exact h
  | .run c :: es, s, s', h, e => by
    obtain ⟨x, hx, e⟩ := Option.bind_eq_some_iff.mp e
    exact history_caps es (run_caps h hx) e
  | .activate r :: es, s, s', h, e => history_caps es (s := activate E z' r s) ⟨h.channels, h.output, h.delay⟩ e

/-- C101, the plugins with a stretcher.  If two of them have had any history of their own, but have the same settings now and a reset puts their stretchers into the same state, then once activated they
do the same. -/
theorem C101_again [DecidableEq ρ] {z : Sizes} {ch fuel : Nat} {e e' : σ} {one : ρ} {es es' : List (Event ρ K)} {s t : Shifter σ ρ K}
    (hs : history E z fuel (create E z ch e one) es = some s) (ht : history E z fuel (create E z ch e' one) es' = some t)
    (h1 : E.reset s.engine = E.reset t.engine) (h2 : s.crispness = t.crispness) (h3 : s.formant = t.formant) (r : ρ) (cs : List (Call ρ K)) :
    (runs E z fuel (activate E z r s) cs).map Prod.snd = (runs E z fuel (activate E z r t) cs).map Prod.snd := by
  have cs' := history_caps (z := z) (ch := ch) es ⟨rfl, fun _ => rfl, fun _ => rfl⟩ hs
  have ct := history_caps (z := z) (ch := ch) es' ⟨rfl, fun _ => rfl, fun _ => rfl⟩ ht
  refine runs_forget cs ?_
  obtain ⟨a1, a2, a3, a4, a5, a6, a7, a8, a9⟩ := s
  obtain ⟨b1, b2, b3, b4, b5, b6, b7, b8, b9⟩ := t
  obtain ⟨c1, c2, c3⟩ := cs'
  obtain ⟨d1, d2, d3⟩ := ct
  simp only at c1 c2 c3 d1 d2 d3 h1 h2 h3
  have k1 : (fun c => (a3 c).reset) = fun c => (b3 c).reset := by
    funext c
    simp only [Q.reset, c2, d2]
  have k2 : (fun c => ((a4 c).reset).zero (latency z)) = fun c => ((b4 c).reset).zero (latency z) := by
    funext c
    simp only [Q.reset, c3, d3]
  simp only [activate, forget]
  rw [k1, k2, c1, d1, h1, h2, h3]

/-- For examples: small buffers. -/
def Ex.small : Sizes := ⟨2, 4, 12⟩

/-- The hypotheses of C101_again: a new plugin, and one that has shifted some audio, of which some is still in its buffers. -/
example : ∃ s, history Ex.through Ex.small 10 (create Ex.through Ex.small 1 ([], [], []) 1) [.run ⟨Ex.ports 1 2, 3, fun _ => [1, 2, 3]⟩] = some s ∧ (s.delayMix 0).items = [0, 1, 2, 3] ∧
    ∀ cs, (runs Ex.through Ex.small 10 (activate Ex.through Ex.small 2 s) cs).map Prod.snd = (runs Ex.through Ex.small 10 (activate Ex.through Ex.small 2 (create Ex.through Ex.small 1 ([], [], []) 1)) cs).map Prod.snd := by
  have h : (history Ex.through Ex.small 10 (create Ex.through Ex.small 1 ([], [], []) 1) [.run ⟨Ex.ports 1 2, 3, fun _ => [1, 2, 3]⟩]).map (fun s => (s.crispness, s.formant, (s.delayMix 0).items)) =
      some (-1, false, [0, 1, 2, 3]) := by decide +kernel
  obtain ⟨s, hs, e⟩ := Option.map_eq_some_iff.mp h
  simp only [Prod.mk.injEq] at e
  exact ⟨s, hs, e.2.2, fun cs => C101_again (es' := []) hs rfl rfl e.1 e.2.1 2 cs⟩

end Verif.Plugin

namespace Verif.Plugin.Live
open Verif.Plugin

variable {σ ρ K : Type} {E : Engine σ ρ K}

/-- Two live plugins that will do the same: they agree in all but what is left in the block for output. -/
structure Alike (s t : Shifter σ ρ K) : Prop where
  channels : s.channels = t.channels
  engine : s.engine = t.engine
  irb : s.irb = t.irb
  orb : s.orb = t.orb
  delayMix : s.delayMix = t.delayMix
  prevRatio : s.prevRatio = t.prevRatio
  formant : s.formant = t.formant

/-- The sizes of the buffers, which never change. -/
structure Caps (ch d : Nat) (s : Shifter σ ρ K) : Prop where
  channels : s.channels = ch
  delay : s.delay = d
  irb : ∀ c, (s.irb c).cap = bufferSize
  orb : ∀ c, (s.orb c).cap = bufferSize
  delayMix : ∀ c, (s.delayMix c).cap = bufferSize + d

theorem alike_settings [DecidableEq ρ] {p : Ports ρ K} {s t : Shifter σ ρ K} (h : Alike s t) : Alike (updateFormant E p (updateRatio E p s)) (updateFormant E p (updateRatio E p t)) := by
  obtain ⟨h1, h2, h3, h4, h5, h6, h7⟩ := h
  unfold updateFormant updateRatio
  cases p.formant <;> simp only [] <;> rw [h6] <;> by_cases hr : p.ratio ≠ t.prevRatio <;> simp only [hr, if_true, if_false, not_false_eq_true, ne_eq, h7] <;> (try split_ifs) <;>
    constructor <;> simp_all

theorem alike_shiftOnce (hE : ∀ e x c, E.blockSize ≤ ((E.shift e x).2 c).length) {s t : Shifter σ ρ K} (h : Alike s t) : Alike (shiftOnce E s) (shiftOnce E t) := by
  obtain ⟨h1, h2, h3, h4, h5, h6, h7⟩ := h
  have key : ∀ (e : σ) x c (l : List K), (overwrite 0 ((E.shift e x).2 c) l).take E.blockSize = ((E.shift e x).2 c).take E.blockSize := by
    intro e x c l
    unfold overwrite
    rw [List.take_zero, List.nil_append, List.take_append_of_le_length (hE e x c)]
  unfold shiftOnce
  simp only [key]
  constructor <;> simp only [h1, h2, h3, h4, h5, h6, h7]

theorem alike_shiftAll (hE : ∀ e x c, E.blockSize ≤ ((E.shift e x).2 c).length) : ∀ (k : Nat) {s t s' : Shifter σ ρ K}, Alike s t → shiftAll E k s = some s' → ∃ t', shiftAll E k t = some t' ∧ Alike s' t'
  | 0, s, t, s', h, e => by
    unfold shiftAll at e ⊢
    rw [h.irb] at e
    split at e
    · cases e
    · cases e
      rename_i hn
      exact ⟨t, by rw [if_neg hn], h⟩
  | k + 1, s, t, s', h, e => by
    unfold shiftAll at e ⊢
    rw [h.irb] at e
    split at e
    · rename_i hn
      rw [if_pos hn]
      exact alike_shiftAll hE k (alike_shiftOnce hE h) e
    · cases e
      rename_i hn
      exact ⟨t, by rw [if_neg hn], h⟩

theorem caps_shiftAll {ch d : Nat} : ∀ (k : Nat) {s s' : Shifter σ ρ K}, Caps ch d s → shiftAll E k s = some s' → Caps ch d s'
  | 0, s, s', h, e => by
    unfold shiftAll at e
    split at e
    · cases e
    · cases e
      exact h
  | k + 1, s, s', h, e => by
    unfold shiftAll at e
    split at e
    · exact caps_shiftAll k (s := shiftOnce E s) ⟨h.channels, h.delay, h.irb, h.orb, h.delayMix⟩ e
    · cases e
      exact h

variable [Field K] [LinearOrder K]

theorem alike_run [DecidableEq ρ] (hE : ∀ e x c, E.blockSize ≤ ((E.shift e x).2 c).length) {p : Ports ρ K} {n : Nat} {s t s' : Shifter σ ρ K} (h : Alike s t) {m m' : Mem K} (e : run E p n s m = some (s', m')) :
    ∃ t', run E p n t m = some (t', m') ∧ Alike s' t' := by
  unfold run at e ⊢
  have h' := alike_settings (E := E) (p := p) h
  generalize updateFormant E p (updateRatio E p s) = a at e h'
  generalize updateFormant E p (updateRatio E p t) = b at h' ⊢
  simp only at e ⊢
  obtain ⟨x, hx, e⟩ := Option.map_eq_some_iff.mp e
  have h'' : Alike { a with irb := fun c => (a.irb c).write ((m (p.ins c)).take n), delayMix := fun c => (a.delayMix c).write ((m (p.ins c)).take n) }
      { b with irb := fun c => (b.irb c).write ((m (p.ins c)).take n), delayMix := fun c => (b.delayMix c).write ((m (p.ins c)).take n) } := by
    obtain ⟨h1, h2, h3, h4, h5, h6, h7⟩ := h'
    constructor <;> simp only [h1, h2, h3, h4, h5, h6, h7]
  obtain ⟨y, hy, al⟩ := alike_shiftAll hE _ h'' hx
  rw [show (a.irb 0) = b.irb 0 by rw [h'.irb]] at hy
  rw [hy]
  cases e
  refine ⟨_, by rw [Option.map_some, al.orb, al.channels, al.delayMix], ?_⟩
  obtain ⟨h1, h2, h3, h4, h5, h6, h7⟩ := al
  constructor <;> simp only [h1, h2, h3, h4, h5, h6, h7]

theorem caps_run [DecidableEq ρ] {ch d : Nat} {p : Ports ρ K} {n : Nat} {s s' : Shifter σ ρ K} (h : Caps ch d s) {m m' : Mem K} (e : run E p n s m = some (s', m')) : Caps ch d s' := by
  unfold run at e
  have h' : Caps ch d (updateFormant E p (updateRatio E p s)) := by
    obtain ⟨h1, h2, h3, h4, h5⟩ := h
    unfold updateFormant updateRatio
    cases p.formant <;> simp only [] <;> split_ifs <;> exact ⟨h1, h2, h3, h4, h5⟩
  generalize updateFormant E p (updateRatio E p s) = a at e h'
  simp only at e
  obtain ⟨x, hx, e⟩ := Option.map_eq_some_iff.mp e
  have := caps_shiftAll (ch := ch) (d := d) (s := { a with irb := fun c => (a.irb c).write ((m (p.ins c)).take n), delayMix := fun c => (a.delayMix c).write ((m (p.ins c)).take n) }) _ ⟨h'.channels, h'.delay, h'.irb, h'.orb, h'.delayMix⟩ hx
  cases e
  exact ⟨this.channels, this.delay, this.irb, this.orb, this.delayMix⟩

theorem alike_runs [DecidableEq ρ] (hE : ∀ e x c, E.blockSize ≤ ((E.shift e x).2 c).length) : ∀ (cs : List (Call ρ K)) {s t s' : Shifter σ ρ K} {ms : List (Mem K)}, Alike s t → runs E s cs = some (s', ms) →
    ∃ t', runs E t cs = some (t', ms)
  | [], s, t, s', ms, _, e => by
    cases e
    exact ⟨t, rfl⟩
  | c :: cs, s, t, s', ms, h, e => by
    unfold runs at e ⊢
    obtain ⟨x, hx, e⟩ := Option.bind_eq_some_iff.mp e
    obtain ⟨y, hy, e⟩ := Option.map_eq_some_iff.mp e
    obtain ⟨u, hu, al⟩ := alike_run hE h hx
    obtain ⟨v, hv⟩ := alike_runs hE cs al hy
    rw [hu, Option.bind_some, hv]
    cases e
    exact ⟨v, rfl⟩

/-- What a host does with the plugin. -/
def history [DecidableEq ρ] (E : Engine σ ρ K) (s : Shifter σ ρ K) : List (Event ρ K) → Option (Shifter σ ρ K)
  | [] => some s
  | .run c :: es => (run E c.ports c.n s c.mem).bind fun x => history E x.1 es
  | .activate r :: es => history E (activate E r s) es

theorem history_caps [DecidableEq ρ] {ch d : Nat} : ∀ (es : List (Event ρ K)) {s s' : Shifter σ ρ K}, Caps ch d s → history E s es = some s' → Caps ch d s'
  | [], s, s', h, e => by
    cases e
    exact h
  | .run c :: es, s, s', h, e => by
    obtain ⟨x, hx, e⟩ := Option.bind_eq_some_iff.mp e
    exact history_caps es (caps_run h hx) e
  | .activate r :: es, s, s', h, e => history_caps es (s := activate E r s) ⟨h.channels, h.delay, h.irb, h.orb, h.delayMix⟩ e

/-- C101, the live plugin, if the shifter always fills a block. -/
theorem C101_live [DecidableEq ρ] (hE : ∀ e x c, E.blockSize ≤ ((E.shift e x).2 c).length) {ch : Nat} {e e' : σ} {one : ρ} {junk junk' : Nat → List K} {es es' : List (Event ρ K)} {s t : Shifter σ ρ K}
    (hs : history E (create E ch e one junk) es = some s) (ht : history E (create E ch e' one junk') es' = some t) (hd : E.startDelay e = E.startDelay e')
    (h1 : E.reset s.engine = E.reset t.engine) (h3 : s.formant = t.formant) (r : ρ) {cs : List (Call ρ K)} {s' : Shifter σ ρ K} {ms : List (Mem K)} (h : runs E (activate E r s) cs = some (s', ms)) :
    ∃ t', runs E (activate E r t) cs = some (t', ms) := by
  have cs' := history_caps (ch := ch) (d := E.startDelay e) es ⟨rfl, rfl, fun _ => rfl, fun _ => rfl, fun _ => rfl⟩ hs
  have ct := history_caps (ch := ch) (d := E.startDelay e) es' ⟨rfl, hd.symm, fun _ => rfl, fun _ => rfl, fun _ => by rw [hd]; rfl⟩ ht
  refine alike_runs hE cs ?_ h
  constructor
  · exact cs'.channels.trans ct.channels.symm
  · show E.setPitchScale (E.reset s.engine) r = E.setPitchScale (E.reset t.engine) r
    rw [h1]
  · funext c
    show ((s.irb c).reset).zero E.blockSize = ((t.irb c).reset).zero E.blockSize
    simp only [Q.reset, cs'.irb, ct.irb]
  · funext c
    show (s.orb c).reset = (t.orb c).reset
    simp only [Q.reset, cs'.orb, ct.orb]
  · funext c
    show ((s.delayMix c).reset).zero s.delay = ((t.delayMix c).reset).zero t.delay
    simp only [Q.reset, cs'.delayMix, ct.delayMix, cs'.delay, ct.delay]
  · rfl
  · exact h3

/-- The hypotheses of C101_live: two plugins, one of which has shifted some audio. -/
example : ∃ s, history (Ex.through 2 1) (create (Ex.through 2 1) 1 ([], []) 1 fun _ => [9, 9]) [.run Ex.call] = some s ∧ (s.orb 0).items = [3, 4] ∧ ∀ cs s' ms, runs (Ex.through 2 1) (activate (Ex.through 2 1) 2 s) cs = some (s', ms) →
    ∃ t', runs (Ex.through 2 1) (activate (Ex.through 2 1) 2 (create (Ex.through 2 1) 1 ([], []) 1 fun _ => [8, 8])) cs = some (t', ms) := by
  have h : (history (Ex.through 2 1) (create (Ex.through 2 1) 1 ([], []) 1 fun _ => [9, 9]) [.run Ex.call]).map (fun s => (s.formant, (s.orb 0).items)) = some (false, [3, 4]) := by decide +kernel
  obtain ⟨s, hs, e⟩ := Option.map_eq_some_iff.mp h
  simp only [Prod.mk.injEq] at e
  exact ⟨s, hs, e.2, fun cs s' ms hr => C101_live (by intro e x c; simp [Ex.through]) (es' := []) hs rfl rfl rfl e.1 2 hr⟩

end Verif.Plugin.Live
