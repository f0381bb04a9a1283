import Verif.PluginLemmas
import Mathlib.Algebra.Order.Field.Rat
import Mathlib.Data.Rat.Defs
/-!
# Properties of the pitch shifter plugins: C90, C91
-/
namespace Verif.Plugin

variable {σ ρ K : Type} [DecidableEq ρ] [Field K] [LinearOrder K] {E : Engine σ ρ K} {ch : Nat}

/-- What the host has to see to: no two output ports are connected to the same place, and there is room for the samples everywhere.  (Input ports may be connected to the same places as output ports.) -/
structure Call.Good (ch : Nat) (c : Call ρ K) : Prop where
  distinct : ∀ a, a < ch → ∀ b, b < ch → c.ports.outs a = c.ports.outs b → a = b
  ins : ∀ k, k < ch → c.n ≤ (c.mem (c.ports.ins k)).length
  outs : ∀ k, k < ch → c.n ≤ (c.mem (c.ports.outs k)).length

/-- What a call gives a channel. -/
def Call.input (c : Call ρ K) (k : Nat) : List K := (c.mem (c.ports.ins k)).take c.n

/-- What was given to a channel by some calls. -/
def inputs (cs : List (Call ρ K)) (k : Nat) : List K := (cs.map fun c => c.input k).flatten

/-- How many samples there were. -/
def total (cs : List (Call ρ K)) : Nat := (cs.map Call.n).sum

omit [DecidableEq ρ] [Field K] [LinearOrder K] in
theorem inputs_length : ∀ {cs : List (Call ρ K)}, (∀ c ∈ cs, c.Good ch) → ∀ {k : Nat}, k < ch → (inputs cs k).length = total cs
  | [], _, _, _ => rfl
  | c :: cs, h, k, hk => by
    have := inputs_length (cs := cs) (fun d hd => h d (List.mem_cons_of_mem _ hd)) hk
    have h1 := (h c (List.mem_cons_self ..)).ins k hk
    show (c.input k ++ inputs cs k).length = c.n + total cs
    rw [List.length_append, this]
    unfold Call.input
    rw [List.length_take]
    omega

/-! ## A call -/

/-- The delayed samples while a call is going on. -/
def held (s : Shifter σ ρ K) (c : Call ρ K) (k : Nat) : Q K := (s.delayMix k).write (c.input k)

theorem run_spec {z : Sizes} {fuel : Nat} {s s' : Shifter σ ρ K} {c : Call ρ K} {m' : Mem K} (hch : s.channels = ch) (hc : c.Good ch) (h : run E z fuel c.ports c.n s c.mem = some (s', m')) :
    ∃ wet, Block E ch c.ports 0 c.n c.mem { s with delayMix := held s c } c.mem { s' with delayMix := held s c } wet ∧ s'.channels = ch ∧ (∀ k, s'.delayMix k = (held s c k).skip c.n) ∧
      ∀ k, k < ch → m' (c.ports.outs k) = if c.ports.mix > 0 then mixed c.ports.mix c.n (held s c k).items (wet (c.ports.outs k)) else wet (c.ports.outs k) := by
  unfold run at h
  obtain ⟨⟨t, wet⟩, h1, h2⟩ := Option.map_eq_some_iff.mp h
  have b := blocks_spec (E := E) (ch := ch) (m₀ := c.mem) hc.distinct hc.outs (s := { s with delayMix := held s c }) hch (fun _ => ⟨rfl, rfl⟩) (Nat.zero_le _) h1
  rw [Nat.sub_zero] at b
  rw [Prod.mk.injEq] at h2
  obtain ⟨rfl, rfl⟩ := h2
  have hd : t.delayMix = held s c := b.delayMix
  have hc' : t.channels = ch := b.channels.trans hch
  refine ⟨wet, ?_, hc', ?_, ?_⟩
  · have : ({ ({ t with delayMix := fun k => (t.delayMix k).skip c.n } : Shifter σ ρ K) with delayMix := held s c } : Shifter σ ρ K) = t := by rw [← hd]
    rw [this]
    exact b
  · intro k
    show (t.delayMix k).skip _ = _
    rw [hd]
  · intro k hk
    show mixAll _ _ t.channels t.delayMix wet _ = _
    unfold mixAll
    rw [hc', hd]
    split
    · exact (fold_edit c.ports.outs (fun k => mixed c.ports.mix c.n (held s c k).items) wet ch hc.distinct).1 k hk
    · rfl

/-! ## C90 -/

/-- What comes out of a channel is what went in, `l` samples later. -/
def DelayedBy (l ch : Nat) (before : List (Call ρ K)) (c : Call ρ K) (m : Mem K) : Prop :=
  ∀ k, k < ch → (m (c.ports.outs k)).take c.n = ((List.replicate l 0 ++ inputs before k ++ c.input k).drop (total before)).take c.n

/-- **C90** in full: with the mix all dry, what comes out is what went in, as much later as the latency that is reported. -/
def C90_statement : Prop :=
  ∀ (σ ρ : Type) [DecidableEq ρ] (E : Engine σ ρ Rat) (fuel ch : Nat) (e : σ) (one : ρ) (before : List (Call ρ Rat)) (c : Call ρ Rat) (s s' : Shifter σ ρ Rat) (ms : List (Mem Rat)) (m : Mem Rat),
    (∀ d ∈ before, d.Good ch) → c.Good ch → runs E standard fuel (create E standard ch e one) before = some (s, ms) → run E standard fuel c.ports c.n s c.mem = some (s', m) → c.ports.mix = 1 →
    DelayedBy (latency standard) ch before c m

/-- The delayed samples between calls. -/
structure Delay (z : Sizes) (ch : Nat) (before : List (Call ρ K)) (s : Shifter σ ρ K) : Prop where
  channels : s.channels = ch
  cap : ∀ k, (s.delayMix k).cap = z.bufsize
  items : ∀ k, k < ch → (s.delayMix k).items = (List.replicate z.reserve 0 ++ inputs before k).drop (total before)

theorem delay_create {z : Sizes} (hz : z.reserve ≤ z.bufsize) (e : σ) (one : ρ) : Delay z ch [] (create E z ch e one) := by
  refine ⟨rfl, fun _ => rfl, fun k _ => ?_⟩
  simp [create, activate, Q.reset, Q.zero, Q.space, latency, inputs, total, Nat.min_eq_left hz]

theorem Delay.held {z : Sizes} {before : List (Call ρ K)} {s : Shifter σ ρ K} (h : Delay z ch before s) {c : Call ρ K} (hb : ∀ d ∈ before, d.Good ch) (hn : z.reserve + c.n ≤ z.bufsize)
    {k : Nat} (hk : k < ch) : (held s c k).items = (List.replicate z.reserve 0 ++ inputs before k ++ c.input k).drop (total before) ∧ (held s c k).cap = z.bufsize := by
  have hl := inputs_length hb hk
  refine ⟨?_, h.cap k⟩
  show (s.delayMix k).items ++ List.take (s.delayMix k).space _ = _
  have hsp : (c.input k).length ≤ (s.delayMix k).space := by
    unfold Q.space Call.input
    rw [h.cap, h.items k hk]
    simp only [List.length_drop, List.length_append, List.length_replicate, List.length_take, hl]
    omega
  rw [List.take_of_length_le hsp, h.items k hk, List.drop_append_of_le_length (l₁ := List.replicate z.reserve 0 ++ inputs before k) (by simp [hl])]

theorem Delay.run {z : Sizes} {fuel : Nat} {before : List (Call ρ K)} {s s' : Shifter σ ρ K} (h : Delay z ch before s) {c : Call ρ K} {m' : Mem K} (hb : ∀ d ∈ before, d.Good ch) (hc : c.Good ch)
    (hn : z.reserve + c.n ≤ z.bufsize) (hr : run E z fuel c.ports c.n s c.mem = some (s', m')) : Delay z ch (before ++ [c]) s' := by
  obtain ⟨wet, _, h2, h3, _⟩ := run_spec h.channels hc hr
  refine ⟨h2, fun k => by rw [h3]; exact h.cap k, fun k hk => ?_⟩
  rw [h3]
  show List.drop _ _ = _
  rw [(h.held hb hn hk).1, List.drop_drop]
  have e1 : inputs (before ++ [c]) k = inputs before k ++ c.input k := by unfold inputs; simp
  have e2 : total (before ++ [c]) = total before + c.n := by unfold total; simp
  rw [e1, e2, List.append_assoc]

theorem Delay.runs {z : Sizes} {fuel : Nat} : ∀ {cs before : List (Call ρ K)} {s s' : Shifter σ ρ K} {ms : List (Mem K)}, Delay z ch before s → (∀ d ∈ before, d.Good ch) → (∀ c ∈ cs, c.Good ch) →
    (∀ c ∈ cs, z.reserve + c.n ≤ z.bufsize) → runs E z fuel s cs = some (s', ms) → Delay z ch (before ++ cs) s'
  | [], before, s, s', ms, h, _, _, _, hr => by
    unfold Plugin.runs at hr
    cases hr
    rw [List.append_nil]
    exact h
  | c :: cs, before, s, s', ms, h, hb, hg, hn, hr => by
    unfold Plugin.runs at hr
    obtain ⟨⟨t, m⟩, r1, r2⟩ := Option.bind_eq_some_iff.mp hr
    obtain ⟨⟨u, us⟩, r3, r4⟩ := Option.map_eq_some_iff.mp r2
    cases r4
    have h1 := h.run hb (hg c (List.mem_cons_self ..)) (hn c (List.mem_cons_self ..)) r1
    have := Delay.runs (cs := cs) h1 (fun d hd => by
      rcases List.mem_append.mp hd with hd | hd
      · exact hb d hd
      · rw [List.mem_singleton] at hd; rw [hd]; exact hg c (List.mem_cons_self ..)) (fun d hd => hg d (List.mem_cons_of_mem _ hd)) (fun d hd => hn d (List.mem_cons_of_mem _ hd)) r3
    rwa [List.append_assoc] at this

omit [LinearOrder K] in
theorem mixed_getD (mix : K) (n : Nat) (dry l : List K) {i : Nat} (hi : i < n) : (mixed mix n dry l).getD i 0 = l.getD i 0 * (1 - mix) + dry.getD i 0 * mix := by
  unfold mixed
  rw [List.getD_append _ _ _ _ (by simpa using hi), List.getD_eq_getElem _ _ (by simpa using hi), List.getElem_map, List.getElem_range]

omit [LinearOrder K] in
theorem mixed_one {n : Nat} {dry l : List K} (h : n ≤ dry.length) : (mixed 1 n dry l).take n = dry.take n := by
  unfold mixed
  rw [List.take_append_of_le_length (by simp), List.take_of_length_le (by simp)]
  refine List.ext_getElem (by simp; omega) fun i h1 h2 => ?_
  rw [List.length_take] at h2
  simp only [List.getElem_map, List.getElem_range, List.getElem_take, sub_self, mul_zero, zero_add, mul_one]
  exact List.getD_eq_getElem _ _ (by omega)

/-- **C90 (partial).**  With any stretcher, for blocks of at most 9216 samples: with the mix all dry, what comes out is what went in, as much later as the latency that is reported; whatever the mixes were
before, whether the host uses the same memory for input and output or not.  (Larger blocks are missing: from them on, samples are lost.) -/
theorem C90_partial [IsStrictOrderedRing K] {fuel : Nat} {e : σ} {one : ρ} {before : List (Call ρ K)} {c : Call ρ K} {s s' : Shifter σ ρ K} {ms : List (Mem K)} {m : Mem K} (hb : ∀ d ∈ before, d.Good ch) (hc : c.Good ch)
    (hn : ∀ d ∈ before, d.n ≤ 9216) (hcn : c.n ≤ 9216) (hr : runs E standard fuel (create E standard ch e one) before = some (s, ms)) (hr' : run E standard fuel c.ports c.n s c.mem = some (s', m))
    (hmix : c.ports.mix = 1) : DelayedBy (latency standard) ch before c m := by
  have hd : Delay standard ch before s := by
    have := (delay_create (E := E) (ch := ch) (z := standard) (by decide) e one).runs (before := []) (by simp) hb (fun d hd => by have := hn d hd; show 8192 + d.n ≤ 17408; omega) hr
    exact this
  intro k hk
  obtain ⟨wet, _, _, _, h4⟩ := run_spec hd.channels hc hr'
  have hh := (hd.held (c := c) hb (by show 8192 + c.n ≤ 17408; omega) hk).1
  rw [h4 k hk, hmix, if_pos one_pos, mixed_one, hh]
  · rfl
  · rw [hh]
    have := inputs_length hb hk
    have h1 := hc.ins k hk
    unfold Call.input
    simp only [List.length_drop, List.length_append, List.length_replicate, List.length_take, this]
    omega

omit [Field K] [LinearOrder K] in
theorem feed_mix (m : Mem K) (p : Ports ρ K) (x : K) (off n : Nat) : ∀ (fuel processed : Nat) (s : Shifter σ ρ K), feed E m { p with mix := x } off n fuel processed s = feed E m p off n fuel processed s := by
  intro fuel
  induction fuel with
  | zero => intro _ _; rfl
  | succ fuel ih =>
    intro processed s
    unfold feed
    split
    · rw [ih]
      rfl
    · rfl

omit [Field K] [LinearOrder K] in
theorem blocks_mix (z : Sizes) (fuel : Nat) (p : Ports ρ K) (x : K) (n : Nat) : ∀ (k off : Nat) (s : Shifter σ ρ K) (m : Mem K),
    blocks E z fuel { p with mix := x } n k off s m = blocks E z fuel p n k off s m := by
  intro k
  induction k with
  | zero => intro _ _ _; rfl
  | succ k ih =>
    intro off s m
    unfold blocks
    split
    · have e : runBlock E fuel { p with mix := x } off (min z.blockSize (n - off)) s m = runBlock E fuel p off (min z.blockSize (n - off)) s m := by
        unfold runBlock
        rw [feed_mix]
        rfl
      rw [e]
      congr 1
      funext y
      exact ih _ _ _
    · rfl

/-- **C90 (partial)**, any mix: each sample is that which would come out all wet and that of the input as much earlier as the latency says, in these parts. -/
theorem C90_mix_partial {fuel : Nat} {e : σ} {one : ρ} {before : List (Call ρ K)} {c : Call ρ K} {s s' : Shifter σ ρ K} {ms : List (Mem K)} {m : Mem K} (hb : ∀ d ∈ before, d.Good ch) (hc : c.Good ch)
    (hn : ∀ d ∈ before, d.n ≤ 9216) (hcn : c.n ≤ 9216) (hr : runs E standard fuel (create E standard ch e one) before = some (s, ms)) (hr' : run E standard fuel c.ports c.n s c.mem = some (s', m))
    (hmix : 0 < c.ports.mix) : ∃ t w, run E standard fuel { c.ports with mix := 0 } c.n s c.mem = some (t, w) ∧ ∀ k, k < ch → ∀ i, i < c.n →
      (m (c.ports.outs k)).getD i 0 = (w (c.ports.outs k)).getD i 0 * (1 - c.ports.mix) +
        (List.replicate (latency standard) 0 ++ inputs before k ++ c.input k).getD (total before + i) 0 * c.ports.mix := by
  have hd : Delay standard ch before s := by
    have := (delay_create (E := E) (ch := ch) (z := standard) (by decide) e one).runs (before := []) (by simp) hb (fun d hd => by have := hn d hd; show 8192 + d.n ≤ 17408; omega) hr
    exact this
  unfold run at hr' ⊢
  rw [blocks_mix]
  simp only
  obtain ⟨⟨t, wet⟩, r1, r2⟩ := Option.map_eq_some_iff.mp hr'
  rw [r1]
  refine ⟨_, _, rfl, ?_⟩
  obtain ⟨-, rfl⟩ := Prod.mk.inj r2
  have b := blocks_spec (E := E) (ch := ch) (m₀ := c.mem) hc.distinct hc.outs (s := { s with delayMix := Plugin.held s c }) hd.channels (fun _ => ⟨rfl, rfl⟩) (Nat.zero_le _) r1
  have e1 : t.delayMix = Plugin.held s c := b.delayMix
  have e2 : t.channels = ch := b.channels.trans hd.channels
  intro k hk i hi
  have hh := (hd.held (c := c) hb (by show 8192 + c.n ≤ 17408; omega) hk).1
  simp only
  unfold mixAll
  rw [e1, e2, if_pos hmix, if_neg (lt_irrefl _), (fold_edit c.ports.outs (fun k => mixed c.ports.mix c.n (Plugin.held s c k).items) wet ch hc.distinct).1 k hk, mixed_getD _ _ _ _ hi, hh]
  congr 2
  rw [List.getD_eq_getElem?_getD, List.getD_eq_getElem?_getD, List.getElem?_drop]
  rfl

theorem feed_some (hE : ∀ s, 1 ≤ E.required s) (m : Mem K) (p : Ports ρ K) (off n : Nat) : ∀ (fuel processed : Nat) (s : Shifter σ ρ K), n ≤ fuel + processed → ∃ t, feed E m p off n fuel processed s = some t := by
  intro fuel
  induction fuel with
  | zero =>
    intro processed s h
    unfold feed
    rw [if_neg (by omega)]
    exact ⟨_, rfl⟩
  | succ fuel ih =>
    intro processed s h
    unfold feed
    split
    · have := hE s.engine
      exact ih _ _ (by omega)
    · exact ⟨_, rfl⟩

/-- With a stretcher that always requires some samples, no call hangs. -/
theorem run_some (hE : ∀ s, 1 ≤ E.required s) {z : Sizes} (hz : 1 ≤ z.blockSize) {fuel : Nat} (p : Ports ρ K) {n : Nat} (hf : n ≤ fuel) (s : Shifter σ ρ K) (m : Mem K) :
    ∃ x, run E z fuel p n s m = some x := by
  have key : ∀ (k off : Nat) (s : Shifter σ ρ K) (m : Mem K), n ≤ k + off → ∃ x, blocks E z fuel p n k off s m = some x := by
    intro k
    induction k with
    | zero =>
      intro off s m h
      unfold blocks
      rw [if_neg (by omega)]
      exact ⟨_, rfl⟩
    | succ k ih =>
      intro off s m h
      unfold blocks
      split
      · obtain ⟨t, ht⟩ := feed_some hE m p off (min z.blockSize (n - off)) fuel 0 (updateFormant E p (updateCrispness E p (updateRatio E p s))) (by omega)
        unfold runBlock
        rw [ht]
        exact ih _ _ _ (by omega)
      · exact ⟨_, rfl⟩
  obtain ⟨x, hx⟩ := key n 0 { s with delayMix := fun c => (s.delayMix c).write ((m (p.ins c)).take n) } m (by omega)
  unfold run
  rw [hx]
  exact ⟨_, rfl⟩

/-- For examples: a stretcher that gives back what it was given, and one that never gives anything. -/
def Ex.through : Engine (List Rat × List Rat × List Rat) Nat Rat where
  required := fun _ => 3
  process := fun s x => (s.1 ++ x 0, s.2.1, s.2.2 ++ x 0)
  available := fun s => s.1.length
  retrieve := fun s n => ((s.1.drop n, s.2.1 ++ s.1.take n, s.2.2), (s.1.take n).length, fun _ => s.1.take n)
  reset := fun _ => ([], [], [])
  setPitchScale := fun s _ => s
  setCrispness := fun s _ => s
  setFormant := fun s _ => s

def Ex.idle : Engine Unit Unit Rat where
  required := fun _ => 1000
  process := fun s _ => s
  available := fun _ => 0
  retrieve := fun s _ => (s, 0, fun _ => [])
  reset := fun s => s
  setPitchScale := fun s _ => s
  setCrispness := fun s _ => s
  setFormant := fun s _ => s

/-- For examples: from place 0 to place 1. -/
def Ex.ports (mix : Rat) (r : ρ) : Ports ρ Rat := ⟨fun c => 2 * c, fun c => 2 * c + 1, r, none, none, mix⟩

/-- A call with samples of which only the last is not 0. -/
def Ex.long (a : Nat) : Call Unit Rat := ⟨Ex.ports 1 (), a + 1, fun _ => List.replicate a 0 ++ [1]⟩

/-- A call with silence. -/
def Ex.silence (b : Nat) : Call Unit Rat := ⟨Ex.ports 1 (), b, fun _ => List.replicate b 0⟩

theorem Ex.long_good (a : Nat) : (Ex.long a).Good 1 := ⟨fun a ha b hb _ => by omega, fun _ _ => by simp [Ex.long], fun _ _ => by simp [Ex.long]⟩

theorem Ex.silence_good (b : Nat) : (Ex.silence b).Good 1 := ⟨fun a ha b hb _ => by omega, fun _ _ => by simp [Ex.silence], fun _ _ => by simp [Ex.silence]⟩

theorem Ex.lost (z : Sizes) {a b : Nat} (hz : 1 ≤ z.blockSize) (hb : 1 ≤ b) (h1 : z.reserve = b) (h2 : z.bufsize = a + b) (hab : b ≤ a) : ∃ s ms s' m,
    runs Ex.idle z (a + 1) (create Ex.idle z 1 () ()) [Ex.long a] = some (s, ms) ∧ run Ex.idle z (a + 1) (Ex.silence b).ports b s (Ex.silence b).mem = some (s', m) ∧
      ¬ DelayedBy (latency z) 1 [Ex.long a] (Ex.silence b) m := by
  have hE : ∀ s, 1 ≤ Ex.idle.required s := fun _ => show 1 ≤ 1000 by decide
  have g1 := Ex.long_good a
  have g2 := Ex.silence_good b
  obtain ⟨⟨s, m⟩, r1⟩ := run_some hE hz (Ex.long a).ports (le_refl (a + 1)) (create Ex.idle z 1 () ()) (Ex.long a).mem
  obtain ⟨⟨s', m'⟩, r2⟩ := run_some hE hz (Ex.silence b).ports (n := b) (fuel := a + 1) (by omega) s (Ex.silence b).mem
  have r1' : runs Ex.idle z (a + 1) (create Ex.idle z 1 () ()) [Ex.long a] = some (s, [m]) := by
    unfold runs
    rw [show run Ex.idle z (a + 1) (Ex.long a).ports (Ex.long a).n _ (Ex.long a).mem = _ from r1]
    rfl
  refine ⟨s, [m], s', m', r1', r2, fun hd => ?_⟩
  have hd := hd 0 (by decide)
  have hd0 := delay_create (E := Ex.idle) (ch := 1) (z := z) (by omega) () ()
  have i0 : ((create Ex.idle z 1 () ()).delayMix 0).items = List.replicate b 0 := by
    rw [hd0.items 0 (by decide), show inputs ([] : List (Call Unit Rat)) 0 = [] from rfl, List.append_nil, show total ([] : List (Call Unit Rat)) = 0 from rfl, List.drop_zero, h1]
  obtain ⟨_, _, c1, q1, _⟩ := run_spec (c := Ex.long a) (ch := 1) rfl g1 r1
  obtain ⟨wet, _, _, _, o2⟩ := run_spec (c := Ex.silence b) (ch := 1) c1 g2 r2
  have hi : (Ex.long a).input 0 = List.replicate a 0 ++ [1] := by
    show (List.replicate a (0 : Rat) ++ [1]).take (a + 1) = _
    rw [List.take_of_length_le (by simp)]
  have z0 : ∀ x ∈ (held (create Ex.idle z 1 () ()) (Ex.long a) 0).items, x = 0 := by
    intro x hx
    rcases List.mem_append.mp hx with hx | hx
    · rw [i0] at hx
      exact List.eq_of_mem_replicate hx
    · have hs : ((create Ex.idle z 1 () ()).delayMix 0).space = a := by
        unfold Q.space
        rw [i0, hd0.cap, List.length_replicate]
        omega
      rw [hs, hi, List.take_append_of_le_length (by simp), List.take_of_length_le (by simp)] at hx
      exact List.eq_of_mem_replicate hx
  have z1 : ∀ x ∈ (held s (Ex.silence b) 0).items, x = 0 := by
    intro x hx
    rcases List.mem_append.mp hx with hx | hx
    · rw [q1 0] at hx
      exact z0 x (List.mem_of_mem_drop hx)
    · have := List.mem_of_mem_take (List.mem_of_mem_take hx)
      exact List.eq_of_mem_replicate this
  have hout : ∀ x ∈ (m' ((Ex.silence b).ports.outs 0)).take (Ex.silence b).n, x = 0 := by
    rw [o2 0 (by decide)]
    intro x hx
    rw [if_pos (show (Ex.silence b).ports.mix > 0 from (by norm_num : (1 : Rat) > 0))] at hx
    unfold mixed at hx
    rw [List.take_append_of_le_length (by simp), List.take_of_length_le (by simp)] at hx
    obtain ⟨i, _, rfl⟩ := List.mem_map.mp hx
    have e : (held s (Ex.silence b) 0).items.getD i 0 = 0 := by
      by_cases hi : i < (held s (Ex.silence b) 0).items.length
      · rw [List.getD_eq_getElem _ _ hi]
        exact z1 _ (List.getElem_mem hi)
      · exact List.getD_eq_default _ _ (by omega)
    rw [e]
    show _ * (1 - (1 : Rat)) + _ = _
    simp
  have hone : (1 : Rat) ∈ ((List.replicate (latency z) (0 : Rat) ++ inputs [Ex.long a] 0 ++ (Ex.silence b).input 0).drop (total [Ex.long a])).take (Ex.silence b).n := by
    have e1 : inputs [Ex.long a] 0 = List.replicate a 0 ++ [1] := by
      show (Ex.long a).input 0 ++ [] = _
      rw [hi, List.append_nil]
    have e0 : latency z = b := h1
    rw [e1, e0, ← List.append_assoc, List.append_assoc (_ ++ _), show total [Ex.long a] = a + 1 from rfl, List.drop_append_of_le_length (by simp; omega),
      List.take_append, List.mem_append]
    right
    have e2 : (Ex.silence b).n - ((List.replicate b (0 : Rat) ++ List.replicate a 0).drop (a + 1)).length = 1 := by
      show b - _ = 1
      simp
      omega
    rw [e2]
    simp
  rw [← hd] at hone
  exact absurd (hout 1 hone) (by norm_num)

theorem C90_violated : ¬ C90_statement := by
  intro h
  obtain ⟨s, ms, s', m, r1, r2, r3⟩ := Ex.lost standard (a := 9216) (b := 8192) (by decide) (by decide) rfl rfl (by decide)
  exact r3 (h Unit Unit Ex.idle (9216 + 1) 1 () () [Ex.long 9216] (Ex.silence 8192) s s' ms m (by intro d hd; rw [List.mem_singleton] at hd; rw [hd]; exact Ex.long_good _) (Ex.silence_good _) r1 r2 rfl)

/-- Of 5 samples at a time with a latency of 4 in place of 8192. -/
example : ((runs Ex.through ⟨3, 4, 20⟩ 9 (create Ex.through ⟨3, 4, 20⟩ 1 ([], [], []) 1) [⟨Ex.ports 1 1, 5, fun _ => [1, 2, 3, 4, 5]⟩, ⟨Ex.ports 0 1, 2, fun _ => [6, 7]⟩, ⟨Ex.ports 1 1, 3, fun _ => [8, 9, 10]⟩]).map
    fun x => x.2.map fun m => m 1) = some [[0, 0, 0, 0, 1], [2, 3], [4, 5, 6]] := by decide +kernel

/-- The hypotheses of C90_partial. -/
example (b : Nat) (hb : b ≤ 9216) : ∃ s ms s' m, runs Ex.idle standard 9216 (create Ex.idle standard 1 () ()) [Ex.silence b] = some (s, ms) ∧
    run Ex.idle standard 9216 (Ex.silence b).ports (Ex.silence b).n s (Ex.silence b).mem = some (s', m) ∧ (Ex.silence b).Good 1 ∧ (Ex.silence b).n ≤ 9216 ∧ (Ex.silence b).ports.mix = 1 := by
  have hE : ∀ s, 1 ≤ Ex.idle.required s := fun _ => show 1 ≤ 1000 by decide
  obtain ⟨⟨s, m⟩, r1⟩ := run_some hE (z := standard) (by decide) (Ex.silence b).ports (n := b) hb (create Ex.idle standard 1 () ()) (Ex.silence b).mem
  obtain ⟨⟨s', m'⟩, r2⟩ := run_some hE (z := standard) (by decide) (Ex.silence b).ports (n := b) hb s (Ex.silence b).mem
  refine ⟨s, [m], s', m', ?_, r2, Ex.silence_good b, hb, rfl⟩
  unfold runs
  rw [show run Ex.idle standard 9216 (Ex.silence b).ports (Ex.silence b).n _ (Ex.silence b).mem = _ from r1]
  rfl

/-! ## C91 -/

theorem Wet.run {T : Traced E ch} {z : Sizes} {fuel : Nat} {s s' : Shifter σ ρ K} {c : Call ρ K} {m' : Mem K} {X W : Nat → List K} (hw : Wet T s X W) (hch : s.channels = ch) (hc : c.Good ch)
    (h : run E z fuel c.ports c.n s c.mem = some (s', m')) :
    s'.channels = ch ∧ s.underruns ≤ s'.underruns ∧ ∃ W', Wet T s' (fun k => X k ++ c.input k) W' ∧
      (s'.underruns = s.underruns → c.ports.mix ≤ 0 → ∀ k, k < ch → W' k = W k ++ (m' (c.ports.outs k)).take c.n) := by
  obtain ⟨wet, b, h2, _, h4⟩ := run_spec hch hc h
  obtain ⟨W', w1, w2⟩ := b.wet T X W ⟨hw.pos, hw.fed, hw.out, hw.same⟩
  refine ⟨h2, b.underruns, W', ⟨w1.pos, ?_, w1.out, w1.same⟩, ?_⟩
  · intro k hk
    have := w1.fed k hk
    rw [show chunk c.mem c.ports 0 c.n k = c.input k from rfl] at this
    exact this
  · intro hu hm k hk
    rw [w2 hu k hk, h4 k hk, if_neg (not_lt.mpr hm), List.drop_zero]

/-- What came out of a channel. -/
def outputs (cs : List (Call ρ K)) (ms : List (Mem K)) (k : Nat) : List K := (List.zipWith (fun (c : Call ρ K) (m : Mem K) => (m (c.ports.outs k)).take c.n) cs ms).flatten

theorem Wet.runs {T : Traced E ch} {z : Sizes} {fuel : Nat} : ∀ {cs : List (Call ρ K)} {s s' : Shifter σ ρ K} {ms : List (Mem K)} {X W : Nat → List K}, Wet T s X W → s.channels = ch →
    (∀ c ∈ cs, c.Good ch) → runs E z fuel s cs = some (s', ms) → s.underruns ≤ s'.underruns ∧ ∃ W', Wet T s' (fun k => X k ++ inputs cs k) W' ∧
      (s'.underruns = s.underruns → (∀ c ∈ cs, c.ports.mix ≤ 0) → ∀ k, k < ch → W' k = W k ++ outputs cs ms k)
  | [], s, s', ms, X, W, hw, _, _, hr => by
    unfold Plugin.runs at hr
    cases hr
    refine ⟨le_rfl, W, ⟨hw.pos, ?_, hw.out, hw.same⟩, ?_⟩
    · intro k hk
      show _ = X k ++ []
      rw [List.append_nil]
      exact hw.fed k hk
    · intro _ _ k _
      show _ = W k ++ []
      rw [List.append_nil]
  | c :: cs, s, s', ms, X, W, hw, hch, hg, hr => by
    unfold Plugin.runs at hr
    obtain ⟨⟨t, m⟩, r1, r2⟩ := Option.bind_eq_some_iff.mp hr
    obtain ⟨⟨u, us⟩, r3, r4⟩ := Option.map_eq_some_iff.mp r2
    obtain ⟨rfl, rfl⟩ := Prod.mk.inj r4
    obtain ⟨a1, a2, W1, a3, a4⟩ := hw.run hch (hg c (List.mem_cons_self ..)) r1
    obtain ⟨b1, W2, b2, b3⟩ := a3.runs a1 (fun d hd => hg d (List.mem_cons_of_mem _ hd)) r3
    refine ⟨a2.trans b1, W2, ⟨b2.pos, ?_, b2.out, b2.same⟩, ?_⟩
    · intro k hk
      rw [b2.fed k hk, List.append_assoc]
      rfl
    · intro hu hm k hk
      simp only at hu
      rw [b3 (by omega) (fun d hd => hm d (List.mem_cons_of_mem _ hd)) k hk, a4 (by omega) (hm c (List.mem_cons_self ..)) k hk, List.append_assoc]
      rfl

/-- **C91.**  The stretcher is given silence of the length of the reported latency and then all that the host gives, in order, on every channel.  While no underrun is reported and the mix is all wet,
what the host gets is what the stretcher gives, in order, from its first sample on: nothing is lost, repeated or left out on any channel, for any block sizes, and whether or not the host uses the same
memory for input and output. -/
theorem C91_wet (T : Traced E ch) (hch : 0 < ch) {z : Sizes} {fuel : Nat} {e : σ} {one : ρ} {cs : List (Call ρ K)} (hcs : ∀ c ∈ cs, c.Good ch) {s : Shifter σ ρ K} {ms : List (Mem K)}
    (h : runs E z fuel (create E z ch e one) cs = some (s, ms)) :
    (∀ k, k < ch → T.fed s.engine k = List.replicate (latency z) 0 ++ inputs cs k) ∧
      (s.underruns = 0 → (∀ c ∈ cs, c.ports.mix ≤ 0) → ∀ k, k < ch → ∃ rest, T.out s.engine k = outputs cs ms k ++ rest) := by
  have h0 : Wet T (create E z ch e one) (fun _ => List.replicate (latency z) 0) (fun _ => []) := by
    refine ⟨hch, ?_, ?_, fun _ _ => ⟨rfl, rfl⟩⟩
    · intro k hk
      show T.fed (E.process (E.setPitchScale (E.reset e) one) _) k = _
      rw [T.fed_process _ _ _ hk, T.fed_pitch _ _ _ hk, T.fed_reset _ _ hk]
      rfl
    · intro k hk
      show T.out (E.process (E.setPitchScale (E.reset e) one) _) k = _
      rw [T.out_process _ _ _ hk, T.out_pitch _ _ _ hk, T.out_reset _ _ hk]
      rfl
  obtain ⟨_, W, w1, w2⟩ := h0.runs rfl hcs h
  refine ⟨w1.fed, fun hu hm k hk => ⟨(s.outputBuffer k).items, ?_⟩⟩
  rw [w1.out k hk, w2 (by rw [hu]; rfl) hm k hk]
  rfl

/-- The history of the example. -/
def Ex.traced : Traced Ex.through 1 where
  fed := fun s _ => s.2.2
  out := fun s _ => s.2.1
  fed_process := fun s x c hc => by rw [show c = 0 by omega]; rfl
  out_process := fun _ _ _ _ => rfl
  fed_retrieve := fun _ _ _ _ => rfl
  out_retrieve := fun _ _ _ _ => rfl
  length := fun _ _ _ _ => rfl
  atMost := fun s n => List.length_take_le n s.1
  fed_reset := fun _ _ _ => rfl
  out_reset := fun _ _ _ => rfl
  fed_pitch := fun _ _ _ _ => rfl
  out_pitch := fun _ _ _ _ => rfl
  fed_crispness := fun _ _ _ _ => rfl
  out_crispness := fun _ _ _ _ => rfl
  fed_formant := fun _ _ _ _ => rfl
  out_formant := fun _ _ _ _ => rfl

/-- With the same memory for input and output. -/
example : ((runs Ex.through ⟨3, 4, 20⟩ 9 (create Ex.through ⟨3, 4, 20⟩ 1 ([], [], []) 1) [⟨⟨fun _ => 0, fun _ => 0, 1, none, some true, 0⟩, 5, fun _ => [1, 2, 3, 4, 5]⟩, ⟨Ex.ports 0 2, 2, fun _ => [6, 7]⟩]).map
    fun x => (x.1.underruns, x.2.map fun m => (m 0, m 1))) = some (0, [([0, 0, 0, 0, 1], [1, 2, 3, 4, 5]), ([6, 7], [2, 3])]) := by decide +kernel

end Verif.Plugin
