import Verif.PluginLive
/-!
# Properties of the live pitch shifter plugin: C92, C93
-/
namespace Verif.Plugin.Live
open Verif.Plugin

variable {σ ρ K : Type} [DecidableEq ρ] [Field K] [LinearOrder K] {E : Engine σ ρ K} {ch : Nat}

/-- History of a live shifter: what it was given and what it gave since it was reset.  It gives each channel a block for a block. -/
structure Traced (E : Engine σ ρ K) (channels : Nat) where
  fed : σ → Nat → List K
  out : σ → Nat → List K
  fed_shift : ∀ s x c, c < channels → fed (E.shift s x).1 c = fed s c ++ x c
  out_shift : ∀ s x c, c < channels → out (E.shift s x).1 c = out s c ++ (E.shift s x).2 c
  length : ∀ s x c, c < channels → ((E.shift s x).2 c).length = E.blockSize
  fed_reset : ∀ s c, c < channels → fed (E.reset s) c = []
  out_reset : ∀ s c, c < channels → out (E.reset s) c = []
  fed_pitch : ∀ s r c, c < channels → fed (E.setPitchScale s r) c = fed s c
  out_pitch : ∀ s r c, c < channels → out (E.setPitchScale s r) c = out s c
  fed_formant : ∀ s r c, c < channels → fed (E.setFormant s r) c = fed s c
  out_formant : ∀ s r c, c < channels → out (E.setFormant s r) c = out s c

/-- The settings at the beginning of a call. -/
def settings (E : Engine σ ρ K) (p : Ports ρ K) (s : Shifter σ ρ K) : Shifter σ ρ K := updateFormant E p (updateRatio E p s)

theorem settings_kept (E : Engine σ ρ K) (p : Ports ρ K) (s : Shifter σ ρ K) :
    (settings E p s).channels = s.channels ∧ (settings E p s).irb = s.irb ∧ (settings E p s).orb = s.orb ∧ (settings E p s).delayMix = s.delayMix ∧ (settings E p s).delay = s.delay := by
  unfold settings updateFormant updateRatio
  split <;> (try split) <;> (try split) <;> exact ⟨rfl, rfl, rfl, rfl, rfl⟩

theorem settings_fed (T : Traced E ch) (p : Ports ρ K) (s : Shifter σ ρ K) : ∀ c, c < ch →
    T.fed (settings E p s).engine c = T.fed s.engine c ∧ T.out (settings E p s).engine c = T.out s.engine c := by
  intro c hc
  have k1 : T.fed (updateRatio E p s).engine c = T.fed s.engine c ∧ T.out (updateRatio E p s).engine c = T.out s.engine c := by
    unfold updateRatio
    split
    · exact ⟨T.fed_pitch _ _ _ hc, T.out_pitch _ _ _ hc⟩
    · exact ⟨rfl, rfl⟩
  have k3 : ∀ s, T.fed (updateFormant E p s).engine c = T.fed s.engine c ∧ T.out (updateFormant E p s).engine c = T.out s.engine c := by
    intro s
    unfold updateFormant
    split
    · exact ⟨rfl, rfl⟩
    · split
      · exact ⟨rfl, rfl⟩
      · exact ⟨T.fed_formant _ _ _ hc, T.out_formant _ _ _ hc⟩
  exact ⟨(k3 _).1.trans k1.1, (k3 _).2.trans k1.2⟩

/-- The shifter was given all of `X` but what is in the input buffers, and of what it gave all has gone but what is in the output buffers. -/
structure Wet (T : Traced E ch) (s : Shifter σ ρ K) (X W : Nat → List K) (n : Nat) : Prop where
  pos : 0 < ch
  fed : ∀ c, c < ch → T.fed s.engine c ++ (s.irb c).items = X c
  out : ∀ c, c < ch → T.out s.engine c = W c ++ (s.orb c).items
  icap : ∀ c, c < ch → (s.irb c).cap = bufferSize ∧ (s.orb c).cap = bufferSize
  same : ∀ c, c < ch → (s.irb c).items.length = (s.irb 0).items.length
  sum : ∀ c, c < ch → (s.irb c).items.length + (s.orb c).items.length = n

theorem Wet.shiftOnce {T : Traced E ch} {s : Shifter σ ρ K} {X W : Nat → List K} {n : Nat} (h : Wet T s X W n) (hn : n ≤ bufferSize) (hi : E.blockSize ≤ (s.irb 0).items.length) :
    Wet T (shiftOnce E s) X W n := by
  have ho : ∀ c, c < ch → ((Live.shiftOnce E s).orb c).items = (s.orb c).items ++ (E.shift s.engine fun c => (s.irb c).items.take E.blockSize).2 c := by
    intro c hc
    have hl := T.length s.engine (fun c => (s.irb c).items.take E.blockSize) c hc
    show (s.orb c).items ++ List.take _ (List.take _ (overwrite 0 _ _)) = _
    unfold overwrite
    rw [List.take_zero, List.nil_append, List.take_append_of_le_length (by omega), List.take_of_length_le (l := (E.shift _ _).2 c) (by omega), List.take_of_length_le]
    rw [hl]
    unfold Q.space
    rw [(h.icap c hc).2]
    have h1 := h.sum c hc
    have h2 := h.same c hc
    omega
  refine ⟨h.pos, ?_, ?_, h.icap, ?_, ?_⟩
  · intro c hc
    show T.fed (E.shift _ _).1 c ++ List.drop _ _ = _
    rw [T.fed_shift _ _ _ hc, List.append_assoc, List.take_append_drop, h.fed c hc]
  · intro c hc
    rw [ho c hc]
    show T.out (E.shift _ _).1 c = _
    rw [T.out_shift _ _ _ hc, h.out c hc, List.append_assoc]
  · intro c hc
    show (List.drop _ _).length = (List.drop _ _).length
    rw [List.length_drop, List.length_drop, h.same c hc]
  · intro c hc
    rw [ho c hc]
    show (List.drop _ _).length + _ = _
    rw [List.length_drop, List.length_append, T.length _ _ _ hc]
    have h1 := h.sum c hc
    have h2 := h.same c hc
    omega

/-- What shifting leaves alone. -/
theorem shiftAll_kept : ∀ {k : Nat} {s s' : Shifter σ ρ K}, shiftAll E k s = some s' → s'.channels = s.channels ∧ s'.delayMix = s.delayMix ∧ s'.delay = s.delay := by
  intro k
  induction k with
  | zero =>
    intro s s' h
    unfold shiftAll at h
    split at h
    · cases h
    · cases h; exact ⟨rfl, rfl, rfl⟩
  | succ k ih =>
    intro s s' h
    unfold shiftAll at h
    split at h
    · exact ih (s := shiftOnce E s) h
    · cases h; exact ⟨rfl, rfl, rfl⟩

theorem Wet.shiftAll {T : Traced E ch} : ∀ {k : Nat} {s s' : Shifter σ ρ K} {X W : Nat → List K} {n : Nat}, Wet T s X W n → n ≤ bufferSize → shiftAll E k s = some s' →
    Wet T s' X W n ∧ (s'.irb 0).items.length < E.blockSize := by
  intro k
  induction k with
  | zero =>
    intro s s' X W n h hn hs
    unfold Live.shiftAll at hs
    split at hs
    · cases hs
    · cases hs; exact ⟨h, by omega⟩
  | succ k ih =>
    intro s s' X W n h hn hs
    unfold Live.shiftAll at hs
    split at hs
    · rename_i hi
      exact ih (h.shiftOnce hn hi) hn hs
    · cases hs; exact ⟨h, by omega⟩

/-- The loop ends. -/
theorem shiftAll_some (hE : 1 ≤ E.blockSize) : ∀ (k : Nat) (s : Shifter σ ρ K), (s.irb 0).items.length < k → ∃ s', shiftAll E k s = some s' := by
  intro k
  induction k with
  | zero => intro s h; omega
  | succ k ih =>
    intro s h
    unfold shiftAll
    split
    · rename_i hi
      refine ih _ ?_
      show (List.drop _ _).length < k
      rw [List.length_drop]
      omega
    · exact ⟨_, rfl⟩

/-- The delayed samples while a call is going on. -/
def held (s : Shifter σ ρ K) (c : Call ρ K) (k : Nat) : Q K := (s.delayMix k).write (c.input k)

theorem run_spec {s s' : Shifter σ ρ K} {c : Call ρ K} {m' : Mem K} (hch : s.channels = ch) (hc : c.Good ch) (h : run E c.ports c.n s c.mem = some (s', m')) :
    s'.channels = ch ∧ s'.delay = s.delay ∧ (∀ k, s'.delayMix k = (held s c k).skip c.n) ∧
      (∃ q : Nat → Q K, ∀ k, k < ch → m' (c.ports.outs k) = if c.ports.mix > 0 then mixed c.ports.mix c.n (held s c k).items (overwrite 0 ((q k).items.take c.n) (c.mem (c.ports.outs k)))
        else overwrite 0 ((q k).items.take c.n) (c.mem (c.ports.outs k))) ∧
      ∀ (T : Traced E ch) X W n, Wet T s X W n → n + c.n ≤ bufferSize → E.blockSize ≤ n → ∃ W', Wet T s' (fun k => X k ++ c.input k) W' n ∧ (s'.irb 0).items.length < E.blockSize ∧
        (c.ports.mix ≤ 0 → ∀ k, k < ch → W' k = W k ++ (m' (c.ports.outs k)).take c.n ∧ ((m' (c.ports.outs k)).take c.n).length = c.n) := by
  unfold run at h
  simp only at h
  obtain ⟨t, ht, h2⟩ := Option.map_eq_some_iff.mp h
  obtain ⟨k1, k2, k3, k4, k5⟩ := settings_kept E c.ports s
  unfold settings at k1 k2 k3 k4 k5
  obtain ⟨a1, a2, a3⟩ := shiftAll_kept ht
  simp only at a1 a2 a3
  have hd : t.delayMix = held s c := by
    rw [a2]
    funext k
    rw [k4]
    rfl
  have hc' : t.channels = ch := a1.trans (k1.trans hch)
  obtain ⟨rfl, rfl⟩ := Prod.mk.inj h2
  have hm : ∀ k, k < ch → mixAll c.ports c.n t.channels t.delayMix ((List.range t.channels).foldl (fun m k => edit m (c.ports.outs k) (overwrite 0 ((t.orb k).items.take c.n))) c.mem) (c.ports.outs k) =
      if c.ports.mix > 0 then mixed c.ports.mix c.n (held s c k).items (overwrite 0 ((t.orb k).items.take c.n) (c.mem (c.ports.outs k)))
        else overwrite 0 ((t.orb k).items.take c.n) (c.mem (c.ports.outs k)) := by
    intro k hk
    unfold mixAll
    rw [hc', hd]
    split
    · rw [(fold_edit c.ports.outs (fun k => mixed c.ports.mix c.n (held s c k).items) _ ch hc.distinct).1 k hk,
        (fold_edit c.ports.outs (fun k => overwrite 0 ((t.orb k).items.take c.n)) _ ch hc.distinct).1 k hk]
    · rw [(fold_edit c.ports.outs (fun k => overwrite 0 ((t.orb k).items.take c.n)) _ ch hc.distinct).1 k hk]
  refine ⟨hc', a3.trans k5, fun k => by show (t.delayMix k).skip _ = _; rw [hd], ⟨t.orb, hm⟩, ?_⟩
  intro T X W n hw hn hB
  have hlen : ∀ k, k < ch → (c.input k).length = c.n := fun k hk => by
    have := hc.ins k hk
    unfold Call.input
    rw [List.length_take]
    omega
  have hfit : ∀ k, k < ch → ((s.irb k).write (c.input k)).items = (s.irb k).items ++ c.input k := by
    intro k hk
    show _ ++ List.take _ _ = _
    rw [List.take_of_length_le]
    unfold Q.space
    rw [hlen k hk, (hw.icap k hk).1]
    have := hw.sum k hk
    omega
  have hw1 : Wet T { updateFormant E c.ports (updateRatio E c.ports s) with
      irb := fun k => ((updateFormant E c.ports (updateRatio E c.ports s)).irb k).write (c.input k)
      delayMix := fun k => ((updateFormant E c.ports (updateRatio E c.ports s)).delayMix k).write (c.input k) } (fun k => X k ++ c.input k) W (n + c.n) := by
    have hs := settings_fed T c.ports s
    unfold settings at hs
    refine ⟨hw.pos, ?_, ?_, ?_, ?_, ?_⟩
    · intro k hk
      show T.fed (updateFormant E c.ports (updateRatio E c.ports s)).engine k ++ ((_ : Q K).write _).items = _
      rw [(hs k hk).1, k2, hfit k hk, ← List.append_assoc, hw.fed k hk]
    · intro k hk
      show T.out (updateFormant E c.ports (updateRatio E c.ports s)).engine k = _ ++ ((updateFormant E c.ports (updateRatio E c.ports s)).orb k).items
      rw [(hs k hk).2, k3, hw.out k hk]
    · intro k hk
      show ((updateFormant E c.ports (updateRatio E c.ports s)).irb k).cap = _ ∧ ((updateFormant E c.ports (updateRatio E c.ports s)).orb k).cap = _
      rw [k2, k3]
      exact hw.icap k hk
    · intro k hk
      simp only
      rw [k2, hfit k hk, hfit 0 hw.pos, List.length_append, List.length_append, hlen k hk, hlen 0 hw.pos, hw.same k hk]
    · intro k hk
      simp only
      rw [k2, k3, hfit k hk, List.length_append, hlen k hk]
      have := hw.sum k hk
      omega
  obtain ⟨hw2, hlt⟩ := hw1.shiftAll hn ht
  have henough : ∀ k, k < ch → c.n ≤ (t.orb k).items.length := by
    intro k hk
    have h1 := hw2.sum k hk
    have h2 := hw2.same k hk
    omega
  refine ⟨fun k => W k ++ (t.orb k).items.take c.n, ⟨hw.pos, hw2.fed, ?_, hw2.icap, hw2.same, ?_⟩, hlt, ?_⟩
  · intro k hk
    show T.out t.engine k = _ ++ List.drop _ _
    rw [hw2.out k hk, List.append_assoc, List.take_append_drop]
  · intro k hk
    show (t.irb k).items.length + (List.drop _ _).length = n
    rw [List.length_drop]
    have h1 := hw2.sum k hk
    have h2 := henough k hk
    omega
  · intro hmix k hk
    have he : (mixAll c.ports c.n t.channels t.delayMix ((List.range t.channels).foldl (fun m k => edit m (c.ports.outs k) (overwrite 0 ((t.orb k).items.take c.n))) c.mem) (c.ports.outs k)).take c.n =
        (t.orb k).items.take c.n := by
      rw [hm k hk, if_neg (not_lt.mpr hmix)]
      unfold overwrite
      rw [List.take_zero, List.nil_append, List.take_append_of_le_length (by rw [List.length_take]; exact le_min le_rfl (henough k hk)), List.take_take, Nat.min_self]
    refine ⟨?_, ?_⟩
    · show _ = W k ++ List.take _ (mixAll _ _ _ _ _ _)
      rw [he]
    · show (List.take _ (mixAll _ _ _ _ _ _)).length = _
      rw [he, List.length_take]
      exact min_eq_left (henough k hk)

/-! ## C92 -/

omit [DecidableEq ρ] [Field K] [LinearOrder K] in
theorem outputs_cons (c : Call ρ K) (cs : List (Call ρ K)) (m : Mem K) (ms : List (Mem K)) (k : Nat) : outputs (c :: cs) (m :: ms) k = (m (c.ports.outs k)).take c.n ++ outputs cs ms k := rfl

theorem Wet.runs {T : Traced E ch} : ∀ {cs : List (Call ρ K)} {s s' : Shifter σ ρ K} {ms : List (Mem K)} {X W : Nat → List K}, Wet T s X W E.blockSize → s.channels = ch →
    (∀ c ∈ cs, c.Good ch) → (∀ c ∈ cs, E.blockSize + c.n ≤ bufferSize) → runs E s cs = some (s', ms) → ∃ W', Wet T s' (fun k => X k ++ inputs cs k) W' E.blockSize ∧
      (cs ≠ [] → (s'.irb 0).items.length < E.blockSize) ∧ ((∀ c ∈ cs, c.ports.mix ≤ 0) → ∀ k, k < ch → W' k = W k ++ outputs cs ms k ∧ (outputs cs ms k).length = total cs)
  | [], s, s', ms, X, W, hw, _, _, _, hr => by
    unfold Live.runs at hr
    cases hr
    refine ⟨W, ⟨hw.pos, ?_, hw.out, hw.icap, hw.same, hw.sum⟩, fun h => absurd rfl h, ?_⟩
    · intro k hk
      show _ = X k ++ []
      rw [List.append_nil]
      exact hw.fed k hk
    · intro _ k _
      refine ⟨?_, rfl⟩
      show _ = W k ++ []
      rw [List.append_nil]
  | c :: cs, s, s', ms, X, W, hw, hch, hg, hn, hr => by
    unfold Live.runs at hr
    obtain ⟨⟨t, m⟩, r1, r2⟩ := Option.bind_eq_some_iff.mp hr
    obtain ⟨⟨u, us⟩, r3, r4⟩ := Option.map_eq_some_iff.mp r2
    obtain ⟨rfl, rfl⟩ := Prod.mk.inj r4
    obtain ⟨a1, _, _, _, a5⟩ := run_spec hch (hg c (List.mem_cons_self ..)) r1
    obtain ⟨W1, a6, a7, a8⟩ := a5 T X W E.blockSize hw (hn c (List.mem_cons_self ..)) le_rfl
    obtain ⟨W2, b1, b2, b3⟩ := a6.runs a1 (fun d hd => hg d (List.mem_cons_of_mem _ hd)) (fun d hd => hn d (List.mem_cons_of_mem _ hd)) r3
    refine ⟨W2, ⟨b1.pos, ?_, b1.out, b1.icap, b1.same, b1.sum⟩, ?_, ?_⟩
    · intro k hk
      rw [b1.fed k hk, List.append_assoc]
      rfl
    · intro _
      by_cases h : cs = []
      · subst h
        unfold Live.runs at r3
        cases r3
        exact a7
      · exact b2 h
    · intro hm k hk
      obtain ⟨x1, x2⟩ := b3 (fun d hd => hm d (List.mem_cons_of_mem _ hd)) k hk
      obtain ⟨y1, y2⟩ := a8 (hm c (List.mem_cons_self ..)) k hk
      refine ⟨?_, ?_⟩
      · rw [x1, y1, List.append_assoc]
        rfl
      · rw [outputs_cons, List.length_append, x2, y2]
        unfold total
        simp

theorem runs_some (hE : 1 ≤ E.blockSize) : ∀ (cs : List (Call ρ K)) (s : Shifter σ ρ K), ∃ x, runs E s cs = some x
  | [], s => ⟨_, rfl⟩
  | c :: cs, s => by
    have hr : ∃ x, run E c.ports c.n s c.mem = some x := by
      obtain ⟨t, ht⟩ := shiftAll_some hE _ { updateFormant E c.ports (updateRatio E c.ports s) with
        irb := fun k => ((updateFormant E c.ports (updateRatio E c.ports s)).irb k).write ((c.mem (c.ports.ins k)).take c.n)
        delayMix := fun k => ((updateFormant E c.ports (updateRatio E c.ports s)).delayMix k).write ((c.mem (c.ports.ins k)).take c.n) } (Nat.lt_succ_self _)
      exact ⟨_, Option.map_eq_some_iff.mpr ⟨t, ht, rfl⟩⟩
    obtain ⟨x, hx⟩ := hr
    obtain ⟨y, hy⟩ := runs_some hE cs x.1
    unfold runs
    rw [hx, Option.bind_some, hy]
    exact ⟨_, rfl⟩

/-- **C92.**  For blocks of any sizes up to that of the buffers less one block of the shifter, no call hangs; the shifter is given a block of silence and then all that the host gives, in order (but
for less than a block that is waiting); with the mix all wet, the host gets as many samples as it gives, and these are what the shifter gives, in order, from its first sample on. -/
theorem C92_live (T : Traced E ch) (hch : 0 < ch) (hE : 1 ≤ E.blockSize) (hB : E.blockSize ≤ bufferSize) (e : σ) (one : ρ) (junk : Nat → List K) {cs : List (Call ρ K)} (hcs : ∀ c ∈ cs, c.Good ch)
    (hn : ∀ c ∈ cs, E.blockSize + c.n ≤ bufferSize) :
    ∃ s ms, runs E (create E ch e one junk) cs = some (s, ms) ∧ ∀ k, k < ch →
      (∃ waiting, T.fed s.engine k ++ waiting = List.replicate E.blockSize 0 ++ inputs cs k ∧ (cs ≠ [] → waiting.length < E.blockSize)) ∧
        ((∀ c ∈ cs, c.ports.mix ≤ 0) → (outputs cs ms k).length = total cs ∧ ∃ rest, T.out s.engine k = outputs cs ms k ++ rest) := by
  obtain ⟨⟨s, ms⟩, hr⟩ := runs_some hE cs (create E ch e one junk)
  refine ⟨s, ms, hr, ?_⟩
  have h0 : Wet T (create E ch e one junk) (fun _ => List.replicate E.blockSize 0) (fun _ => []) E.blockSize := by
    have hi : ∀ k, ((create E ch e one junk).irb k).items = List.replicate E.blockSize 0 := by
      intro k
      show [] ++ List.replicate (min E.blockSize (bufferSize - 0)) 0 = _
      rw [List.nil_append, Nat.sub_zero, Nat.min_eq_left hB]
    refine ⟨hch, ?_, ?_, fun _ _ => ⟨rfl, rfl⟩, ?_, ?_⟩
    · intro k hk
      rw [hi]
      show T.fed (E.setPitchScale (E.reset e) one) k ++ _ = _
      rw [T.fed_pitch _ _ _ hk, T.fed_reset _ _ hk]
      rfl
    · intro k hk
      show T.out (E.setPitchScale (E.reset e) one) k = _
      rw [T.out_pitch _ _ _ hk, T.out_reset _ _ hk]
      rfl
    · intro k _
      rw [hi, hi]
    · intro k _
      rw [hi]
      show (List.replicate E.blockSize (0 : K)).length + 0 = _
      rw [List.length_replicate, Nat.add_zero]
  obtain ⟨W, w1, w2, w3⟩ := h0.runs rfl hcs hn hr
  intro k hk
  refine ⟨⟨(s.irb k).items, w1.fed k hk, fun h => by rw [w1.same k hk]; exact w2 h⟩, fun hm => ?_⟩
  have ho := w1.out k hk
  rw [(w3 hm k hk).1, List.nil_append] at ho
  exact ⟨(w3 hm k hk).2, (s.orb k).items, ho⟩

/-! ## C93 -/

/-- **C93** in full: with the mix all dry, what comes out is what went in, as much later as the latency that the plugin reports. -/
def C93_statement : Prop :=
  ∀ (σ ρ : Type) [DecidableEq ρ] (E : Engine σ ρ Rat) (ch : Nat) (e : σ) (one : ρ) (junk : Nat → List Rat) (before : List (Call ρ Rat)) (c : Call ρ Rat) (s s' : Shifter σ ρ Rat) (ms : List (Mem Rat))
    (m : Mem Rat), 1 ≤ E.blockSize → (∀ d ∈ before, d.Good ch) → c.Good ch → (∀ d ∈ before, d.n + E.blockSize ≤ bufferSize) → c.n + E.blockSize ≤ bufferSize →
    runs E (create E ch e one junk) before = some (s, ms) → run E c.ports c.n s c.mem = some (s', m) → c.ports.mix = 1 → DelayedBy (latency E s') ch before c m

/-- The delayed samples between calls. -/
structure Delay (ch d : Nat) (before : List (Call ρ K)) (s : Shifter σ ρ K) : Prop where
  channels : s.channels = ch
  cap : ∀ k, (s.delayMix k).cap = bufferSize + d
  items : ∀ k, k < ch → (s.delayMix k).items = (List.replicate d 0 ++ inputs before k).drop (total before)

theorem delay_create (e : σ) (one : ρ) (junk : Nat → List K) : Delay ch (E.startDelay e) [] (create E ch e one junk) := by
  refine ⟨rfl, fun _ => rfl, fun k _ => ?_⟩
  show [] ++ List.replicate (min (E.startDelay e) (bufferSize + E.startDelay e - 0)) 0 = List.drop 0 (_ ++ [])
  rw [List.drop_zero, List.append_nil, List.nil_append, Nat.min_eq_left (by omega)]

theorem Delay.held {d : Nat} {before : List (Call ρ K)} {s : Shifter σ ρ K} (h : Delay ch d before s) {c : Call ρ K} (hb : ∀ d ∈ before, d.Good ch) (hn : c.n ≤ bufferSize)
    {k : Nat} (hk : k < ch) : (held s c k).items = (List.replicate d 0 ++ inputs before k ++ c.input k).drop (total before) := by
  have hl := inputs_length hb hk
  show (s.delayMix k).items ++ List.take (s.delayMix k).space _ = _
  have hsp : (c.input k).length ≤ (s.delayMix k).space := by
    unfold Q.space Call.input
    rw [h.cap, h.items k hk]
    simp only [List.length_drop, List.length_append, List.length_replicate, List.length_take, hl]
    omega
  rw [List.take_of_length_le hsp, h.items k hk, List.drop_append_of_le_length (l₁ := List.replicate d 0 ++ inputs before k) (by rw [List.length_append, hl]; omega)]

theorem Delay.run {d : Nat} {before : List (Call ρ K)} {s s' : Shifter σ ρ K} (h : Delay ch d before s) {c : Call ρ K} {m' : Mem K} (hb : ∀ d ∈ before, d.Good ch) (hc : c.Good ch)
    (hn : c.n ≤ bufferSize) (hr : run E c.ports c.n s c.mem = some (s', m')) : Delay ch d (before ++ [c]) s' := by
  obtain ⟨h1, _, h3, _⟩ := run_spec h.channels hc hr
  refine ⟨h1, fun k => by rw [h3]; exact h.cap k, fun k hk => ?_⟩
  rw [h3]
  show List.drop _ _ = _
  rw [h.held hb hn hk, List.drop_drop]
  have e1 : inputs (before ++ [c]) k = inputs before k ++ c.input k := by unfold inputs; simp
  have e2 : total (before ++ [c]) = total before + c.n := by unfold total; simp
  rw [e1, e2, List.append_assoc]

theorem Delay.runs {d : Nat} : ∀ {cs before : List (Call ρ K)} {s s' : Shifter σ ρ K} {ms : List (Mem K)}, Delay ch d before s → (∀ d ∈ before, d.Good ch) → (∀ c ∈ cs, c.Good ch) →
    (∀ c ∈ cs, c.n ≤ bufferSize) → runs E s cs = some (s', ms) → Delay ch d (before ++ cs) s'
  | [], before, s, s', ms, h, _, _, _, hr => by
    unfold Live.runs at hr
    cases hr
    rw [List.append_nil]
    exact h
  | c :: cs, before, s, s', ms, h, hb, hg, hn, hr => by
    unfold Live.runs at hr
    obtain ⟨⟨t, m⟩, r1, r2⟩ := Option.bind_eq_some_iff.mp hr
    obtain ⟨⟨u, us⟩, r3, r4⟩ := Option.map_eq_some_iff.mp r2
    obtain ⟨rfl, rfl⟩ := Prod.mk.inj r4
    have h1 := h.run hb (hg c (List.mem_cons_self ..)) (hn c (List.mem_cons_self ..)) r1
    have h2 := h1.runs (cs := cs) (fun d hd => by
      rcases List.mem_append.mp hd with hd | hd
      · exact hb d hd
      · rw [List.mem_singleton.mp hd]; exact hg c (List.mem_cons_self ..)) (fun d hd => hg d (List.mem_cons_of_mem _ hd)) (fun d hd => hn d (List.mem_cons_of_mem _ hd)) r3
    rw [List.append_assoc] at h2
    exact h2

/-- **C93**, in part: what comes out all dry is what went in, later by the start delay that the shifter had when the plugin was made.  Missing: the block of the shifter that is also part of the
reported latency, and changes of the start delay (see `C93_violated`). -/
theorem C93_partial [IsStrictOrderedRing K] {e : σ} {one : ρ} {junk : Nat → List K} {before : List (Call ρ K)} {c : Call ρ K} {s s' : Shifter σ ρ K} {ms : List (Mem K)} {m : Mem K}
    (hb : ∀ d ∈ before, d.Good ch) (hc : c.Good ch) (hn : ∀ d ∈ before, d.n ≤ bufferSize) (hcn : c.n ≤ bufferSize) (hr : runs E (create E ch e one junk) before = some (s, ms))
    (hr' : run E c.ports c.n s c.mem = some (s', m)) (hmix : c.ports.mix = 1) : DelayedBy (E.startDelay e) ch before c m := by
  have hd : Delay ch (E.startDelay e) before s := (delay_create (E := E) (ch := ch) e one junk).runs (before := []) (by simp) hb hn hr
  intro k hk
  obtain ⟨_, _, _, ⟨q, h4⟩, _⟩ := run_spec hd.channels hc hr'
  have hh := hd.held (c := c) hb hcn hk
  rw [h4 k hk, hmix, if_pos one_pos, mixed_one, hh]
  rw [hh]
  have hl := inputs_length hb hk
  have := hc.ins k hk
  simp only [List.length_drop, List.length_append, List.length_replicate, hl]
  unfold Call.input
  rw [List.length_take]
  omega

/-! ## Examples -/

/-- A shifter that gives back what it got, with the block size of the real one and no delay of its own, and that remembers its history. -/
def Ex.through (b d : Nat) : Engine (List Rat × List Rat) Nat Rat where
  blockSize := b
  startDelay := fun _ => d
  shift := fun s x => ((s.1 ++ x 0, s.2 ++ (x 0 ++ List.replicate b 0).take b), fun _ => (x 0 ++ List.replicate b 0).take b)
  reset := fun _ => ([], [])
  setPitchScale := fun s _ => s
  setFormant := fun s _ => s

def Ex.traced (b d : Nat) : Traced (Ex.through b d) 1 where
  fed := fun s _ => s.1
  out := fun s _ => s.2
  fed_shift := by
    intro s x c hc
    obtain rfl : c = 0 := by omega
    rfl
  out_shift := by intro s x c _; rfl
  length := by intro s x c _; simp [Ex.through]
  fed_reset := by intro s c _; rfl
  out_reset := by intro s c _; rfl
  fed_pitch := by intro s r c _; rfl
  out_pitch := by intro s r c _; rfl
  fed_formant := by intro s r c _; rfl
  out_formant := by intro s r c _; rfl

/-- Calls of 5 and 2 samples all wet: the hypotheses of C92_live, and the output a block of 3 late. -/
example : (∀ c ∈ ([⟨⟨fun _ => 0, fun _ => 0, 1, none, some true, 0⟩, 5, fun _ => [1, 2, 3, 4, 5]⟩, ⟨Plugin.Ex.ports 0 2, 2, fun _ => [6, 7]⟩] : List (Call Nat Rat)),
      c.Good 1 ∧ (Ex.through 3 4).blockSize + c.n ≤ bufferSize ∧ c.ports.mix ≤ 0) ∧
    ((runs (Ex.through 3 4) (create (Ex.through 3 4) 1 ([], []) 1 fun _ => [9, 9, 9])
      [⟨⟨fun _ => 0, fun _ => 0, 1, none, some true, 0⟩, 5, fun _ => [1, 2, 3, 4, 5]⟩, ⟨Plugin.Ex.ports 0 2, 2, fun _ => [6, 7]⟩]).map
        fun x => (outputs [⟨⟨fun _ => 0, fun _ => 0, 1, none, some true, 0⟩, 5, fun _ => [1, 2, 3, 4, 5]⟩, ⟨Plugin.Ex.ports 0 2, 2, fun _ => [6, 7]⟩] x.2 0, x.1.engine.1)) =
      some ([0, 0, 0, 1, 2, 3, 4], [0, 0, 0, 1, 2, 3, 4, 5, 6]) := by
  refine ⟨?_, by decide +kernel⟩
  intro c hc
  simp only [List.mem_cons, List.not_mem_nil, or_false] at hc
  rcases hc with rfl | rfl <;> exact ⟨⟨fun a ha b hb _ => by omega, fun _ _ => by simp, fun _ _ => by simp⟩, by decide, by decide +kernel⟩

/-- A call that asks for the input as it was, of 4 samples. -/
def Ex.call : Call Nat Rat := ⟨Plugin.Ex.ports 1 1, 4, fun _ => [1, 2, 3, 4]⟩

theorem Ex.call_good : Ex.call.Good 1 := ⟨fun a ha b hb _ => by omega, fun _ _ => by simp [Ex.call], fun _ _ => by simp [Ex.call]⟩

/-- The hypotheses of C93_partial: with a start delay of 1, the dry signal comes 1 sample late. -/
example : (run (Ex.through 2 1) Ex.call.ports Ex.call.n (create (Ex.through 2 1) 1 ([], []) 1 fun _ => [9, 9]) Ex.call.mem).map (fun x => (x.2 1, latency (Ex.through 2 1) x.1)) = some ([0, 1, 2, 3], 3) := by
  decide +kernel

/-- A call with `n` ones, all dry. -/
def Ex.ones (n : Nat) : Call Nat Rat := ⟨Plugin.Ex.ports 1 1, n, fun _ => List.replicate n 1⟩

theorem Ex.ones_good (n : Nat) : (Ex.ones n).Good 1 := ⟨fun a ha b hb _ => by omega, fun _ _ => by simp [Ex.ones], fun _ _ => by simp [Ex.ones]⟩

/-- Whatever the block size and the start delay. -/
theorem Ex.early {b d : Nat} (hb : 1 ≤ b) (hd : d + 1 + b ≤ bufferSize) : ¬ C93_statement := by
  intro h
  obtain ⟨⟨s, m⟩, hr⟩ : ∃ x, run (Ex.through b d) (Ex.ones (d + 1)).ports (Ex.ones (d + 1)).n (create (Ex.through b d) 1 ([], []) 1 fun _ => []) (Ex.ones (d + 1)).mem = some x := by
    obtain ⟨x, hx⟩ := runs_some (E := Ex.through b d) hb [Ex.ones (d + 1)] (create (Ex.through b d) 1 ([], []) 1 fun _ => [])
    unfold runs at hx
    obtain ⟨y, hy, _⟩ := Option.bind_eq_some_iff.mp hx
    exact ⟨y, hy⟩
  have h1 := h _ _ (Ex.through b d) 1 ([], []) 1 (fun _ => []) [] (Ex.ones (d + 1)) _ s [] m hb (by simp) (Ex.ones_good _) (by simp) hd rfl hr rfl 0 Nat.one_pos
  have h2 := C93_partial (E := Ex.through b d) (ch := 1) (before := []) (by simp) (Ex.ones_good _) (by simp) (show d + 1 ≤ bufferSize by omega) rfl hr rfl 0 Nat.one_pos
  rw [h1] at h2
  have h3 := congrArg (fun l : List Rat => l.getD d 0) h2
  have e : ∀ l : Nat, (((List.replicate l (0 : Rat) ++ inputs ([] : List (Call Nat Rat)) 0 ++ (Ex.ones (d + 1)).input 0).drop (total ([] : List (Call Nat Rat)))).take (Ex.ones (d + 1)).n).getD d 0 =
      if d < l then 0 else if d - l < d + 1 then 1 else 0 := by
    intro l
    show ((List.drop 0 (List.replicate l (0 : Rat) ++ [] ++ List.take (d + 1) (List.replicate (d + 1) 1))).take (d + 1)).getD d 0 = _
    rw [List.drop_zero, List.append_nil, List.getD_eq_getElem?_getD, List.getElem?_take_of_lt (by omega), List.take_of_length_le (by simp), List.getElem?_append, List.length_replicate]
    split
    · rw [List.getElem?_replicate, if_pos (by assumption)]; rfl
    · rw [List.getElem?_replicate, if_pos (by omega), if_pos (by omega)]; rfl
  simp only [e] at h3
  rw [if_pos (show d < latency (Ex.through b d) s from show d < d + b by omega), if_neg (show ¬ d < (Ex.through b d).startDelay ([], []) from Nat.lt_irrefl d),
    if_pos (show d - (Ex.through b d).startDelay ([], []) < d + 1 from show d - d < d + 1 by omega)] at h3
  exact absurd h3 (by decide)

/-- **C93** in full is false: the dry signal is not delayed for the block that is gathered before the shifter can start, though it is in the reported latency. -/
theorem C93_violated : ¬ C93_statement := Ex.early (b := 512) (d := 2048) (by decide) (by decide)

end Verif.Plugin.Live
