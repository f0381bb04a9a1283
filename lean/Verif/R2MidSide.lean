import Verif.R2OfflineProps
/-!
# The faster engine: channels together are mid and side apart (C78); the result for channels together does not depend on blocks (C74)
-/
namespace Verif.R2

variable {α σ ρ κ τ : Type}

section
variable [Zero α] [Add α] [Sub α] {p : Params} {env : Env α σ ρ κ}

/-- Half the sum and half the difference of the first two channels, and the others as they are. -/
def midSide (env : Env α σ ρ κ) (f : Frame α) : Frame α :=
  fun c => if c = 0 then env.halve (f 0 + f 1) else if c = 1 then env.halve (f 0 - f 1) else f c

/-- A call with mid and side given to `process`. -/
def midSideCall (env : Env α σ ρ κ) : Call α → Call α
  | .process input final => .process (input.map (midSide env)) final
  | c => c

omit [Zero α] in
theorem encoded_eq (ht : p.channelsTogether = true) (h2 : 2 ≤ p.channels) (f : Frame α) : encoded p env f = midSide env f := by
  funext c
  unfold encoded prepared useMidSide midSide
  simp only [ht, decide_eq_true h2, Bool.true_and]
  by_cases h0 : c = 0
  · simp [h0]
  · by_cases h1 : c = 1
    · simp [h1]
    · rw [decide_eq_false (by omega)]
      simp [h0, h1]

omit [Zero α] in
theorem encodedCall_eq (ht : p.channelsTogether = true) (h2 : 2 ≤ p.channels) (c : Call α) : encodedCall p env c = midSideCall env c := by
  have : encoded p env = midSide env := by funext f; exact encoded_eq ht h2 f
  cases c <;> simp only [encodedCall, midSideCall, this]

omit [Zero α] [Add α] [Sub α] in
theorem readChannels_wide : ∀ (l : List (Chan α σ ρ)) (n : Nat), (readChannels l n).2.1.length = l.length := by
  intro l
  induction l with
  | nil => intro n; rfl
  | cons cd l ih => intro n; unfold readChannels; simp [ih]

/-- Each output has as many channels as there are, or none. -/
theorem run_wide (K : Counted env τ) (hp : Same p) (hsep : p.channelsTogether = false) : ∀ (cs : List (Call α)) (s s' : State α σ ρ κ) (outs : List (List (List α))),
    InStep K.key env p s → run p env s cs = some (s', outs) → ∀ o ∈ outs, o = [] ∨ o.length = p.channels := by
  intro cs
  induction cs with
  | nil => intro s s' outs _ h o ho; cases h; simp at ho
  | cons c cs ih =>
    intro s s' outs hs h
    unfold run at h
    obtain ⟨⟨s1, o1⟩, h1, h⟩ := Option.bind_eq_some_iff.mp h
    obtain ⟨⟨s2, os⟩, h2, h⟩ := Option.bind_eq_some_iff.mp h
    cases h
    intro o ho
    rcases List.mem_cons.mp ho with rfl | ho
    · cases c with
      | retrieve n =>
        right
        cases h1
        unfold retrieve
        simp only [hsep, Bool.false_and, Bool.false_eq_true, if_false]
        rw [readChannels_wide]
        exact hs.length
      | setKeyFrameMap m => cases h1; exact Or.inl rfl
      | _ =>
        left
        obtain ⟨u, _, e⟩ := Option.map_eq_some_iff.mp h1
        cases e
        rfl
    · exact ih s1 _ os (step_call K p hp hs h1).1 h2 o ho

omit [Zero α] [Add α] [Sub α] in
theorem shortest_level {n : Nat} : ∀ (o : List (List α)), o ≠ [] → (∀ l ∈ o, l.length = n) → shortest o = n := by
  intro o
  induction o with
  | nil => intro h; exact absurd rfl h
  | cons x o ih =>
    intro _ h
    cases o with
    | nil => exact h x (by simp)
    | cons y o =>
      show min x.length (shortest (y :: o)) = n
      rw [ih (by simp) (fun l hl => h l (List.mem_cons_of_mem _ hl)), h x (by simp)]
      exact Nat.min_self n

omit [Zero α] in
/-- From mid and side to left and right, all of it. -/
theorem decoded_level (ht : p.channelsTogether = true) (h2 : 2 ≤ p.channels) {o : List (List α)} (hw : o = [] ∨ o.length = p.channels)
    (hl : ∀ l ∈ o, ∀ m ∈ o, l.length = m.length) :
    (decoded p o).getD 0 [] = List.zipWith (· + ·) (o.getD 0 []) (o.getD 1 []) ∧ (decoded p o).getD 1 [] = List.zipWith (· - ·) (o.getD 0 []) (o.getD 1 []) ∧
      (∀ c, 2 ≤ c → (decoded p o).getD c [] = o.getD c []) ∧ (o.getD 0 []).length = (o.getD 1 []).length := by
  unfold decoded
  simp only [ht, decide_eq_true h2, Bool.true_and, if_true]
  match o, hw, hl with
  | [], _, _ => simp [decode]
  | [x], hw, _ => rcases hw with h | h <;> simp at h; omega
  | x :: y :: o, _, hl =>
    have hxy : x.length = y.length := hl x (by simp) y (by simp)
    rw [shortest_level (n := x.length) (x :: y :: o) (by simp) (fun l hm => hl l hm x (by simp))]
    refine ⟨?_, ?_, ?_, by simpa using hxy⟩
    · simp [decode]
      rw [hxy, List.take_length]
    · simp [decode]
      rw [hxy, List.take_length]
      simp
    · intro c hc
      match c, hc with
      | c + 2, _ => rfl

omit [Zero α] in
theorem delivered_level (ht : p.channelsTogether = true) (h2 : 2 ≤ p.channels) : ∀ {outs : List (List (List α))}, (∀ o ∈ outs, o = [] ∨ o.length = p.channels) →
    (∀ o ∈ outs, ∀ l ∈ o, ∀ m ∈ o, l.length = m.length) →
    delivered (outs.map (decoded p)) 0 = List.zipWith (· + ·) (delivered outs 0) (delivered outs 1) ∧
      delivered (outs.map (decoded p)) 1 = List.zipWith (· - ·) (delivered outs 0) (delivered outs 1) ∧
      (∀ c, 2 ≤ c → delivered (outs.map (decoded p)) c = delivered outs c) ∧ (delivered outs 0).length = (delivered outs 1).length := by
  intro outs
  induction outs with
  | nil => intro _ _; simp [delivered]
  | cons o outs ih =>
    intro hw hl
    obtain ⟨a1, a2, a3, a4⟩ := decoded_level ht h2 (hw o (by simp)) (hl o (by simp))
    obtain ⟨b1, b2, b3, b4⟩ := ih (fun x hx => hw x (by simp [hx])) (fun x hx => hl x (by simp [hx]))
    have e : ∀ (q : List (List α)) (qs : List (List (List α))) c, delivered (q :: qs) c = q.getD c [] ++ delivered qs c := fun _ _ _ => rfl
    simp only [List.map_cons, e]
    rw [a1, a2, b1, b2, List.zipWith_append a4, List.zipWith_append a4]
    refine ⟨rfl, rfl, ?_, ?_⟩
    · intro c hc
      rw [a3 c hc, b3 c hc]
    · rw [List.length_append, List.length_append, a4, b4]

/-- **C78.**  Processing channels together, offline or in real time with high consistency, is processing mid and side apart: whatever the calls since construction, the engine without the
option, given half the sum and half the difference of the first two channels in their places, goes through the same states, and what the engine with the option gives of those two
channels is the sum and the difference of what it gives; of the other channels it gives the same. -/
theorem C78_mid_side (K : Counted env τ) (hp : p.realTime = false ∨ p.highConsistency = true ∧ p.highQuality = false) (ht : p.channelsTogether = true) (h2 : 2 ≤ p.channels)
    {a b : R3.Dbl} {s₀ s : State α σ ρ κ} {cs : List (Call α)} {outs : List (List (List α))} (h0 : create p env a b = some s₀) (h : run p env s₀ cs = some (s, outs)) :
    create { p with channelsTogether := false } env a b = some s₀ ∧
      ∃ outs', run { p with channelsTogether := false } env s₀ (cs.map (midSideCall env)) = some (s, outs') ∧
        (delivered outs' 0).length = (delivered outs' 1).length ∧
        delivered outs 0 = List.zipWith (· + ·) (delivered outs' 0) (delivered outs' 1) ∧
        delivered outs 1 = List.zipWith (· - ·) (delivered outs' 0) (delivered outs' 1) ∧
        ∀ c, 2 ≤ c → delivered outs c = delivered outs' c := by
  have hb : ∀ x, resampleBefore p x = false := by
    intro x
    unfold resampleBefore
    rcases hp with h | h
    · simp [h]
    · simp [h]
  refine ⟨h0, ?_⟩
  rw [run_apart hb] at h
  obtain ⟨x, h3, h4⟩ := Option.map_eq_some_iff.mp h
  cases h4
  have e : cs.map (encodedCall p env) = cs.map (midSideCall env) := List.map_congr_left fun c _ => encodedCall_eq ht h2 c
  rw [e] at h3
  have h0' : create p.apart env a b = some s₀ := h0
  have hsame : Same p.apart := Or.inr (Or.inl rfl)
  obtain ⟨c1, _⟩ := output_of_run K hsame h0' h3
  have c2 := run_wide K hsame rfl _ _ _ _ (step_create K p.apart h0') h3
  obtain ⟨d1, d2, d3, d4⟩ := delivered_level ht h2 (p := p) c2 c1.2
  exact ⟨x.2, h3, d4, d1, d2, d3⟩

/-- **C74 (partial)**, channels together: for every input there is one result, of which what has been retrieved is the beginning and as much is missing as is left in the output
buffers, whatever the division of the input into blocks, and whatever else is called. -/
theorem C74_together_partial (K : Counted env τ) (ht : p.channelsTogether = true) (h2 : 2 ≤ p.channels) {s t : State α σ ρ κ} (hs : Prepared p env s t) (all : List (Frame α))
    (h : Ordinary p t all.length) :
    ∃ heard : Nat → List α, ∀ (input : List (Frame α)) (final : Bool) (cs : List (Call α)), (∀ c ∈ cs, Playing c) → ends (.process input final :: cs) = true →
      given (.process input final :: cs) = all →
      ∃ s' outs, run p env s (.process input final :: cs) = some (s', outs) ∧ s'.chans.length = p.channels ∧
        ∀ (c : Nat) cd, s'.chans[c]? = some cd → ∃ rest : List α, rest.length = cd.outbuf.data.length ∧ delivered outs c ++ rest = heard c := by
  have hs' := hs.split h.offline
  let H : Nat → List α := fun c => output p.apart env t.sizes t.outputIncrements (initial env t c) (all.map (prepared p env c))
  refine ⟨fun c => if c = 0 then List.zipWith (· + ·) (H 0) (H 1) else if c = 1 then List.zipWith (· - ·) (H 0) (H 1) else H c, ?_⟩
  intro input final cs hcs hend hall
  have e := given_encoded (p := p) (env := env) (.process input final :: cs)
  have hend' := ends_encoded (p := p) (env := env) (.process input final :: cs)
  simp only [List.map_cons, encodedCall] at e hend'
  rw [hall] at e
  obtain ⟨s', outs, a1, a2, a3⟩ := ordinary_run (p := p.apart) (Or.inl rfl) hs' (playing_encoded (p := p) (env := env) hcs) (hend'.trans hend) (by
    rw [e, List.length_map]
    exact h.split)
  have hmap : ∀ c, (all.map (encoded p env)).map (prepared p.apart env c) = all.map (prepared p env c) := by
    intro c
    rw [List.map_map]
    congr 1
  have hsame : Same p.apart := Or.inr (Or.inl rfl)
  obtain ⟨a, b, s₀, pre, o, i1, i2⟩ := hs'.history
  obtain ⟨j1, _⟩ := step_run K p.apart hsame pre s₀ s o (step_create K p.apart i1) i2
  obtain ⟨k1, k2⟩ := step_run K p.apart hsame _ s s' outs j1 a1
  obtain ⟨d1, d2, d3, d4⟩ := delivered_level ht h2 (p := p) (outs := outs) (run_wide K hsame rfl _ _ _ _ j1 a1) (fun o ho l hl m hm => by
    obtain ⟨n, hn⟩ := k2 o ho
    rw [hn l hl, hn m hm])
  refine ⟨s', outs.map (decoded p), ?_, a2, ?_⟩
  · rw [run_apart (never_before h.offline)]
    simp only [List.map_cons, encodedCall, a1, Option.map_some]
  have hlen : s'.chans.length = p.channels := a2
  obtain ⟨c0, hc0⟩ : ∃ cd, s'.chans[0]? = some cd := ⟨_, List.getElem?_eq_getElem (by omega)⟩
  obtain ⟨c1, hc1⟩ : ∃ cd, s'.chans[1]? = some cd := ⟨_, List.getElem?_eq_getElem (by omega)⟩
  have hH : ∀ c cd, s'.chans[c]? = some cd → delivered outs c ++ cd.outbuf.data = H c := by
    intro c cd hc
    rw [(a3 c cd hc).2, e, hmap]
  have h0 := hH 0 c0 hc0
  have h1 := hH 1 c1 hc1
  obtain ⟨m, hm⟩ := k1.level
  have l0 : c0.outbuf.data.length = m := hm c0 (List.mem_of_getElem? hc0)
  have l1 : c1.outbuf.data.length = m := hm c1 (List.mem_of_getElem? hc1)
  intro c cd hc
  have lc : cd.outbuf.data.length = m := hm cd (List.mem_of_getElem? hc)
  by_cases z0 : c = 0
  · subst z0
    refine ⟨List.zipWith (· + ·) c0.outbuf.data c1.outbuf.data, by simp [l0, l1, lc], ?_⟩
    simp only [if_true]
    rw [d1, ← h0, ← h1, List.zipWith_append d4]
  · by_cases z1 : c = 1
    · subst z1
      refine ⟨List.zipWith (· - ·) c0.outbuf.data c1.outbuf.data, by simp [l0, l1, lc], ?_⟩
      simp only [if_true, Nat.one_ne_zero, if_false]
      rw [d2, ← h0, ← h1, List.zipWith_append d4]
    · refine ⟨cd.outbuf.data, rfl, ?_⟩
      simp only [z0, z1, if_false]
      rw [d3 c (by omega)]
      exact hH c cd hc

end

/-- Two channels together at 8000 Hz, offline. -/
def Ex.pair : Params := { rate := 8000, windowShort := true, channels := 2, channelsTogether := true }

/-- A case to which C78 applies: `demo` gives ones whatever it is given, so that left is 2 and right is 0. -/
example : (create Ex.pair demo (.fin (3 / 2)) (.fin (4 / 3))).bind (fun s => (run Ex.pair demo s
      [.process (Ex.block 300) false, .retrieve 20, .process (Ex.block 10) true, .available, .retrieve 1000]).map fun x =>
      (decide (delivered x.2 0 = List.replicate (delivered x.2 0).length 2), decide (delivered x.2 1 = List.replicate (delivered x.2 0).length 0),
        decide (100 ≤ (delivered x.2 0).length))) = some (true, true, true) := by
  decide +kernel

/-- A case to which C74 applies, for channels together. -/
example : ∃ s t : State Int Unit Unit Unit, Prepared Ex.pair demo s t ∧ Ordinary Ex.pair t 300 ∧ t.sizes.timeRatio = 3 / 2 := by
  have hrun : (create Ex.pair demo (.fin (3 / 2)) (.fin 1)).bind (fun s₀ => (run Ex.pair demo s₀ [.study (Ex.block 300) true]).bind fun x =>
      (prologue demo x.1).map fun t => (decide (x.1.mode = .studying), ordinaryCheck Ex.pair t 300, decide (t.sizes.timeRatio = 3 / 2))) = some (true, true, true) := by
    decide +kernel
  obtain ⟨s₀, h1, h2⟩ := Option.bind_eq_some_iff.mp hrun
  obtain ⟨⟨s, o⟩, h3, h4⟩ := Option.bind_eq_some_iff.mp h2
  obtain ⟨t, h5, h6⟩ := Option.map_eq_some_iff.mp h4
  simp only [Prod.mk.injEq, decide_eq_true_eq] at h6
  exact ⟨s, t, ⟨⟨_, _, s₀, _, o, h1, h3⟩, Or.inr h6.1, h5⟩, ordinary_of_check h6.2.1, h6.2.2⟩

end Verif.R2
