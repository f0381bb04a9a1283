import Verif.R2ThreadsAny
/-!
# The faster engine with threads: a call of `process` comes to its end
-/
namespace Verif.R2.Threads
open Verif.R2

variable {α σ ρ κ : Type}

/-- In a call of `process`: the block, whether it is final, how much of it has been taken of each channel, and where the call is. -/
def giving : User α → Option (List (Frame α) × Bool × List Nat × Nat)
  | .consume input final used c => some (input, final, used, 3 * c)
  | .write input final used c _ => some (input, final, used, 3 * c + 1)
  | .mark input final used c => some (input, final, used, 3 * c + 2)
  | _ => none

theorem giving_idle {u : User α} (h : u = .idle) : giving u = none := by rw [h]; rfl

theorem giving_quiet {u : User α} {x : List (Frame α) × Bool × List Nat × Nat} (h : giving u = some x) : quiet u = u := by
  cases u <;> first | rfl | (exact absurd h (by simp [giving]))

/-- How many turns of the user. -/
def userTurns (es : List (Event α)) : Nat := es.countP fun
  | .user => true
  | _ => false

theorem userTurns_cons (e : Event α) (es : List (Event α)) : userTurns (e :: es) = userTurns [e] + userTurns es := by
  unfold userTurns
  simp only [List.countP_cons, List.countP_nil, Nat.zero_add]
  omega

theorem sum_set (l : List Nat) : ∀ {c : Nat} (k : Nat), c < l.length → (l.set c (l.getD c 0 + k)).sum = l.sum + k := by
  induction l with
  | nil => intro c k h; simp at h
  | cons a l ih =>
    intro c k h
    cases c with
    | zero => simp; omega
    | succ c =>
      have := ih k (c := c) (by simpa using h)
      simp only [List.set_cons_succ, List.sum_cons, List.getD_cons_succ]
      omega

theorem set_same (l : List Nat) : ∀ {c : Nat}, c < l.length → l.set c (l.getD c 0) = l := by
  intro c h
  rw [List.getD_eq_getElem?_getD, List.getElem?_eq_getElem h, Option.getD_some, List.set_getElem_self]

section
variable [Zero α] [Add α] [Sub α] {p : Params} {env : Env α σ ρ κ} {z : Sizes} {incs : List Int} {x₀ : Nat → Syn α σ} {all : List (Frame α)}

/-- The call has returned after some of these turns. -/
def Returns (p : Params) (env : Env α σ ρ κ) (z : Sizes) (incs : List Int) (s : Sys α σ ρ) (es : List (Event α)) : Prop :=
  ∃ pre post t, es = pre ++ post ∧ s.run p env z incs pre = some t ∧ t.user = .idle

variable {s s' S : Sys α σ ρ} {B : List (Frame α)} {g icaps caps : Nat → Nat} {r : Nat → List α}

omit [Zero α] in
theorem Returns.cons {e : Event α} {es : List (Event α)} (hs : s.step p env z incs e = some s') (h : Returns p env z incs s' es) : Returns p env z incs s (e :: es) := by
  obtain ⟨pre, post, t, h1, h2, h3⟩ := h
  refine ⟨e :: pre, post, t, by rw [h1]; rfl, ?_, h3⟩
  unfold Sys.run
  rw [hs]
  exact h2

omit [Zero α] in
theorem Returns.now {es : List (Event α)} (h : s.user = .idle) : Returns p env z incs s es := ⟨[], es, s, rfl, rfl, h⟩

omit [Zero α] in
theorem run_append (es fs : List (Event α)) : ∀ (s : Sys α σ ρ), s.run p env z incs (es ++ fs) = (s.run p env z incs es).bind fun s => s.run p env z incs fs := by
  induction es with
  | nil => intro s; rfl
  | cons e es ih =>
    intro s
    show (s.step p env z incs e).bind (fun s => s.run p env z incs (es ++ fs)) = ((s.step p env z incs e).bind fun s => s.run p env z incs es).bind fun s => s.run p env z incs fs
    cases s.step p env z incs e with
    | none => rfl
    | some t => exact ih t

omit [Zero α] in
theorem Returns.append {es fs : List (Event α)} (hs : s.run p env z incs es = some s') (h : Returns p env z incs s' fs) : Returns p env z incs s (es ++ fs) := by
  obtain ⟨pre, post, t, h1, h2, h3⟩ := h
  refine ⟨es ++ pre, post, t, by rw [h1, List.append_assoc], ?_, h3⟩
  rw [run_append, hs]
  exact h2

omit [Zero α] in
theorem Returns.left {es fs : List (Event α)} (h : Returns p env z incs s es) : Returns p env z incs s (es ++ fs) := by
  obtain ⟨pre, post, t, h1, h2, h3⟩ := h
  exact ⟨pre, post ++ fs, t, by rw [h1, List.append_assoc], h2, h3⟩

/-- A turn that takes nothing of the block: nothing else has changed of a channel of which not all has been taken, but by its own thread. -/
structure Vain (s s' : Sys α σ ρ) (e : Event α) (input : List (Frame α)) (final : Bool) (used : List Nat) (pos : Nat) : Prop where
  giving : giving s'.user = some (input, final, used, if userTurns [e] = 0 then pos else if pos = 3 * s.workers.length then 0 else pos + 1)
  same : ∀ c, turns c [e] = 0 → used.getD c 0 < input.length → s'.workers[c]? = s.workers[c]?

/-- A turn in a call of `process`. -/
theorem giving_turn {e : Event α} {input : List (Frame α)} {final : Bool} {used : List Nat} {pos : Nat} (hg : giving s.user = some (input, final, used, pos)) (hl : used.length = s.workers.length)
    (hpl : Placed s) (hs : s.step p env z incs e = some s') :
    s'.user = .idle ∨ (∃ used' pos', giving s'.user = some (input, final, used', pos') ∧ used.sum < used'.sum ∧ used'.length = used.length) ∨ Vain s s' e input final used pos := by
  cases e with
  | call q =>
    unfold Sys.step at hs
    simp only at hs
    split at hs
    · rename_i hu
      rw [hu] at hg
      cases hg
    · cases hs
  | thread d =>
    unfold Sys.step at hs
    simp only at hs
    obtain ⟨v, hv, hs⟩ := Option.bind_eq_some_iff.mp hs
    obtain ⟨v', hv', hs⟩ := Option.map_eq_some_iff.mp hs
    cases hs
    refine Or.inr (Or.inr ⟨hg, ?_⟩)
    intro c hc _
    have hd : d ≠ c := by
      intro e
      subst e
      simp [turns] at hc
    exact List.getElem?_set_ne hd
  | user =>
    have hut : ¬ userTurns [Event.user (α := α)] = 0 := by simp [userTurns]
    unfold Sys.step Sys.userStep at hs
    simp only at hs
    cases hu : s.user with
    | consume input' final' used' c =>
      rw [hu] at hs hg
      simp only [Threads.giving, Option.some.injEq, Prod.mk.injEq] at hg
      obtain ⟨rfl, rfl, rfl, rfl⟩ := hg
      simp only at hs
      split at hs
      · rename_i hn
        split at hs
        · cases hs; exact Or.inl rfl
        · cases hs
          refine Or.inr (Or.inr ⟨?_, fun c _ _ => rfl⟩)
          unfold Placed at hpl
          rw [hu] at hpl
          simp only at hpl
          rw [List.getElem?_eq_none_iff] at hn
          rw [if_neg hut, if_pos (by omega)]
          rfl
      · rename_i w hw
        cases hs
        refine Or.inr (Or.inr ⟨?_, fun c _ _ => rfl⟩)
        have hc := lt_of_get hw
        rw [if_neg hut, if_neg (by omega)]
        rfl
    | write input' final' used' c n =>
      rw [hu] at hs hg
      simp only [Threads.giving, Option.some.injEq, Prod.mk.injEq] at hg
      obtain ⟨rfl, rfl, rfl, rfl⟩ := hg
      simp only at hs
      split at hs
      · cases hs
      · rename_i w hw
        have hc := lt_of_get hw
        cases hs
        by_cases hk : min n (input'.length - used'.getD c 0) = 0
        · refine Or.inr (Or.inr ⟨?_, ?_⟩)
          · rw [if_neg hut, if_neg (by omega), hk]
            simp only [Threads.giving, Nat.add_zero, set_same used' (hl ▸ hc)]
          · intro d _ _
            by_cases hd : c = d
            · subst hd
              simp only [hk, Nat.add_zero, List.take_zero, List.map_nil]
              have e : w.cd.inbuf.write [] = w.cd.inbuf := by simp [Fifo.write]
              rw [e]
              exact (List.getElem?_set_self hc).trans hw.symm
            · exact List.getElem?_set_ne hd
        · refine Or.inr (Or.inl ⟨_, _, rfl, ?_, by simp⟩)
          rw [sum_set used' _ (hl ▸ hc)]
          omega
    | mark input' final' used' c =>
      rw [hu] at hs hg
      simp only [Threads.giving, Option.some.injEq, Prod.mk.injEq] at hg
      obtain ⟨rfl, rfl, rfl, rfl⟩ := hg
      simp only at hs
      split at hs
      · cases hs
      · rename_i w hw
        have hc := lt_of_get hw
        cases hs
        refine Or.inr (Or.inr ⟨?_, ?_⟩)
        · have hp : ¬ 3 * c + 2 = 3 * s.workers.length := by omega
          rw [if_neg hut, if_neg hp]
          simp only [Threads.giving, Nat.mul_add]
        · intro d _ hd
          by_cases e : c = d
          · subst e
            have hn : ¬ (used'.getD c 0 ≥ input'.length ∧ final' = true) := by omega
            rw [if_neg hn]
            exact (List.getElem?_set_self hc).trans hw.symm
          · exact List.getElem?_set_ne e
    | _ => rw [hu] at hg; cases hg

variable {input : List (Frame α)} {final : Bool} {used : List Nat} {pos : Nat}

/-- What is known in a call of `process`. -/
theorem giving_facts {es : List (Event α)} (h : Haunted p env z incs x₀ all icaps caps s S B g r es) (hg : giving s.user = some (input, final, used, pos)) :
    used.length = s.workers.length ∧ (∀ c, c < s.workers.length → used.getD c 0 ≤ input.length) ∧
      ∀ (c : Nat) w, s.workers[c]? = some w → used.getD c 0 < input.length → w.cd.inputSize = none ∧ w.pc ≠ .done := by
  have hq : S.user = s.user := h.haunts.user.trans (giving_quiet hg)
  have hin := h.flow.inputs
  rw [hq] at hin
  have key : ∀ used' c, Giving all B g S.workers S.finished input final used' c → used' = used → used.length = s.workers.length ∧ (∀ c, c < s.workers.length → used.getD c 0 ≤ input.length) ∧
      ∀ (c : Nat) w, s.workers[c]? = some w → used.getD c 0 < input.length → w.cd.inputSize = none ∧ w.pc ≠ .done := by
    intro used' c₀ hG e
    subst e
    refine ⟨hG.length.trans h.haunts.length, fun c hc => (hG.count c (by rw [h.haunts.length]; exact hc)).1, ?_⟩
    intro c w hw hlt
    obtain ⟨_, q, hW⟩ := h.haunts.ghost c w hw
    have hp := h.flow.phase c _ hW
    have hgc := (hG.count c (lt_of_get hW)).2
    have hle := hG.part.length_le
    rw [List.length_append] at hle
    have hN : (job p env z incs x₀ all c).N = all.length := List.length_map ..
    have hsz : w.cd.inputSize = none := by
      rcases hp.1.size with e | ⟨_, e⟩
      · exact e
      · rw [hN] at e
        omega
    refine ⟨hsz, ?_⟩
    intro hd
    have hp2 := hp.2
    have hpc : (ghost w q).pc = .done := by show flat w.pc = _; rw [hd]; rfl
    rw [hpc] at hp2
    have h1 := hp2.drain.size
    have h2 : (ghost w q).cd.inputSize = none := hsz
    rw [h1] at h2
    cases h2
  cases hu : s.user with
  | consume i f u c =>
    rw [hu] at hg hin
    simp only [giving, Option.some.injEq, Prod.mk.injEq] at hg
    obtain ⟨rfl, rfl, rfl, rfl⟩ := hg
    exact key _ c hin rfl
  | write i f u c n =>
    rw [hu] at hg hin
    simp only [giving, Option.some.injEq, Prod.mk.injEq] at hg
    obtain ⟨rfl, rfl, rfl, rfl⟩ := hg
    exact key _ c hin.1 rfl
  | mark i f u c =>
    rw [hu] at hg hin
    simp only [giving, Option.some.injEq, Prod.mk.injEq] at hg
    obtain ⟨rfl, rfl, rfl, rfl⟩ := hg
    exact key _ c hin rfl
  | _ => rw [hu] at hg; cases hg

/-- A thread takes no input back, and has less to do after a turn of its own if it has a window of it. -/
theorem fed_turn (hJ : AllOk p env z incs x₀ all) (hz : z.pitchScale = 1) (hsep : (p.channelsTogether && decide (p.channels ≥ 2)) = false) {e : Event α} {es : List (Event α)}
    (hroom : ∀ c, c < s.workers.length → (job p env z incs x₀ all c).out.length + z.window ≤ caps c) (h : Haunted p env z incs x₀ all icaps caps s S B g r (e :: es))
    (hs : s.step p env z incs e = some s') : ∃ S' B' g' r', Haunted p env z incs x₀ all icaps caps s' S' B' g' r' es ∧ ∀ (c : Nat) w, s.workers[c]? = some w → w.pc ≠ .done → turns c [e] = 1 →
      ∃ w', s'.workers[c]? = some w' ∧ w'.cd.inbuf.data.length ≤ w.cd.inbuf.data.length ∧ (z.window ≤ w.cd.inbuf.data.length → effort z w' + 1 ≤ effort z w) := by
  obtain ⟨S', B', g', r', k1, k2⟩ := haunted_turn hJ hz hsep hroom h hs
  refine ⟨S', B', g', r', k1, ?_⟩
  intro c w hw hpc ht
  obtain ⟨_, q, hW⟩ := h.haunts.ghost c w hw
  have hl : c < s'.workers.length := by rw [length_turn hs]; exact lt_of_get hw
  have hw' := List.getElem?_eq_getElem hl
  generalize s'.workers[c] = w' at hw'
  obtain ⟨_, q', hW'⟩ := k1.haunts.ghost c w' hw'
  refine ⟨w', hw', ?_⟩
  rcases k2 with ⟨k2, k3⟩ | k2
  · subst k2
    rw [hW] at hW'
    injection hW' with hW'
    have e1 : w'.cd.inbuf = w.cd.inbuf := (congrArg (fun v => v.cd.inbuf) hW').symm
    have e3 : turnsLeft z (ghost w' w'.cd.outbuf) = turnsLeft z (ghost w w.cd.outbuf) := by
      rw [← turns_ghost z w' q', ← hW', turns_ghost z w q]
    refine ⟨by rw [e1], fun _ => ?_⟩
    unfold effort
    rw [e3]
    obtain ⟨v, h1, h2⟩ := k3 c w hw ht
    rw [hw'] at h1
    cases h1
    omega
  · have hd : e = .thread c := by
      cases e with
      | thread d =>
        by_cases hd : d = c
        · rw [hd]
        · simp [turns, hd] at ht
      | _ => simp [turns] at ht
    subst hd
    unfold Sys.step at k2
    simp only [hW, Option.bind_some] at k2
    obtain ⟨v', hv', k2⟩ := Option.map_eq_some_iff.mp k2
    cases k2
    have hv : v' = ghost w' q' := by
      have := (List.getElem?_set_self (lt_of_get hW)).symm.trans hW'
      injection this
    subst hv
    have hm := (step_mono (hJ c) (h.flow.phase c _ hW) hv').space
    have c1 := (h.slim c _ hW).cap
    have c2 := (k1.slim c _ hW').cap
    have f1 := (h.flow.phase c _ hW).1.fits
    have f2 := (k1.flow.phase c _ hW').1.fits
    unfold Fifo.writeSpace at hm
    rw [c1] at hm f1
    rw [c2] at hm f2
    refine ⟨by change (ghost w' q').cd.inbuf.data.length ≤ (ghost w q).cd.inbuf.data.length; omega, fun hf => ?_⟩
    have i1 : (ghost w q).pc ≠ .done := fun e => hpc (flat_done.mp e)
    have := step_less (hJ c) (h.flow.phase c _ hW) (h.slim c _ hW).sound (Or.inr hf) i1 hv'
    change turnsLeft z _ < turnsLeft z _ at this
    rw [turns_ghost, turns_ghost z w q] at this
    have := extra_le w'.pc
    unfold effort
    omega

/-- While nothing is taken of the block, threads use up what they have. -/
theorem starve (hJ : AllOk p env z incs x₀ all) (hz : z.pitchScale = 1) (hsep : (p.channelsTogether && decide (p.channels ≥ 2)) = false) (rest es : List (Event α)) :
    ∀ {s s' S : Sys α σ ρ} {B : List (Frame α)} {g : Nat → Nat} {r : Nat → List α} {used : List Nat} {pos : Nat},
    (∀ c, c < s.workers.length → (job p env z incs x₀ all c).out.length + z.window ≤ caps c) → Haunted p env z incs x₀ all icaps caps s S B g r (es ++ rest) → Placed s →
    giving s.user = some (input, final, used, pos) → s.run p env z incs es = some s' →
    Returns p env z incs s es ∨ ∃ S' B' g' r' used' pos', Haunted p env z incs x₀ all icaps caps s' S' B' g' r' rest ∧ Placed s' ∧ giving s'.user = some (input, final, used', pos') ∧
      (used.sum < used'.sum ∨ (used' = used ∧ ∀ (c : Nat) w, s.workers[c]? = some w → used.getD c 0 < input.length → ∃ w', s'.workers[c]? = some w' ∧
        w'.cd.inbuf.data.length ≤ w.cd.inbuf.data.length ∧ (z.window ≤ w'.cd.inbuf.data.length → effort z w' + turns c es ≤ effort z w))) := by
  induction es with
  | nil =>
    intro s s' S B g r used pos _ h hpl hg hs
    unfold Sys.run at hs
    cases hs
    exact Or.inr ⟨S, B, g, r, used, pos, h, hpl, hg, Or.inr ⟨rfl, fun c w hw _ => ⟨w, hw, Nat.le_refl _, fun _ => Nat.le_refl _⟩⟩⟩
  | cons e es ih =>
    intro s s' S B g r used pos hroom h hpl hg hs
    unfold Sys.run at hs
    obtain ⟨t, ht, hs⟩ := Option.bind_eq_some_iff.mp hs
    obtain ⟨S₁, B₁, g₁, r₁, k1, k2⟩ := fed_turn hJ hz hsep hroom h ht
    obtain ⟨f1, f2, f3⟩ := giving_facts h hg
    have hpl' := placed_turn hpl ht
    have hroom' : ∀ c, c < t.workers.length → (job p env z incs x₀ all c).out.length + z.window ≤ caps c := by rw [length_turn ht]; exact hroom
    rcases giving_turn hg f1 hpl ht with hi | ⟨used₁, pos₁, hg₁, hlt, _⟩ | hv
    · exact Or.inl ((Returns.now hi).cons ht)
    · rcases ih hroom' k1 hpl' hg₁ hs with hr | ⟨S₂, B₂, g₂, r₂, used₂, pos₂, a1, a2, a3, a4⟩
      · exact Or.inl (hr.cons ht)
      · refine Or.inr ⟨S₂, B₂, g₂, r₂, used₂, pos₂, a1, a2, a3, Or.inl ?_⟩
        rcases a4 with a4 | ⟨a4, _⟩
        · omega
        · rw [a4]; exact hlt
    · rcases ih hroom' k1 hpl' hv.giving hs with hr | ⟨S₂, B₂, g₂, r₂, used₂, pos₂, a1, a2, a3, a4⟩
      · exact Or.inl (hr.cons ht)
      · refine Or.inr ⟨S₂, B₂, g₂, r₂, used₂, pos₂, a1, a2, a3, ?_⟩
        rcases a4 with a4 | ⟨a4, a5⟩
        · exact Or.inl a4
        · refine Or.inr ⟨a4, ?_⟩
          intro c w hw hlt
          rw [turns_cons]
          rcases turns_one c e with hc | hc
          · obtain ⟨w', b1, b2, b3⟩ := a5 c w ((hv.same c hc hlt).trans hw) hlt
            exact ⟨w', b1, b2, fun hf => by have := b3 hf; omega⟩
          · obtain ⟨w₁, c1, c2, c3⟩ := k2 c w hw (f3 c w hw hlt).2 hc
            obtain ⟨w', b1, b2, b3⟩ := a5 c w₁ c1 hlt
            refine ⟨w', b1, Nat.le_trans b2 c2, fun hf => ?_⟩
            have := b3 hf
            have := c3 (by omega)
            omega

/-- How many turns of its own the user needs to have something taken of channel `c`, or to return if `c` is none. -/
def wait (L c : Nat) : User α → Nat
  | .consume _ _ _ d => if d ≤ c then 3 * (c - d) + 2 else 3 * (L - d) + 3 * c + 3
  | .write _ _ _ d n => if d < c then 3 * (c - d) + 1 else if d = c ∧ 0 < n then 1 else 3 * (L - d) + 3 * c + 2
  | .mark _ _ _ d => if d < c then 3 * (c - d) else 3 * (L - d) + 3 * c + 1
  | _ => 0

/-- What there is to wait for. -/
def Awaits (s : Sys α σ ρ) (input : List (Frame α)) (used : List Nat) (c : Nat) : Prop :=
  (used.getD c 0 < input.length ∧ ∃ w, s.workers[c]? = some w ∧ 0 < w.cd.inbuf.writeSpace) ∨ (c = s.workers.length ∧ ∀ n ∈ used, input.length ≤ n)

theorem wait_le {c : Nat} (hpl : Placed s) (hc : c ≤ s.workers.length) : wait s.workers.length c s.user ≤ 3 * s.workers.length + 2 := by
  unfold Placed at hpl
  unfold wait
  cases hu : s.user with
  | consume i f u d => rw [hu] at hpl; simp only at hpl ⊢; split <;> omega
  | write i f u d n => rw [hu] at hpl; simp only at hpl ⊢; split <;> [skip; split] <;> omega
  | mark i f u d => rw [hu] at hpl; simp only at hpl ⊢; split <;> omega
  | _ => exact Nat.zero_le _

theorem wait_turn {e : Event α} {c : Nat} (hg : giving s.user = some (input, final, used, pos)) (hl : used.length = s.workers.length) (hpl : Placed s) (hs : s.step p env z incs e = some s')
    (hv : Vain s s' e input final used pos) (ha : Awaits s input used c) : wait s.workers.length c s'.user + userTurns [e] ≤ wait s.workers.length c s.user := by
  cases e with
  | call q =>
    unfold Sys.step at hs
    simp only at hs
    split at hs
    · rename_i hu; rw [hu] at hg; cases hg
    · cases hs
  | thread d =>
    unfold Sys.step at hs
    simp only at hs
    obtain ⟨v, _, hs⟩ := Option.bind_eq_some_iff.mp hs
    obtain ⟨v', _, hs⟩ := Option.map_eq_some_iff.mp hs
    cases hs
    simp [userTurns]
  | user =>
    have hut : userTurns [Event.user (α := α)] = 1 := by simp [userTurns]
    rw [hut]
    have hgv := hv.giving
    unfold Sys.step Sys.userStep at hs
    unfold Placed at hpl
    simp only at hs
    have hcl : c ≤ s.workers.length := by
      rcases ha with ⟨_, w, hw, _⟩ | ⟨e, _⟩
      · exact Nat.le_of_lt (lt_of_get hw)
      · exact Nat.le_of_eq e
    cases hu : s.user with
    | consume i f u d =>
      rw [hu] at hs hg hpl
      simp only [giving, Option.some.injEq, Prod.mk.injEq] at hg
      obtain ⟨rfl, rfl, rfl, rfl⟩ := hg
      simp only at hs hpl
      split at hs
      · rename_i hn
        rw [List.getElem?_eq_none_iff] at hn
        have hd : d = s.workers.length := Nat.le_antisymm hpl hn
        split at hs
        · cases hs; cases hgv
        · rename_i hall
          cases hs
          rcases ha with ⟨_, w, hw, _⟩ | ⟨_, hall'⟩
          · have := lt_of_get hw
            unfold wait
            simp only [Nat.zero_le, if_true, if_neg (show ¬ d ≤ c by omega)]
            omega
          · exact absurd (List.all_eq_true.mpr fun n hn => by simpa using hall' n hn) hall
      · rename_i w hw
        cases hs
        have hd := lt_of_get hw
        unfold wait
        simp only
        by_cases h1 : d < c
        · rw [if_pos h1, if_pos (by omega)]
        · by_cases h2 : d = c
          · subst h2
            have hn : 0 < w.cd.inbuf.writeSpace := by
              rcases ha with ⟨_, w', hw', h3⟩ | ⟨e, _⟩
              · rw [hw] at hw'; cases hw'; exact h3
              · omega
            simp only [Nat.lt_irrefl, if_false, hn, and_self, if_true, Nat.le_refl]
            omega
          · rw [if_neg h1, if_neg (fun e => h2 e.1), if_neg (by omega)]
    | write i f u d n =>
      rw [hu] at hs hg hpl
      simp only [giving, Option.some.injEq, Prod.mk.injEq] at hg
      obtain ⟨rfl, rfl, rfl, rfl⟩ := hg
      simp only at hs hpl
      split at hs
      · cases hs
      · rename_i w hw
        cases hs
        have hd := lt_of_get hw
        unfold wait
        simp only
        by_cases h1 : d < c
        · rw [if_pos h1, if_pos h1]
        · rw [if_neg h1, if_neg h1]
          by_cases h2 : d = c ∧ 0 < n
          · exfalso
            obtain ⟨rfl, h2⟩ := h2
            have hlt : u.getD d 0 < i.length := by
              rcases ha with ⟨h3, _⟩ | ⟨e, _⟩
              · exact h3
              · omega
            simp only [giving, Option.some.injEq, Prod.mk.injEq] at hgv
            have hsum := sum_set u (min n (i.length - u.getD d 0)) (c := d) (by omega)
            rw [hgv.2.2.1] at hsum
            omega
          · rw [if_neg h2]
    | mark i f u d =>
      rw [hu] at hs hg hpl
      simp only at hs hpl
      split at hs
      · cases hs
      · cases hs
        unfold wait
        simp only
        by_cases h1 : d < c
        · rw [if_pos h1, if_pos (by omega)]
          omega
        · rw [if_neg h1, if_neg (by omega)]
          omega
    | _ => rw [hu] at hg; cases hg

/-- With enough turns of the user something is taken of the block, or the call returns. -/
theorem serve (hJ : AllOk p env z incs x₀ all) (hz : z.pitchScale = 1) (hsep : (p.channelsTogether && decide (p.channels ≥ 2)) = false) (rest es : List (Event α)) {c : Nat} :
    ∀ {s s' S : Sys α σ ρ} {B : List (Frame α)} {g : Nat → Nat} {r : Nat → List α} {used : List Nat} {pos : Nat},
    (∀ c, c < s.workers.length → (job p env z incs x₀ all c).out.length + z.window ≤ caps c) → Haunted p env z incs x₀ all icaps caps s S B g r (es ++ rest) → Placed s →
    giving s.user = some (input, final, used, pos) → s.run p env z incs es = some s' → Awaits s input used c → wait s.workers.length c s.user ≤ userTurns es →
    Returns p env z incs s es ∨ ∃ S' B' g' r' used' pos', Haunted p env z incs x₀ all icaps caps s' S' B' g' r' rest ∧ Placed s' ∧ giving s'.user = some (input, final, used', pos') ∧
      used.sum < used'.sum := by
  induction es with
  | nil =>
    intro s s' S B g r used pos _ h hpl hg hs _ hw
    exfalso
    cases hu : s.user with
    | consume i f u d => rw [hu] at hw; unfold wait at hw; simp only [userTurns, List.countP_nil] at hw; split at hw <;> omega
    | write i f u d n => rw [hu] at hw; unfold wait at hw; simp only [userTurns, List.countP_nil] at hw; split at hw <;> [skip; split at hw] <;> omega
    | mark i f u d => rw [hu] at hw; unfold wait at hw; simp only [userTurns, List.countP_nil] at hw; split at hw <;> omega
    | _ => rw [hu] at hg; cases hg
  | cons e es ih =>
    intro s s' S B g r used pos hroom h hpl hg hs ha hw
    unfold Sys.run at hs
    obtain ⟨t, ht, hs⟩ := Option.bind_eq_some_iff.mp hs
    obtain ⟨S₁, B₁, g₁, r₁, k1, k2⟩ := fed_turn hJ hz hsep hroom h ht
    obtain ⟨f1, f2, f3⟩ := giving_facts h hg
    have hpl' := placed_turn hpl ht
    have hroom' : ∀ c, c < t.workers.length → (job p env z incs x₀ all c).out.length + z.window ≤ caps c := by rw [length_turn ht]; exact hroom
    rcases giving_turn hg f1 hpl ht with hi | ⟨used₁, pos₁, hg₁, hlt, _⟩ | hv
    · exact Or.inl ((Returns.now hi).cons ht)
    · rcases starve hJ hz hsep rest es hroom' k1 hpl' hg₁ hs with hr | ⟨S₂, B₂, g₂, r₂, used₂, pos₂, a1, a2, a3, a4⟩
      · exact Or.inl (hr.cons ht)
      · refine Or.inr ⟨S₂, B₂, g₂, r₂, used₂, pos₂, a1, a2, a3, ?_⟩
        rcases a4 with a4 | ⟨a4, _⟩
        · omega
        · rw [a4]; exact hlt
    · have hwt := wait_turn hg f1 hpl ht hv ha
      have ha' : Awaits t input used c := by
        rcases ha with ⟨h1, w, h2, h3⟩ | ⟨h1, h2⟩
        · refine Or.inl ⟨h1, ?_⟩
          rcases turns_one c e with hc | hc
          · exact ⟨w, (hv.same c hc h1).trans h2, h3⟩
          · obtain ⟨w₁, c1, c2, _⟩ := k2 c w h2 (f3 c w h2 h1).2 hc
            refine ⟨w₁, c1, ?_⟩
            obtain ⟨_, q, hW⟩ := h.haunts.ghost c w h2
            obtain ⟨_, q', hW'⟩ := k1.haunts.ghost c w₁ c1
            have d1 : w.cd.inbuf.cap = _ := (h.slim c _ hW).cap
            have d2 : w₁.cd.inbuf.cap = _ := (k1.slim c _ hW').cap
            unfold Fifo.writeSpace at h3 ⊢
            omega
        · exact Or.inr ⟨by rw [length_turn ht]; exact h1, h2⟩
      rw [userTurns_cons] at hw
      rcases ih hroom' k1 hpl' hv.giving hs ha' (by rw [length_turn ht]; omega) with hr | hr
      · exact Or.inl (hr.cons ht)
      · exact Or.inr hr

/-- Turns enough for everyone: so many of each thread and of the user. -/
structure Fair (z : Sizes) (icaps : Nat → Nat) (L : Nat) (es : List (Event α)) : Prop where
  threads : ∀ c, c < L → 96 * (icaps c + z.window + 2) ≤ turns c es
  user : 3 * L + 2 ≤ userTurns es

/-- In two rounds something is taken of the block, or the call returns. -/
theorem round (hJ : AllOk p env z incs x₀ all) (hz : z.pitchScale = 1) (hsep : (p.channelsTogether && decide (p.channels ≥ 2)) = false) (rest : List (Event α)) {es₁ es₂ : List (Event α)}
    (hroom : ∀ c, c < s.workers.length → (job p env z incs x₀ all c).out.length + z.window ≤ caps c) (h : Haunted p env z incs x₀ all icaps caps s S B g r (es₁ ++ (es₂ ++ rest))) (hpl : Placed s)
    (hg : giving s.user = some (input, final, used, pos)) (hs : s.run p env z incs (es₁ ++ es₂) = some s') (h1 : Fair z icaps s.workers.length es₁) (h2 : Fair z icaps s.workers.length es₂) :
    Returns p env z incs s (es₁ ++ es₂) ∨ ∃ S' B' g' r' used' pos', Haunted p env z incs x₀ all icaps caps s' S' B' g' r' rest ∧ Placed s' ∧ giving s'.user = some (input, final, used', pos') ∧
      used.sum < used'.sum := by
  rw [run_append] at hs
  obtain ⟨t, ht, hs⟩ := Option.bind_eq_some_iff.mp hs
  have hlen := (placed_run es₁ hpl ht).2
  have hroom' : ∀ c, c < t.workers.length → (job p env z incs x₀ all c).out.length + z.window ≤ caps c := by rw [hlen]; exact hroom
  rcases starve hJ hz hsep (es₂ ++ rest) es₁ hroom h hpl hg ht with hr | ⟨S₁, B₁, g₁, r₁, used₁, pos₁, a1, a2, a3, a4⟩
  · exact Or.inl hr.left
  · rcases a4 with a4 | ⟨rfl, a4⟩
    · rcases starve hJ hz hsep rest es₂ hroom' a1 a2 a3 hs with hr | ⟨S₂, B₂, g₂, r₂, used₂, pos₂, b1, b2, b3, b4⟩
      · exact Or.inl (hr.append ht)
      · refine Or.inr ⟨S₂, B₂, g₂, r₂, used₂, pos₂, b1, b2, b3, ?_⟩
        rcases b4 with b4 | ⟨b4, _⟩
        · omega
        · rw [b4]; exact a4
    · obtain ⟨f1, f2, f3⟩ := giving_facts h hg
      have ha : ∃ c, c ≤ t.workers.length ∧ Awaits t input used₁ c := by
        by_cases hall : ∀ n ∈ used₁, input.length ≤ n
        · exact ⟨t.workers.length, Nat.le_refl _, Or.inr ⟨rfl, hall⟩⟩
        · push Not at hall
          obtain ⟨n, hn, hlt⟩ := hall
          obtain ⟨c, hc, rfl⟩ := List.getElem_of_mem hn
          have hlt' : used₁.getD c 0 < input.length := by
            rw [List.getD_eq_getElem?_getD, List.getElem?_eq_getElem hc]
            exact hlt
          have hc' : c < s.workers.length := by rw [← f1]; exact hc
          have hw := List.getElem?_eq_getElem hc'
          obtain ⟨w', c1, c2, c3⟩ := a4 c _ hw hlt'
          refine ⟨c, by rw [hlen]; exact Nat.le_of_lt hc', Or.inl ⟨hlt', w', c1, ?_⟩⟩
          obtain ⟨_, q, hW⟩ := h.haunts.ghost c _ hw
          obtain ⟨_, q', hW'⟩ := a1.haunts.ghost c w' c1
          have hb := turns_bound (h.flow.phase c _ hW) (h.slim c _ hW)
          change turnsLeft z _ < 32 * (_ + z.window + 2) at hb
          rw [turns_ghost] at hb
          have hx := extra_le (s.workers[c]).pc
          have ht1 := h1.threads c hc'
          have hcap : z.window ≤ w'.cd.inbuf.cap := (a1.flow.phase c _ hW').1.cap
          have hnot : ¬ z.window ≤ w'.cd.inbuf.data.length := by
            intro hf
            have := c3 hf
            unfold effort at this
            omega
          unfold Fifo.writeSpace
          omega
      obtain ⟨c, hc, ha⟩ := ha
      rcases serve hJ hz hsep rest es₂ hroom' a1 a2 a3 hs ha (Nat.le_trans (wait_le a2 hc) (by rw [hlen]; exact h2.user)) with hr | hr
      · exact Or.inl (hr.append ht)
      · exact Or.inr hr

/-- In twice as many rounds as there are samples to be taken, and two, the call returns. -/
theorem rounds (hJ : AllOk p env z incs x₀ all) (hz : z.pitchScale = 1) (hsep : (p.channelsTogether && decide (p.channels ≥ 2)) = false) (n : Nat) :
    ∀ {s s' S : Sys α σ ρ} {B : List (Frame α)} {g : Nat → Nat} {r : Nat → List α} {used : List Nat} {pos : Nat} (ess : List (List (Event α))),
    (∀ c, c < s.workers.length → (job p env z incs x₀ all c).out.length + z.window ≤ caps c) → Haunted p env z incs x₀ all icaps caps s S B g r ess.flatten → Placed s →
    giving s.user = some (input, final, used, pos) → s.run p env z incs ess.flatten = some s' → (∀ es ∈ ess, Fair z icaps s.workers.length es) →
    s.workers.length * input.length ≤ used.sum + n → 2 * (n + 1) ≤ ess.length → Returns p env z incs s ess.flatten := by
  induction n with
  | zero =>
    intro s s' S B g r used pos ess hroom h hpl hg hs hf hn hlen
    match ess, hlen with
    | es₁ :: es₂ :: ess, _ =>
      simp only [List.flatten_cons] at h hs ⊢
      rw [← List.append_assoc] at hs ⊢
      rw [run_append] at hs
      obtain ⟨t, ht, hs⟩ := Option.bind_eq_some_iff.mp hs
      rcases round hJ hz hsep ess.flatten hroom h hpl hg ht (hf _ (by simp)) (hf _ (by simp)) with hr | ⟨S', B', g', r', used', pos', a1, a2, a3, a4⟩
      · exact hr.left
      · exfalso
        obtain ⟨f1, f2, _⟩ := giving_facts a1 a3
        have hsum : used'.sum ≤ used'.length * input.length := by
          have := List.sum_le_card_nsmul used' input.length (fun x hx => by
            obtain ⟨c, hc, rfl⟩ := List.getElem_of_mem hx
            have := f2 c (by rw [← f1]; exact hc)
            rw [List.getD_eq_getElem?_getD, List.getElem?_eq_getElem hc] at this
            exact this)
          simpa using this
        rw [f1, (placed_run (es₁ ++ es₂) hpl ht).2] at hsum
        omega
  | succ n ih =>
    intro s s' S B g r used pos ess hroom h hpl hg hs hf hn hlen
    match ess, hlen with
    | es₁ :: es₂ :: ess, hlen =>
      simp only [List.flatten_cons] at h hs ⊢
      rw [← List.append_assoc] at hs ⊢
      rw [run_append] at hs
      obtain ⟨t, ht, hs⟩ := Option.bind_eq_some_iff.mp hs
      have hl := (placed_run (es₁ ++ es₂) hpl ht).2
      rcases round hJ hz hsep ess.flatten hroom h hpl hg ht (hf _ (by simp)) (hf _ (by simp)) with hr | ⟨S', B', g', r', used', pos', a1, a2, a3, a4⟩
      · exact hr.left
      · refine Returns.append ht (ih ess (by rw [hl]; exact hroom) a1 a2 a3 hs ?_ ?_ ?_)
        · intro es hes
          rw [hl]
          exact hf es (by simp [hes])
        · rw [hl]; omega
        · simp only [List.length_cons] at hlen
          omega

/-- A turn of a thread or of the user in a call. -/
def isTurn (L : Nat) : Event α → Bool
  | .call _ => false
  | .user => true
  | .thread c => decide (c < L)

/-- The turns can be taken, until the call returns. -/
theorem goes_on (hJ : AllOk p env z incs x₀ all) (hz : z.pitchScale = 1) (hsep : (p.channelsTogether && decide (p.channels ≥ 2)) = false) (es : List (Event α)) :
    ∀ {s S : Sys α σ ρ} {B : List (Frame α)} {g : Nat → Nat} {r : Nat → List α}, (∀ c, c < s.workers.length → (job p env z incs x₀ all c).out.length + z.window ≤ caps c) →
    Haunted p env z incs x₀ all icaps caps s S B g r es → Placed s → (∀ e ∈ es, isTurn s.workers.length e = true) →
    Returns p env z incs s es ∨ ∃ s', s.run p env z incs es = some s' := by
  induction es with
  | nil => intro s S B g r _ _ _ _; exact Or.inr ⟨s, rfl⟩
  | cons e es ih =>
    intro s S B g r hroom h hpl ht
    by_cases hu : s.user = .idle
    · exact Or.inl (Returns.now hu)
    · have hsome : ∃ s₁, s.step p env z incs e = some s₁ := by
        cases e with
        | call q => exact absurd (ht _ (List.mem_cons_self ..)) (by simp [isTurn])
        | user =>
          exact Option.isSome_iff_exists.mp (user_some hpl (fun u e1 e2 => hu (e1.trans e2)))
        | thread c =>
          have hc : c < s.workers.length := by simpa [isTurn] using ht _ (List.mem_cons_self ..)
          have hw := List.getElem?_eq_getElem hc
          obtain ⟨hsol, q, hW⟩ := h.haunts.ghost c _ hw
          obtain ⟨w', e, _⟩ := ghost_step (hJ c) hsol (h.flow.phase c _ hW) (h.settled c _ hW) (hroom c hc)
          change Worker.step p env z incs _ = _ at e
          refine ⟨{ s with workers := s.workers.set c w' }, ?_⟩
          unfold Sys.step
          simp only [hw, Option.bind_some, e, Option.map_some]
      obtain ⟨s₁, hs₁⟩ := hsome
      obtain ⟨S', B', g', r', k1, _⟩ := haunted_turn hJ hz hsep hroom h hs₁
      have hl := length_turn hs₁
      rcases ih (by rw [hl]; exact hroom) k1 (placed_turn hpl hs₁) (fun e he => by rw [hl]; exact ht e (List.mem_cons_of_mem _ he)) with hr | ⟨s', hs'⟩
      · exact Or.inl (hr.cons hs₁)
      · refine Or.inr ⟨s', ?_⟩
        unfold Sys.run
        rw [hs₁]
        exact hs'

omit [Zero α] [Add α] [Sub α] in
theorem given_turns {L : Nat} (ts : List (Event α)) (ht : ∀ e ∈ ts, isTurn L e = true) : given ts = [] ∧ ends ts = false := by
  induction ts with
  | nil => exact ⟨rfl, rfl⟩
  | cons e ts ih =>
    have := ih fun e he => ht e (List.mem_cons_of_mem _ he)
    cases e with
    | call q => exact absurd (ht _ (List.mem_cons_self ..)) (by simp [isTurn])
    | _ => exact this

omit [Zero α] [Add α] [Sub α] in
theorem given_append {L : Nat} (es ts : List (Event α)) (ht : ∀ e ∈ ts, isTurn L e = true) : given (es ++ ts) = given es ∧ ends (es ++ ts) = ends es := by
  obtain ⟨h1, h2⟩ := given_turns ts ht
  induction es with
  | nil => exact ⟨h1, h2⟩
  | cons e es ih =>
    obtain ⟨i1, i2⟩ := ih
    cases e with
    | call q =>
      cases q with
      | process input final =>
        simp only [List.cons_append, given, ends, i1, i2, and_self]
      | _ => exact ⟨i1, i2⟩
    | _ => exact ⟨i1, i2⟩

end

end Verif.R2.Threads
