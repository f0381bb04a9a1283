import Verif.R2ThreadsReturn
import Verif.R2ThreadsProps
/-!
# The faster engine with threads, whatever the user does: nothing goes wrong (C109), every thread comes to its end (C112), `process` returns (C113)
-/
namespace Verif.R2.Threads
open Verif.R2

variable {α σ ρ κ : Type}

section
variable [Zero α] [Add α] [Sub α] {p : Params} {env : Env α σ ρ κ}

/-- Turns of a stretcher with threads that has been given some of this input, or all of it if it has ended; the user may retrieve whatever they like, also while a buffer is being replaced. -/
structure Any (p : Params) (env : Env α σ ρ κ) (t : State α σ ρ κ) (all : List (Frame α)) (es : List (Event α)) (s' : Sys α σ ρ) : Prop where
  given : given es <+: all
  ends : ends es = true → Threads.given es = all
  run : (start t).run p env t.sizes t.outputIncrements es = some s'

/-- Nothing goes wrong, whatever the user does: every thread, and the user if in a call, can take another turn (in particular nothing is asked of the arrays that they do not have). -/
theorem C109_always (hap : Apart p) {s t : State α σ ρ κ} (hs : Prepared p env s t) {all : List (Frame α)} (h : Ordinary p t all.length)
    {es : List (Event α)} {s' : Sys α σ ρ} (hc : Any p env t all es s') :
    (∀ c, c < p.channels → (s'.step p env t.sizes t.outputIncrements (.thread c)).isSome = true) ∧
      ((∀ u, s'.user = u → u ≠ .idle) → (s'.step p env t.sizes t.outputIncrements .user).isSome = true) := by
  obtain ⟨b1, _, b3, _⟩ := flow_begin hs h
  obtain ⟨caps, S, k1, k2⟩ := haunted_begin hs h hc.given hc.ends
  obtain ⟨S', B', g', r', k3⟩ := haunted_run b1 h.pitch hap.sep es k1 k2 hc.run
  obtain ⟨l1, l2⟩ := placed_run es (s := start t) trivial hc.run
  refine ⟨?_, fun hu => user_some l1 hu⟩
  intro c hl
  have hl' : c < s'.workers.length := by rw [l2, b3]; exact hl
  have hw := List.getElem?_eq_getElem hl'
  obtain ⟨hsol, q, hW⟩ := k3.haunts.ghost c _ hw
  obtain ⟨w', e, _⟩ := ghost_step (b1 c) hsol (k3.flow.phase c _ hW) (k3.settled c _ hW) (k1 c (by rw [b3]; exact hl))
  change Worker.step p env t.sizes t.outputIncrements _ = _ at e
  unfold Sys.step
  simp only [hw, Option.bind_some, e, Option.map_some, Option.isSome_some]

/-- **C112.**  Once a final block has been given, every thread comes to its end: whatever else happens and in what order, and whatever is asked for, it is done after so many turns of its own, a number that
depends only on the size of its input buffer and on the window. -/
theorem C112_always (hap : Apart p) {s t : State α σ ρ κ} (hs : Prepared p env s t) {all : List (Frame α)} (h : Ordinary p t all.length)
    {es more : List (Event α)} {s' s'' : Sys α σ ρ} (hc : Any p env t all es s') (hfin : s'.finished = true)
    (hrun : s'.run p env t.sizes t.outputIncrements more = some s'') {c : Nat} {cd₀ : Chan α σ ρ} (h0 : t.chans[c]? = some cd₀)
    (hturns : 96 * (cd₀.inbuf.cap + t.sizes.window + 2) ≤ turns c more) :
    ∃ w, s''.workers[c]? = some w ∧ w.pc = .done ∧ w.cd.outputComplete = true := by
  obtain ⟨b1, _, b3, _⟩ := flow_begin hs h
  obtain ⟨caps, S, k1, k2⟩ := haunted_begin hs h hc.given hc.ends
  obtain ⟨S', B', g', r', k3⟩ := haunted_run b1 h.pitch hap.sep es k1 k2 hc.run
  obtain ⟨_, l2⟩ := placed_run es (s := start t) trivial hc.run
  have hl : c < s'.workers.length := by
    rw [l2]
    rw [List.getElem?_eq_some_iff] at h0
    simpa [start] using h0.1
  have hw := List.getElem?_eq_getElem hl
  obtain ⟨_, q, hW⟩ := k3.haunts.ghost c _ hw
  have hFin : S'.finished = true := k3.haunts.finished.trans hfin
  have hsome : (s'.workers[c]).cd.inputSize.isSome = true := by
    have hin := k3.flow.inputs
    unfold Inputs at hin
    split at hin
    · exact absurd hin.finished (by rw [hFin]; simp)
    · exact absurd hin.1.finished (by rw [hFin]; simp)
    · exact absurd hin.finished (by rw [hFin]; simp)
    · have := hin.marked hFin c _ hW; exact this
  have k4 : Haunted p env t.sizes t.outputIncrements (initial env t) all (fun c => ((t.chans[c]?).map fun cd => cd.inbuf.cap).getD 0) caps s' S' B' g' r' more :=
    ⟨k3.haunts, k3.flow, k3.settled, k3.slim, Or.inl (by rw [hFin]; rfl)⟩
  have k1' : ∀ c, c < s'.workers.length → (job p env t.sizes t.outputIncrements (initial env t) all c).out.length + t.sizes.window ≤ caps c := by rw [l2]; exact k1
  obtain ⟨w, e1, _, e3⟩ := effort_run b1 h.pitch hap.sep more k1' k4 hrun hw hsome
  obtain ⟨S'', B'', g'', r'', k5⟩ := haunted_run b1 h.pitch hap.sep more k1' k4 hrun
  have hd : w.pc = .done := by
    rcases e3 with e3 | e3
    · exact e3
    · have hb := turns_bound (k3.flow.phase c _ hW) (k3.slim c _ hW)
      change turnsLeft t.sizes _ < 32 * (_ + t.sizes.window + 2) at hb
      simp only [h0, Option.map_some, Option.getD_some] at hb
      rw [turns_ghost] at hb
      have hx := extra_le (s'.workers[c]).pc
      unfold effort at e3
      omega
  obtain ⟨_, q', hW'⟩ := k5.haunts.ghost c w e1
  have hp := (k5.flow.phase c _ hW').2
  have hpc : (ghost w q').pc = .done := by show flat w.pc = _; rw [hd]; rfl
  rw [hpc] at hp
  exact ⟨w, e1, hd, hp.complete⟩

/-- **C113.**  A call of `process` returns: if all the threads and the caller get turns, in whatever order.  A round is any number of turns in which every thread has had so many (a number that depends only on the size
of its input buffer and on the window) and the caller three for each channel and two; in two rounds for each sample of each channel, and two, the call returns (and until then every turn can be taken). -/
theorem C113 (hap : Apart p) {s t : State α σ ρ κ} (hs : Prepared p env s t) {all : List (Frame α)} (h : Ordinary p t all.length) {es : List (Event α)} {input : List (Frame α)} {final : Bool}
    {s₁ : Sys α σ ρ} (hc : Any p env t all (es ++ [.call (.process input final)]) s₁) {rounds : List (List (Event α))} (hturn : ∀ r ∈ rounds, ∀ e ∈ r, isTurn p.channels e = true)
    (hfair : ∀ r ∈ rounds, (∀ (c : Nat) cd, t.chans[c]? = some cd → 96 * (cd.inbuf.cap + t.sizes.window + 2) ≤ turns c r) ∧ 3 * p.channels + 2 ≤ userTurns r)
    (hmany : 2 * (p.channels * input.length + 1) ≤ rounds.length) :
    ∃ pre post u, rounds.flatten = pre ++ post ∧ s₁.run p env t.sizes t.outputIncrements pre = some u ∧ u.user = .idle := by
  obtain ⟨b1, _, b3, _⟩ := flow_begin hs h
  have hrun := hc.run
  have hturn' : ∀ e ∈ rounds.flatten, isTurn p.channels e = true := by
    intro e he
    obtain ⟨r, hr, he⟩ := List.mem_flatten.mp he
    exact hturn r hr e he
  obtain ⟨n1, n2⟩ := given_append (es ++ [.call (.process input final)]) rounds.flatten hturn'
  obtain ⟨caps, S, k1, k2⟩ := haunted_begin hs h (es := es ++ [.call (.process input final)] ++ rounds.flatten) (by rw [n1]; exact hc.given) (by rw [n1, n2]; exact hc.ends)
  obtain ⟨S', B', g', r', k3⟩ := haunted_pre b1 h.pitch hap.sep rounds.flatten _ k1 k2 hrun
  obtain ⟨l1, l2⟩ := placed_run _ (s := start t) trivial hrun
  have hl : s₁.workers.length = p.channels := l2.trans b3
  have hlast : s₁.user = .idle ∨ giving s₁.user = some (input, final, List.replicate p.channels 0, 0) := by
    rw [run_append] at hrun
    obtain ⟨v, hv, hrun⟩ := Option.bind_eq_some_iff.mp hrun
    unfold Sys.run at hrun
    obtain ⟨v', hv', hrun⟩ := Option.bind_eq_some_iff.mp hrun
    unfold Sys.run at hrun
    cases hrun
    have hvl : v.workers.length = p.channels := (placed_run es (s := start t) trivial hv).2.trans b3
    unfold Sys.step at hv'
    simp only at hv'
    split at hv'
    · rename_i hu
      cases hv'
      unfold Sys.call
      simp only
      split
      · exact Or.inl hu
      · right
        show giving (User.consume input final (List.replicate v.workers.length 0) 0) = _
        rw [hvl]
        rfl
    · cases hv'
  rcases hlast with hu | hg
  · exact ⟨[], rounds.flatten, s₁, rfl, rfl, hu⟩
  · rcases goes_on b1 h.pitch hap.sep rounds.flatten (by rw [l2]; exact k1) k3 l1 (by rw [hl]; exact hturn') with hr | ⟨s₂, hrest⟩
    · exact hr
    · refine Threads.rounds b1 h.pitch hap.sep (p.channels * input.length) rounds (by rw [l2]; exact k1) k3 l1 hg hrest ?_ (by rw [hl]; exact Nat.le_add_left _ _) hmany
      intro r hr
      obtain ⟨f1, f2⟩ := hfair r hr
      refine ⟨?_, by rw [hl]; exact f2⟩
      intro c hcl
      have hcl' : c < t.chans.length := by
        rw [l2] at hcl
        simpa [start] using hcl
      have := f1 c _ (List.getElem?_eq_getElem hcl')
      simp only [List.getElem?_eq_getElem hcl', Option.map_some, Option.getD_some]
      exact this

end

/-- For instance, the user asks for a hundred samples of each channel while there are none of one of them (they have been told of none), and again when the threads are at their end. -/
example : ∃ (s t : State Int Int Unit Unit) (s' s'' : Sys Int Int Unit), Prepared Ex.two Ex.count s t ∧ Ordinary Ex.two t (Ex.block 60).length ∧
    Any Ex.two Ex.count t (Ex.block 60) (.call (.process (Ex.block 60) true) :: Ex.users 7 ++ Ex.threads 0 60 ++ [.call (.retrieve 100)] ++ Ex.users 5) s' ∧ s'.finished = true ∧
    (start t).heeding Ex.two Ex.count t.sizes t.outputIncrements (.call (.process (Ex.block 60) true) :: Ex.users 7 ++ Ex.threads 0 60 ++ [.call (.retrieve 100)] ++ Ex.users 5) = false ∧
    s'.run Ex.two Ex.count t.sizes t.outputIncrements (Ex.threads 0 200 ++ Ex.threads 1 200) = some s'' ∧ s''.workers.length = 2 := by
  have hrun : (Ex.seen (.call (.process (Ex.block 60) true) :: Ex.users 7 ++ Ex.threads 0 60 ++ [.call (.retrieve 100)] ++ Ex.users 5)).map (fun x =>
      (decide (x.1.mode = .justCreated), ordinaryCheck Ex.two x.2.1 60,
        (start x.2.1).heeding Ex.two Ex.count x.2.1.sizes x.2.1.outputIncrements (.call (.process (Ex.block 60) true) :: Ex.users 7 ++ Ex.threads 0 60 ++ [.call (.retrieve 100)] ++ Ex.users 5),
        x.2.2.finished, (x.2.2.run Ex.two Ex.count x.2.1.sizes x.2.1.outputIncrements (Ex.threads 0 200 ++ Ex.threads 1 200)).map fun s => s.workers.length)) =
      some (true, true, false, true, some 2) := by decide +kernel
  obtain ⟨x, h1, h2⟩ := Option.map_eq_some_iff.mp hrun
  simp only [Prod.mk.injEq, decide_eq_true_eq] at h2
  obtain ⟨m1, m2, m3, m4, m5⟩ := h2
  obtain ⟨s'', n1, n2⟩ := Option.map_eq_some_iff.mp m5
  obtain ⟨p1, p2, p3⟩ := Ex.seen_prepared h1 m1
  exact ⟨x.1, x.2.1, x.2.2, s'', p2, by rw [Ex.block_length]; exact ordinary_of_check m2, ⟨List.prefix_refl _, fun _ => rfl, p3⟩, m4, m3, n1, n2⟩

/-- For instance, a block of a thousand samples, more than there is room for (so that the call has to wait), and rounds in which everyone takes their turns together. -/
example : ∃ (s t : State Int Int Unit Unit) (s₁ : Sys Int Int Unit) (rounds : List (List (Event Int))), Prepared Ex.two Ex.count s t ∧ Ordinary Ex.two t (Ex.block 1000).length ∧
    Any Ex.two Ex.count t (Ex.block 1000) ([] ++ [.call (.process (Ex.block 1000) true)]) s₁ ∧ (∀ cd ∈ t.chans, cd.inbuf.cap < 1000) ∧ (∀ r ∈ rounds, ∀ e ∈ r, isTurn Ex.two.channels e = true) ∧
    (∀ r ∈ rounds, (∀ (c : Nat) cd, t.chans[c]? = some cd → 96 * (cd.inbuf.cap + t.sizes.window + 2) ≤ turns c r) ∧ 3 * Ex.two.channels + 2 ≤ userTurns r) ∧
    2 * (Ex.two.channels * (Ex.block 1000).length + 1) ≤ rounds.length := by
  have hrun : (Ex.seen [.call (.process (Ex.block 1000) true)]).map (fun x =>
      decide (x.1.mode = .justCreated) && ordinaryCheck Ex.two x.2.1 1000 && x.2.1.chans.all (fun cd => decide (cd.inbuf.cap < 1000) && decide (cd.inbuf.cap + x.2.1.sizes.window + 2 ≤ 2000)) &&
        decide (x.2.1.chans.length = 2)) = some true := by decide +kernel
  obtain ⟨x, h1, h2⟩ := Option.map_eq_some_iff.mp hrun
  simp only [Bool.and_eq_true, decide_eq_true_eq, List.all_eq_true] at h2
  obtain ⟨⟨⟨m1, m2⟩, m3⟩, m4⟩ := h2
  obtain ⟨p1, p2, p3⟩ := Ex.seen_prepared h1 m1
  refine ⟨x.1, x.2.1, x.2.2, List.replicate 4002 (List.replicate 192000 (.thread 0) ++ Ex.users 8 ++ List.replicate 192000 (.thread 1)), p2, by rw [Ex.block_length]; exact ordinary_of_check m2,
    ⟨List.prefix_refl _, fun _ => rfl, p3⟩, fun cd hcd => (m3 cd hcd).1, ?_, ?_, ?_⟩
  · intro r hr e he
    rw [List.mem_replicate] at hr
    rw [hr.2] at he
    simp only [Ex.users, List.mem_append, List.mem_replicate] at he
    rcases he with (⟨_, rfl⟩ | ⟨_, rfl⟩) | ⟨_, rfl⟩ <;> decide
  · intro r hr
    rw [List.mem_replicate] at hr
    rw [hr.2]
    refine ⟨?_, ?_⟩
    · intro c cd hcd
      have := (m3 cd (List.mem_of_getElem? hcd)).2
      have hc : c < 2 := by rw [← m4]; exact (List.getElem?_eq_some_iff.mp hcd).1
      have : 192000 ≤ turns c (List.replicate 192000 (.thread 0) ++ Ex.users 8 ++ List.replicate 192000 (.thread 1)) := by
        unfold turns Ex.users
        rw [List.countP_append, List.countP_append, List.countP_replicate, List.countP_replicate, List.countP_replicate]
        rcases Nat.lt_or_ge c 1 with h | h
        · have : c = 0 := by omega
          subst this
          simp
        · have : c = 1 := by omega
          subst this
          simp
      omega
    · unfold userTurns Ex.users
      rw [List.countP_append, List.countP_append, List.countP_replicate, List.countP_replicate, List.countP_replicate]
      decide
  · rw [List.length_replicate, Ex.block_length]
    decide

end Verif.R2.Threads
