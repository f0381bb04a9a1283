import Verif.R2ThreadsAnyProps
/-!
# The faster engine with threads: reading from an output buffer that is being replaced (C109 is false)
-/
namespace Verif.R2.Threads
open Verif.R2

variable {α σ ρ κ : Type}

/-- Nothing is asked for. -/
def unasked : Event α → Bool
  | .call (.process _ _) => true
  | .call _ => false
  | _ => true

section
variable [Zero α] [Add α] [Sub α] {p : Params} {env : Env α σ ρ κ} {z : Sizes} {incs : List Int}
variable {s s' : Sys α σ ρ}

omit [Zero α] in
theorem unasked_turn {e : Event α} (hq : quiet s.user = s.user) (he : unasked e = true) (hs : s.step p env z incs e = some s') : quiet s'.user = s'.user ∧ s'.replies = s.replies := by
  cases e with
  | call q =>
    unfold Sys.step at hs
    simp only at hs
    split at hs
    · cases hs
      unfold Sys.call
      cases q with
      | process input final => simp only; split <;> [exact ⟨hq, rfl⟩; exact ⟨rfl, rfl⟩]
      | _ => cases he
    · cases hs
  | user =>
    unfold Sys.step Sys.userStep at hs
    simp only at hs
    generalize s.user = user at hs hq
    cases user with
    | idle => cases hs
    | consume input final used c => simp only at hs; split at hs <;> [split at hs; skip] <;> cases hs <;> exact ⟨rfl, rfl⟩
    | write input final used c n => simp only at hs; split at hs <;> cases hs; exact ⟨rfl, rfl⟩
    | mark input final used c => simp only at hs; split at hs <;> cases hs; exact ⟨rfl, rfl⟩
    | _ => cases hq
  | thread d =>
    unfold Sys.step at hs
    simp only at hs
    obtain ⟨v, _, hs⟩ := Option.bind_eq_some_iff.mp hs
    obtain ⟨v', _, hs⟩ := Option.map_eq_some_iff.mp hs
    cases hs
    exact ⟨hq, rfl⟩

omit [Zero α] [Add α] [Sub α] in
theorem quiet_calm (hq : quiet s.user = s.user) : s.calm = true := by
  unfold Sys.calm
  cases hu : s.user with
  | read n got c outs place => rw [hu] at hq; cases hq
  | _ => rfl

omit [Zero α] in
theorem unasked_run (es : List (Event α)) : ∀ {s s' : Sys α σ ρ}, quiet s.user = s.user → (∀ e ∈ es, unasked e = true) → s.run p env z incs es = some s' →
    s.calmly p env z incs es = true ∧ s.heeding p env z incs es = true ∧ quiet s'.user = s'.user ∧ s'.replies = s.replies := by
  induction es with
  | nil =>
    intro s s' hq _ hs
    unfold Sys.run at hs
    cases hs
    exact ⟨quiet_calm hq, rfl, hq, rfl⟩
  | cons e es ih =>
    intro s s' hq he hs
    unfold Sys.run at hs
    obtain ⟨t, ht, hs⟩ := Option.bind_eq_some_iff.mp hs
    have he0 := he e (List.mem_cons_self ..)
    obtain ⟨a1, a2⟩ := unasked_turn hq he0 ht
    obtain ⟨b1, b2, b3, b4⟩ := ih a1 (fun e h => he e (List.mem_cons_of_mem _ h)) hs
    have hh : s.heeds e = true := by
      cases e with
      | call q => cases q <;> first | rfl | cases he0
      | _ => rfl
    unfold Sys.calmly Sys.heeding
    rw [ht, quiet_calm hq, hh]
    exact ⟨b1, b2, b3, b4.trans a2⟩

/-- Turns in which nothing is asked for. -/
structure Reached (p : Params) (env : Env α σ ρ κ) (t : State α σ ρ κ) (all : List (Frame α)) (es : List (Event α)) (s : Sys α σ ρ) : Prop where
  unasked : ∀ e ∈ es, unasked e = true
  given : given es <+: all
  ends : ends es = true → Threads.given es = all
  run : (start t).run p env t.sizes t.outputIncrements es = some s

def inCaps (t : State α σ ρ κ) (c : Nat) : Nat := ((t.chans[c]?).map fun cd => cd.inbuf.cap).getD 0

variable {t t₀ : State α σ ρ κ} {all : List (Frame α)} {es : List (Event α)}

theorem Reached.facts (hap : Apart p) (hs : Prepared p env t₀ t) (h : Ordinary p t all.length) (hr : Reached p env t all es s) :
    ∃ B g r, Flow p env t.sizes t.outputIncrements (initial env t) all s B g r ∧ Threads.Fits all s B [] ∧ AllSlim t.sizes (inCaps t) s ∧ s.replies = [] ∧ s.workers.length = p.channels ∧ quiet s.user = s.user := by
  obtain ⟨b1, b2, b3, _⟩ := flow_begin hs h
  obtain ⟨_, _, _, c4⟩ := prologue_clean (hs.ready h.offline).1 hs.start
  obtain ⟨u1, u2, u3, u4⟩ := unasked_run es (s := start t) rfl hr.unasked hr.run
  obtain ⟨B, g, r, f1, f2⟩ := flow_whole hap hs h hr.given hr.ends u1 u2 hr.run
  refine ⟨B, g, r, f1, f2, slim_run b1 h.pitch hap.sep es b2 (Or.inr ⟨hr.given, hr.ends⟩) u1 u2 hr.run ?_, u4, (placed_run es (s := start t) trivial hr.run).2.trans b3, u3⟩
  intro d w hw
  unfold start at hw
  simp only [List.getElem?_map] at hw
  obtain ⟨cd, hcd, e⟩ := Option.map_eq_some_iff.mp hw
  subst e
  refine ⟨?_, ?_, trivial⟩
  · show cd.accumulatorFill ≤ _
    rw [(c4 cd (List.mem_of_getElem? hcd)).1.fill]
    exact Nat.zero_le _
  · simp only [inCaps, hcd, Option.map_some, Option.getD_some]

theorem step_cap {w w' : Worker α σ ρ} (h : ∀ x new, w.pc ≠ .swap x new) (hs : w.step p env z incs = some w') : w'.cd.outbuf.cap = w.cd.outbuf.cap := by
  by_cases hg : ∃ x, w.pc = .grow x
  · obtain ⟨x, hx⟩ := hg
    unfold Worker.step at hs
    rw [hx] at hs
    cases hs
    rfl
  · exact (step_room p env z incs ⟨rfl, fun x e => hg ⟨x, e⟩, h⟩ hs).1

/-- A thread takes turns, until it is at its end or has too little input; or, if we like, until it is about to replace its output buffer. -/
theorem exhaust (hap : Apart p) (hs : Prepared p env t₀ t) (h : Ordinary p t all.length) (stop : Bool) {c : Nat} (n : Nat) : ∀ {es : List (Event α)} {s : Sys α σ ρ} {w : Worker α σ ρ},
    turnsLeft t.sizes w ≤ n → Reached p env t all es s → s.user = .idle → s.workers[c]? = some w →
    ∃ m s' w', Reached p env t all (es ++ List.replicate m (.thread c)) s' ∧ s'.user = .idle ∧ s'.finished = s.finished ∧ s'.workers[c]? = some w' ∧ (∀ d, d ≠ c → s'.workers[d]? = s.workers[d]?) ∧
      w'.cd.inputSize = w.cd.inputSize ∧ w.cd.outbuf.readSpace ≤ w'.cd.outbuf.readSpace ∧ ((stop = true ∧ (∃ x new, w'.pc = .swap x new) ∧ w'.cd.outbuf.cap = w.cd.outbuf.cap) ∨
        ((stop = true → w'.cd.outbuf.cap = w.cd.outbuf.cap) ∧ (w'.pc = .done ∨ ¬ Fed t.sizes w'))) := by
  induction n with
  | zero =>
    intro es s w hn hr hu hw
    obtain ⟨b1, _, _, _⟩ := flow_begin hs h
    obtain ⟨B, g, r, f1, _, f3, _, _, fq⟩ := hr.facts hap hs h
    refine ⟨0, s, w, by simpa using hr, hu, rfl, hw, fun _ _ => rfl, rfl, Nat.le_refl _, Or.inr ⟨fun _ => rfl, ?_⟩⟩
    by_contra hc
    push Not at hc
    obtain ⟨w', h1, _⟩ := flow_thread b1 f1 (quiet_calm fq) hw
    have := step_less (b1 c) (f1.phase c w hw) (f3 c w hw).sound hc.2 hc.1 h1
    change turnsLeft t.sizes _ < turnsLeft t.sizes _ at this
    omega
  | succ n ih =>
    intro es s w hn hr hu hw
    obtain ⟨b1, _, _, _⟩ := flow_begin hs h
    obtain ⟨B, g, r, f1, _, f3, _, f5, fq⟩ := hr.facts hap hs h
    by_cases hc : w.pc = .done ∨ ¬ Fed t.sizes w
    · exact ⟨0, s, w, by simpa using hr, hu, rfl, hw, fun _ _ => rfl, rfl, Nat.le_refl _, Or.inr ⟨fun _ => rfl, hc⟩⟩
    by_cases hsw : stop = true ∧ ∃ x new, w.pc = .swap x new
    · exact ⟨0, s, w, by simpa using hr, hu, rfl, hw, fun _ _ => rfl, rfl, Nat.le_refl _, Or.inl ⟨hsw.1, hsw.2, rfl⟩⟩
    push Not at hc
    obtain ⟨w', h1, _, h3⟩ := flow_thread b1 f1 (quiet_calm fq) hw
    have hless := step_less (b1 c) (f1.phase c w hw) (f3 c w hw).sound hc.2 hc.1 h1
    change turnsLeft t.sizes _ < turnsLeft t.sizes _ at hless
    have hstep : s.step p env t.sizes t.outputIncrements (.thread c) = some { s with workers := s.workers.set c w' } := by
      unfold Sys.step
      simp only [hw, Option.bind_some, h1, Option.map_some]
    have hturn : ∀ e ∈ [Event.thread (α := α) c], isTurn (c + 1) e = true := by
      intro e he
      rw [List.mem_singleton] at he
      subst he
      simp [isTurn]
    obtain ⟨g1, g2⟩ := given_append es [.thread c] hturn
    have hr' : Reached p env t all (es ++ [.thread c]) { s with workers := s.workers.set c w' } := by
      refine ⟨?_, by rw [g1]; exact hr.given, by rw [g1, g2]; exact hr.ends, ?_⟩
      · intro e he
        rw [List.mem_append, List.mem_singleton] at he
        rcases he with he | rfl
        · exact hr.unasked e he
        · rfl
      · rw [run_append, hr.run]
        unfold Sys.run
        simp only [Option.bind_some, hstep]
        rfl
    obtain ⟨m, s'', w'', k1, k2, k3, k4, k5, k6, ko, k7⟩ := ih (s := { s with workers := s.workers.set c w' }) (w := w') (by omega) hr' hu (List.getElem?_set_self (lt_of_get hw))
    have hcap : stop = true → w'.cd.outbuf.cap = w.cd.outbuf.cap := fun e => step_cap (fun x new e' => hsw ⟨e, x, new, e'⟩) h1
    refine ⟨m + 1, s'', w'', ?_, k2, k3, k4, ?_, k6.trans h3.size, Nat.le_trans h3.out ko, ?_⟩
    · rw [List.replicate_succ]
      have : es ++ [Event.thread c] ++ List.replicate m (.thread c) = es ++ (.thread c) :: List.replicate m (.thread c) := by simp
      rw [← this]
      exact k1
    · intro d hd
      rw [k5 d hd]
      exact List.getElem?_set_ne (fun e => hd e.symm)
    · rcases k7 with ⟨a1, a2, a3⟩ | ⟨a1, a2⟩
      · exact Or.inl ⟨a1, a2, a3.trans (hcap a1)⟩
      · exact Or.inr ⟨fun e => (a1 e).trans (hcap e), a2⟩

/-- A channel that has been given a block. -/
def fed (p : Params) (env : Env α σ ρ κ) (c : Nat) (input : List (Frame α)) (final : Bool) (w : Worker α σ ρ) : Worker α σ ρ :=
  { w with cd := { w.cd with
      inbuf := w.cd.inbuf.write (input.map (prepared p env c)), inCount := w.cd.inCount + input.length
      inputSize := if final then some (w.cd.inCount + input.length) else w.cd.inputSize } }

omit [Zero α] in
/-- A call of `process` with room for the block in both channels. -/
theorem process_two {v w : Worker α σ ρ} {input : List (Frame α)} {final : Bool} (hw : s.workers = [v, w]) (hu : s.user = .idle) (hf : s.finished = false)
    (h0 : input.length ≤ v.cd.inbuf.writeSpace) (h1 : input.length ≤ w.cd.inbuf.writeSpace) :
    s.run p env z incs (.call (.process input final) :: List.replicate 7 .user) =
      some { workers := [fed p env 0 input final v, fed p env 1 input final w], user := .idle, finished := final, replies := s.replies } := by
  obtain ⟨workers, user, finished, replies⟩ := s
  simp only at hw hu hf
  subst hw hu hf
  have et : ∀ c, List.take input.length (List.map (prepared p env c) input) = List.map (prepared p env c) input := fun c => List.take_of_length_le (by simp)
  have e0 : min v.cd.inbuf.writeSpace input.length = input.length := Nat.min_eq_right h0
  have e1 : min w.cd.inbuf.writeSpace input.length = input.length := Nat.min_eq_right h1
  cases final with
  | true => simp [Sys.run, Sys.step, Sys.call, Sys.userStep, List.replicate, e0, e1, et, fed]
  | false => simp [Sys.run, Sys.step, Sys.call, Sys.userStep, List.replicate, e0, e1, et, fed]

omit [Zero α] [Add α] [Sub α] in
theorem given_process (es : List (Event α)) (input : List (Frame α)) (final : Bool) (h : Threads.ends es = false) :
    Threads.given (es ++ .call (.process input final) :: List.replicate 7 .user) = Threads.given es ++ input ∧ Threads.ends (es ++ .call (.process input final) :: List.replicate 7 .user) = final := by
  induction es with
  | nil => cases final <;> simp [Threads.given, Threads.ends, List.replicate]
  | cons e es ih =>
    cases e with
    | call q =>
      cases q with
      | process b f =>
        cases f with
        | true => cases h
        | false =>
          obtain ⟨i1, i2⟩ := ih h
          refine ⟨?_, i2⟩
          show b ++ Threads.given (es ++ _) = b ++ Threads.given es ++ input
          rw [i1, List.append_assoc]
      | _ => exact ih h
    | _ => exact ih h

omit [Zero α] in
/-- A call of `available`. -/
theorem available_two {v w : Worker α σ ρ} (hw : s.workers = [v, w]) (hu : s.user = .idle) (hz : z.pitchScale = 1) (h0 : v.cd.outbuf.readSpace ≠ 0) (h1 : w.cd.outbuf.readSpace ≠ 0) :
    s.run p env z incs (.call .available :: List.replicate 5 .user) = some { s with replies := .available (min v.cd.outbuf.readSpace w.cd.outbuf.readSpace : Nat) :: s.replies } ∧
      s.heeding p env z incs (.call .available :: List.replicate 5 .user) = true := by
  obtain ⟨workers, user, finished, replies⟩ := s
  simp only at hw hu
  subst hw hu
  have e : (if w.cd.outbuf.readSpace < v.cd.outbuf.readSpace then w.cd.outbuf.readSpace else v.cd.outbuf.readSpace) = min v.cd.outbuf.readSpace w.cd.outbuf.readSpace := by
    split <;> omega
  have e' : min v.cd.outbuf.readSpace w.cd.outbuf.readSpace ≠ 0 := by omega
  constructor
  · simp [Sys.run, Sys.step, Sys.call, Sys.userStep, List.replicate, e, answer, hz, h0, h1]
  · simp [Sys.heeding, Sys.heeds, Sys.step, Sys.call, Sys.userStep, List.replicate]

omit [Zero α] in
/-- A call of `retrieve` for one sample. -/
theorem retrieve_two {v w : Worker α σ ρ} {a b : α} {la lb : List α} (hw : s.workers = [v, w]) (hu : s.user = .idle) (hsep : (p.channelsTogether && decide (p.channels ≥ 2)) = false)
    (h0 : v.cd.outbuf.data = a :: la) (h1 : w.cd.outbuf.data = b :: lb) (hal : 1 ≤ allowance s.replies) :
    s.run p env z incs (.call (.retrieve 1) :: List.replicate 5 .user) = some { s with
        workers := [{ v with cd := { v.cd with outbuf := v.cd.outbuf.skip 1 } }, { w with cd := { w.cd with outbuf := w.cd.outbuf.skip 1 } }]
        replies := .retrieved 1 [[a], [b]] 1 :: s.replies } ∧
      s.heeding p env z incs (.call (.retrieve 1) :: List.replicate 5 .user) = true := by
  obtain ⟨workers, user, finished, replies⟩ := s
  simp only at hw hu hal
  subst hw hu
  have e0 : ∀ v : Worker α σ ρ, v.bufAt v.old.length = v.cd.outbuf := fun v => by simp [Worker.bufAt]
  have e1 : ∀ (v : Worker α σ ρ) q, v.setBuf v.old.length q = { v with cd := { v.cd with outbuf := q } } := fun v q => by simp [Worker.setBuf]
  have p0 : v.cd.outbuf.peek 1 = [a] := by unfold Fifo.peek; rw [h0]; rfl
  have p1 : w.cd.outbuf.peek 1 = [b] := by unfold Fifo.peek; rw [h1]; rfl
  constructor
  · simp [Sys.run, Sys.step, Sys.call, Sys.userStep, List.replicate, e0, e1, p0, p1]
    intro h2
    simp [h2] at hsep
    omega
  · simp [Sys.heeding, Sys.heeds, Sys.step, Sys.call, Sys.userStep, List.replicate, hal, e0, e1, p0, p1]

omit [Zero α] in
theorem heeding_append (es fs : List (Event α)) : ∀ {s s' : Sys α σ ρ}, s.heeding p env z incs es = true → s.run p env z incs es = some s' → s'.heeding p env z incs fs = true →
    s.heeding p env z incs (es ++ fs) = true := by
  induction es with
  | nil => intro s s' _ h1 h2; unfold Sys.run at h1; cases h1; exact h2
  | cons e es ih =>
    intro s s' h0 h1 h2
    unfold Sys.run at h1
    obtain ⟨t, ht, h1⟩ := Option.bind_eq_some_iff.mp h1
    unfold Sys.heeding at h0
    rw [List.cons_append]
    unfold Sys.heeding
    rw [ht] at h0 ⊢
    simp only [Bool.and_eq_true] at h0 ⊢
    exact ⟨h0.1, ih h0.2 h1 h2⟩

omit [Zero α] in
theorem run_trans {es fs : List (Event α)} {s₁ s₂ s₃ : Sys α σ ρ} (h1 : s₁.run p env z incs es = some s₂) (h2 : s₂.run p env z incs fs = some s₃) : s₁.run p env z incs (es ++ fs) = some s₃ := by
  rw [run_append, h1]
  exact h2

omit [Zero α] in
/-- Reading a sample from the old buffer, and again from the copy. -/
theorem heard_again {v w : Worker α σ ρ} {x : Writing α} {new : Fifo α} {a a' b b' : α} {la lb ln : List α} (hw : s.workers = [v, w]) (hu : s.user = .idle) (hz : z.pitchScale = 1)
    (hsep : (p.channelsTogether && decide (p.channels ≥ 2)) = false) (hpc : v.pc = .swap x new) (h0 : v.cd.outbuf.data = a :: a' :: la) (h1 : w.cd.outbuf.data = b :: b' :: lb)
    (hn : new.data = a :: ln) (hr : s.replies = []) :
    ∃ s', s.run p env z incs ((.call .available :: List.replicate 5 .user) ++ ((.call (.retrieve 1) :: List.replicate 5 .user) ++ ([.thread 0] ++ (.call (.retrieve 1) :: List.replicate 5 .user)))) = some s' ∧
      s.heeding p env z incs ((.call .available :: List.replicate 5 .user) ++ ((.call (.retrieve 1) :: List.replicate 5 .user) ++ ([.thread 0] ++ (.call (.retrieve 1) :: List.replicate 5 .user)))) = true ∧
      heard 0 s'.replies = [a, a] := by
  obtain ⟨i1, i2⟩ := available_two (p := p) (env := env) (incs := incs) hw hu hz (by unfold Fifo.readSpace; rw [h0]; simp) (by unfold Fifo.readSpace; rw [h1]; simp)
  have hmin : 2 ≤ min v.cd.outbuf.readSpace w.cd.outbuf.readSpace := by
    unfold Fifo.readSpace
    rw [h0, h1]
    simp
  generalize min v.cd.outbuf.readSpace w.cd.outbuf.readSpace = n at i1 hmin
  obtain ⟨j1, j2⟩ := retrieve_two (p := p) (env := env) (z := z) (incs := incs) (s := { s with replies := .available (n : Nat) :: s.replies }) hw hu hsep h0 h1
    (by unfold allowance; simp only [Int.toNat_natCast]; omega)
  generalize hs2 : ({ ({ s with replies := .available (n : Nat) :: s.replies } : Sys α σ ρ) with
        workers := [{ v with cd := { v.cd with outbuf := v.cd.outbuf.skip 1 } }, { w with cd := { w.cd with outbuf := w.cd.outbuf.skip 1 } }]
        replies := .retrieved 1 [[a], [b]] 1 :: .available (n : Nat) :: s.replies } : Sys α σ ρ) = s2 at j1
  have k1 : s2.step p env z incs (.thread 0) = some { s2 with workers := [⟨{ v.cd with outbuf := new }, v.old ++ [v.cd.outbuf.skip 1], .limit x⟩, { w with cd := { w.cd with outbuf := w.cd.outbuf.skip 1 } }] } := by
    subst hs2
    simp [Sys.step, Worker.step, hpc]
  obtain ⟨l1, l2⟩ := retrieve_two (p := p) (env := env) (z := z) (incs := incs)
    (s := { s2 with workers := [⟨{ v.cd with outbuf := new }, v.old ++ [v.cd.outbuf.skip 1], .limit x⟩, { w with cd := { w.cd with outbuf := w.cd.outbuf.skip 1 } }] })
    (a := a) (b := b') (la := ln) (lb := lb) rfl (by subst hs2; exact hu) hsep hn (by show w.cd.outbuf.data.drop 1 = _; rw [h1]; rfl)
    (by subst hs2; simp only [allowance, Int.toNat_natCast]; omega)
  have kr : s2.run p env z incs [.thread 0] = some { s2 with workers := [⟨{ v.cd with outbuf := new }, v.old ++ [v.cd.outbuf.skip 1], .limit x⟩, { w with cd := { w.cd with outbuf := w.cd.outbuf.skip 1 } }] } := by
    unfold Sys.run
    rw [k1]
    rfl
  have kh : s2.heeding p env z incs [.thread 0] = true := by
    unfold Sys.heeding
    rw [k1]
    rfl
  refine ⟨_, run_trans i1 (run_trans j1 (run_trans kr l1)), heeding_append _ _ i2 i1 (heeding_append _ _ j2 j1 (heeding_append _ _ kh kr l2)), ?_⟩
  subst hs2
  simp [heard, hr]

end

namespace Ex

theorem block_prefix {m n : Nat} (h : m ≤ n) : Ex.block m <+: Ex.block n := by
  obtain ⟨k, rfl⟩ := Nat.exists_eq_add_of_le h
  rw [← Ex.joined]
  exact List.prefix_append _ _

abbrev Sys2 := Sys Int Int Unit
abbrev Worker2 := Worker Int Int Unit
abbrev State2 := State Int Int Unit Unit

/-- Between calls of `process`, the threads having done what they could. -/
structure Between (t : State2) (m : Nat) (es : List (Event Int)) (s : Sys2) (v w : Worker2) : Prop where
  reached : Reached two count t (Ex.block 8300) es s
  idle : s.user = .idle
  going : s.finished = false
  workers : s.workers = [v, w]
  given : given es = Ex.block m
  ends : ends es = false
  size0 : v.cd.inputSize = none
  size1 : w.cd.inputSize = none
  cap : v.cd.outbuf.cap = 8192
  room0 : 200 ≤ v.cd.inbuf.writeSpace
  room1 : 200 ≤ w.cd.inbuf.writeSpace
  out0 : 2 ≤ v.cd.outbuf.readSpace
  out1 : 2 ≤ w.cd.outbuf.readSpace

/-- Turns after which thread 0 is about to replace its output buffer, the user not being in a call. -/
def Found (t : State2) : Prop :=
  ∃ es s v w x new, Reached two count t (Ex.block 8300) es s ∧ s.user = .idle ∧ s.workers = [v, w] ∧ v.pc = .swap x new ∧ 2 ≤ v.cd.outbuf.readSpace ∧ 2 ≤ w.cd.outbuf.readSpace

theorem pair {l : List Worker2} {v w : Worker2} (h : l.length = 2) (h0 : l[0]? = some v) (h1 : l[1]? = some w) : l = [v, w] := by
  match l, h with
  | [a, b], _ => simp at h0 h1; rw [h0, h1]

theorem further {t₀ t : State2} (hap : Apart two) (hs : Prepared two count t₀ t) (h : Ordinary two t (Ex.block 8300).length) (hwin : t.sizes.window = 256) (hin : ∀ c, c < 2 → inCaps t c = 512)
    (hlen : (sounds two count t (Ex.block 8300) 0).length = 8300) {m : Nat} {es : List (Event Int)} {s : Sys2} {v w : Worker2} (b : Between t m es s v w) (final : Bool) (hm : m + 200 ≤ 8300)
    (hfin : final = true → m + 200 = 8300) : Found t ∨ final = false ∧ ∃ es' s' v' w', Between t (m + 200) es' s' v' w' := by
  obtain ⟨b1, _, _, _⟩ := flow_begin hs h
  have hrun := process_two (p := two) (env := count) (z := t.sizes) (incs := t.outputIncrements) (input := Ex.block 200) (final := final) b.workers b.idle b.going
    (by rw [Ex.block_length]; exact b.room0) (by rw [Ex.block_length]; exact b.room1)
  obtain ⟨g1, g2⟩ := given_process es (Ex.block 200) final b.ends
  rw [b.given, Ex.joined] at g1
  have r1 : Reached two count t (Ex.block 8300) (es ++ .call (.process (Ex.block 200) final) :: List.replicate 7 .user)
      { workers := [fed two count 0 (Ex.block 200) final v, fed two count 1 (Ex.block 200) final w], user := .idle, finished := final, replies := s.replies } := by
    refine ⟨?_, by rw [g1]; exact block_prefix hm, by rw [g1, g2]; intro e; rw [hfin e], run_trans b.reached.run hrun⟩
    intro e he
    rw [List.mem_append, List.mem_cons, List.mem_replicate] at he
    rcases he with he | rfl | ⟨_, rfl⟩
    · exact b.reached.unasked e he
    · rfl
    · rfl
  obtain ⟨m0, s2, v2, r2, u2, f2, w2, d2, i2, o2, e2⟩ := exhaust hap hs h true (c := 0) _ (Nat.le_refl _) r1 rfl rfl
  have hw1 := d2 1 (by decide)
  obtain ⟨B, g, r, fl, _, sl, rp, ln, _⟩ := r2.facts hap hs h
  have l2 : s2.workers = [v2, fed two count 1 (Ex.block 200) final w] := pair ln w2 hw1
  rcases e2 with ⟨_, ⟨x, new, e⟩, _⟩ | ⟨ec, e⟩
  · exact Or.inl ⟨_, s2, v2, _, x, new, r2, u2, l2, e, Nat.le_trans b.out0 o2, b.out1⟩
  have hcap : v2.cd.outbuf.cap = 8192 := (ec rfl).trans b.cap
  have hfed : ¬ Fed t.sizes v2 := by
    rcases e with e | e
    · exfalso
      have hd := heard_done fl w2 e u2
      rw [rp, job_out] at hd
      have := congrArg List.length hd
      rw [hlen] at this
      have hr : Room t.sizes v2.cd.outbuf := (fl.phase 0 v2 w2).1.room
      have := hr.fits
      simp [heard] at *
      omega
    · exact e
  cases final with
  | true => exact absurd (Or.inl (by rw [i2]; rfl)) hfed
  | false =>
    refine Or.inr ⟨rfl, ?_⟩
    obtain ⟨m1, s3, w3, r3, u3, f3, x3, d3, i3, o3, e3⟩ := exhaust hap hs h false (c := 1) _ (Nat.le_refl _) r2 u2 hw1
    obtain ⟨B', g', r', fl', _, sl', rp', ln', _⟩ := r3.facts hap hs h
    have w3' : s3.workers[0]? = some v2 := (d3 0 (by decide)).trans w2
    have l3 : s3.workers = [v2, w3] := pair ln' w3' x3
    have n3 : w3.cd.inputSize = none := i3.trans b.size1
    have hfed3 : ¬ Fed t.sizes w3 := by
      rcases e3 with ⟨e, _⟩ | ⟨_, e | e⟩
      · cases e
      · exfalso
        have hp := (fl'.phase 1 w3 x3).2
        rw [e] at hp
        have := hp.drain.size
        rw [n3] at this
        cases this
      · exact e
    unfold Fed at hfed hfed3
    rw [hwin] at hfed hfed3
    push Not at hfed hfed3
    have c0 : v2.cd.inbuf.cap = 512 := (sl' 0 v2 w3').cap.trans (hin 0 (by decide))
    have c1 : w3.cd.inbuf.cap = 512 := (sl' 1 w3 x3).cap.trans (hin 1 (by decide))
    obtain ⟨a1, a2⟩ := given_append (L := 2) (es ++ .call (.process (Ex.block 200) false) :: List.replicate 7 .user) (List.replicate m0 (.thread 0))
      (by intro e he; rw [(List.mem_replicate.mp he).2]; rfl)
    obtain ⟨a3, a4⟩ := given_append (L := 2) (es ++ .call (.process (Ex.block 200) false) :: List.replicate 7 .user ++ List.replicate m0 (.thread 0)) (List.replicate m1 (.thread 1))
      (by intro e he; rw [(List.mem_replicate.mp he).2]; rfl)
    refine ⟨_, s3, v2, w3, r3, u3, f3.trans f2, l3, by rw [a3, a1, g1], by rw [a4, a2, g2], i2.trans b.size0, n3, hcap, ?_, ?_, Nat.le_trans b.out0 o2, Nat.le_trans b.out1 o3⟩
    · have := hfed.2
      unfold Fifo.writeSpace
      omega
    · have := hfed3.2
      unfold Fifo.writeSpace
      omega

/-- There are such turns. -/
theorem found {t₀ t : State2} (hap : Apart two) (hs : Prepared two count t₀ t) (h : Ordinary two t (Ex.block 8300).length) (hwin : t.sizes.window = 256) (hin : ∀ c, c < 2 → inCaps t c = 512)
    (hlen : (sounds two count t (Ex.block 8300) 0).length = 8300) {es : List (Event Int)} {s : Sys2} {v w : Worker2} (b : Between t 300 es s v w) : Found t := by
  have key : ∀ k, k ≤ 39 → Found t ∨ ∃ es s v w, Between t (300 + 200 * k) es s v w := by
    intro k
    induction k with
    | zero => intro _; exact Or.inr ⟨_, _, _, _, b⟩
    | succ k ih =>
      intro hk
      rcases ih (by omega) with e | ⟨_, _, _, _, e⟩
      · exact Or.inl e
      · rcases further hap hs h hwin hin hlen e false (by omega) (by intro h; cases h) with e | ⟨_, e⟩
        · exact Or.inl e
        · right
          rw [show 300 + 200 * (k + 1) = 300 + 200 * k + 200 by omega]
          exact e
  rcases key 39 (by omega) with e | ⟨_, _, _, _, e⟩
  · exact e
  · generalize hm : 300 + 200 * 39 = m at e
    rcases further hap hs h hwin hin hlen e true (by omega) (by intro _; omega) with e | ⟨e, _⟩
    · exact e
    · cases e

theorem given_asks (es : List (Event Int)) {ts : List (Event Int)} (h1 : given ts = []) (h2 : ends ts = false) : given (es ++ ts) = given es ∧ ends (es ++ ts) = ends es := by
  induction es with
  | nil => exact ⟨h1, h2⟩
  | cons e es ih =>
    cases e with
    | call q =>
      cases q with
      | process b f =>
        refine ⟨?_, ?_⟩
        · show (if f then b else b ++ given (es ++ ts)) = if f then b else b ++ given es
          rw [ih.1]
        · show (f || ends (es ++ ts)) = (f || ends es)
          rw [ih.2]
      | _ => exact ih
    | _ => exact ih

/-- After the first block. -/
def opening : List (Event Int) := .call (.process (Ex.block 300) false) :: users 7 ++ threads 0 60 ++ threads 1 60

/-- What is checked of it. -/
def openingCheck (x : State2 × State2 × Sys2) : Bool :=
  decide (x.1.mode = .justCreated) && decide (x.2.1.sizes.window = 256) && decide (x.2.1.sizes.pitchScale = 1) && decide (x.2.1.sizes.timeRatio = 1) && decide (x.2.1.sizes.increment ≤ 8300) &&
    decide (x.2.1.outputIncrements = []) && decide (x.2.1.chans.map (fun cd => cd.inbuf.cap) = [512, 512]) && (match x.2.2.user with | .idle => true | _ => false) && !x.2.2.finished &&
    (match x.2.2.workers with
      | [v, w] => v.cd.inputSize.isNone && w.cd.inputSize.isNone && decide (v.cd.outbuf.cap = 8192) && decide (200 ≤ v.cd.inbuf.writeSpace) && decide (200 ≤ w.cd.inbuf.writeSpace) &&
        decide (v.cd.outbuf.data.take 2 = [128, 129]) && decide (2 ≤ w.cd.outbuf.readSpace)
      | _ => false)

theorem opening_checked : (seen opening).map openingCheck = some true := by decide +kernel

end Ex

/-- C109 is false of the code: a thread that needs a longer output buffer copies what is in it, and then puts the copy in its place; what is retrieved between the one and the other is still in the copy, and is retrieved again. -/
theorem C109_violated : ¬ C109_statement := by
  intro hC
  obtain ⟨x, h1, h2⟩ := Option.map_eq_some_iff.mp Ex.opening_checked
  unfold Ex.openingCheck at h2
  simp only [Bool.and_eq_true, decide_eq_true_eq, Bool.not_eq_true'] at h2
  obtain ⟨⟨⟨⟨⟨⟨⟨⟨⟨m1, m2⟩, m3⟩, m4⟩, m5⟩, m6⟩, m7⟩, m8⟩, m9⟩, m10⟩ := h2
  obtain ⟨p1, hs, p3⟩ := Ex.seen_prepared h1 m1
  obtain ⟨s₀, t, s⟩ := x
  simp only at m1 m2 m3 m4 m5 m6 m7 m8 m9 m10 p1 hs p3
  have hap : Apart Ex.two := Or.inl rfl
  have hidle : s.user = .idle := by
    cases hu : s.user <;> rw [hu] at m8 <;> first | rfl | cases m8
  obtain ⟨u, outs, a1, a2, a3⟩ := C38_unity hs (input := Ex.block 8300) (final := true) (cs := []) (by simp) rfl rfl rfl (by decide) m3 m4 m6
    (by show _ ≤ (Ex.block 8300).length; rw [Ex.block_length]; exact m5)
  have hal : Alone Ex.two Ex.count s₀ (Ex.block 8300) u outs := ⟨Ex.block 8300, true, [], by simp, rfl, rfl, a1⟩
  have hord : Ordinary Ex.two t (Ex.block 8300).length := by
    have hu := sized_usable (hs.ready rfl).2 rfl (by decide) (by decide) (by rw [m3, m4]; norm_num) (by rw [m3, m4]; norm_num)
    have hinc := hu.increment
    have hwin := hu.input
    have hlon := hu.longer
    rw [Ex.block_length]
    refine ⟨rfl, rfl, by decide, m3, by rw [m4]; norm_num, by rw [m6]; simp, ?_⟩
    intro j hj
    have ht : target t.sizes 8300 = 8300 := by
      unfold target
      rw [m4, mul_one]
      have := Verif.Round.lrint_int (8300 : Int)
      push_cast at this
      rw [show ((8300 : Nat) : Rat) = 8300 by norm_num, this]
      rfl
    rw [m6, spent_nil, ht]
    cases j with
    | zero => simp
    | succ j =>
      have := hj j (by omega)
      rw [Nat.succ_mul]
      omega
  obtain ⟨b1, b2⟩ := alone_out hap hs hord hal
  have hl0 : 0 < u.chans.length := by rw [b1]; decide
  have hsound := b2 0 _ (List.getElem?_eq_getElem hl0)
  have hlen : (sounds Ex.two Ex.count t (Ex.block 8300) 0).length = 8300 := by
    rw [← hsound, List.length_append, a3 0 _ (List.getElem?_eq_getElem hl0)]
    exact Ex.block_length 8300
  obtain ⟨v, w, hw⟩ : ∃ v w, s.workers = [v, w] := by
    revert m10
    split
    · intro _; exact ⟨_, _, by assumption⟩
    · intro h; cases h
  rw [hw] at m10
  simp only [Bool.and_eq_true, decide_eq_true_eq, Option.isNone_iff_eq_none] at m10
  obtain ⟨⟨⟨⟨⟨⟨n1, n2⟩, n3⟩, n4⟩, n5⟩, n6⟩, n7⟩ := m10
  have hreach : Reached Ex.two Ex.count t (Ex.block 8300) Ex.opening s := by
    refine ⟨?_, ?_, ?_, p3⟩
    · intro e he
      unfold Ex.opening Ex.users Ex.threads at he
      simp only [List.mem_append, List.mem_cons, List.mem_replicate] at he
      rcases he with ((rfl | ⟨_, rfl⟩) | ⟨_, rfl⟩) | ⟨_, rfl⟩ <;> rfl
    · show Ex.block 300 ++ [] <+: _
      rw [List.append_nil]
      exact Ex.block_prefix (by decide)
    · intro e; cases e
  have hbet : Ex.Between t 300 Ex.opening s v w := by
    refine ⟨hreach, hidle, m9, hw, ?_, rfl, n1, n2, n3, n4, n5, ?_, n7⟩
    · show Ex.block 300 ++ [] = _
      rw [List.append_nil]
    · have := congrArg List.length n6
      rw [List.length_take] at this
      simp at this
      exact this
  have hin : ∀ c, c < 2 → inCaps t c = 512 := by
    intro c hc
    unfold inCaps
    rw [← List.getElem?_map, m7]
    rcases c with _ | _ | c
    · rfl
    · rfl
    · omega
  obtain ⟨es, s', v', w', y, new, r1, r2, r3, r4, r5, r6⟩ := Ex.found hap hs hord m2 hin hlen hbet
  obtain ⟨c1, _, _, _⟩ := flow_begin hs hord
  -- what comes first in all the output
  have first : ∀ {es : List (Event Int)} {s : Ex.Sys2} {v : Ex.Worker2}, Reached Ex.two Ex.count t (Ex.block 8300) es s → s.user = .idle → s.workers[0]? = some v →
      v.cd.outbuf.data <+: sounds Ex.two Ex.count t (Ex.block 8300) 0 ∧ (∀ y new, v.pc = .swap y new → new = v.cd.outbuf.resized (v.cd.outbuf.cap * 2)) ∧ Room t.sizes v.cd.outbuf ∧ s.replies = [] := by
    intro es s v hr hu hv
    obtain ⟨B, g, r, f1, _, _, f4, _⟩ := hr.facts hap hs hord
    have ho := f1.outputs
    rw [hu] at ho
    have hp := phase_prefix (c1 0) (f1.phase 0 v hv)
    rw [(ho 0 v hv).1, f4] at hp
    refine ⟨hp, ?_, (f1.phase 0 v hv).1.room, f4⟩
    intro y new e
    have := (f1.phase 0 v hv).2
    rw [e] at this
    exact this.2
  obtain ⟨d1, _, _, _⟩ := first hreach hidle (by rw [hw]; rfl)
  obtain ⟨e1, e2, e3, e4⟩ := first r1 r2 (by rw [r3]; rfl)
  have two_le : ∀ {l : List Int}, 2 ≤ l.length → ∃ a b l', l = a :: b :: l' := by
    intro l hl
    match l, hl with
    | a :: b :: l', _ => exact ⟨a, b, l', rfl⟩
  obtain ⟨a, a', la, hva⟩ := two_le r5
  obtain ⟨b, b', lb, hwb⟩ := two_le r6
  have hnew := e2 y new r4
  have hcap : v'.cd.outbuf.data.length ≤ v'.cd.outbuf.cap * 2 := by have := e3.fits; omega
  have hnd : new.data = a :: a' :: la := by
    rw [hnew]
    show v'.cd.outbuf.data.take _ = _
    rw [List.take_of_length_le hcap, hva]
  obtain ⟨z, q1, q2, q3⟩ := heard_again (p := Ex.two) (env := Ex.count) (z := t.sizes) (incs := t.outputIncrements) r3 r2 m3 hap.sep r4 hva hwb hnd e4
  obtain ⟨u1, u2, _, _⟩ := unasked_run es (s := start t) rfl r1.unasked r1.run
  obtain ⟨i1, i2⟩ := Ex.given_asks es (ts := (.call .available :: List.replicate 5 .user) ++ ((.call (.retrieve 1) :: List.replicate 5 .user) ++ ([.thread 0] ++ (.call (.retrieve 1) :: List.replicate 5 .user)))) rfl rfl
  have hcourse : Course Ex.two Ex.count t (Ex.block 8300) (es ++ ((.call .available :: List.replicate 5 .user) ++ ((.call (.retrieve 1) :: List.replicate 5 .user) ++ ([.thread 0] ++
      (.call (.retrieve 1) :: List.replicate 5 .user))))) z :=
    ⟨by rw [i1]; exact r1.given, by rw [i1, i2]; exact r1.ends, heeding_append _ _ u2 r1.run q2, run_trans r1.run q1⟩
  have hbad := hC Ex.two Ex.count s₀ t u (Ex.block 8300) outs _ z (by decide) hap hs hord hal hcourse 0 _ (List.getElem?_eq_getElem hl0)
  rw [hsound, q3] at hbad
  obtain ⟨k1, j1⟩ := hbad
  obtain ⟨k2, j2⟩ := d1
  have hva0 : ∃ l, v.cd.outbuf.data = 128 :: 129 :: l := by
    refine ⟨v.cd.outbuf.data.drop 2, ?_⟩
    conv_lhs => rw [← List.take_append_drop 2 v.cd.outbuf.data, n6]
    rfl
  obtain ⟨l, hl⟩ := hva0
  rw [hl] at j2
  rw [← j2] at j1
  simp at j1
  omega

end Verif.R2.Threads
