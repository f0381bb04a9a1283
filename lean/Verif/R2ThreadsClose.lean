import Verif.R2ThreadsAnyProps
/-!
# The faster engine with threads: `reset` and destruction while the threads are at work (C155)

R2Stretcher.cpp:162-174 `~R2Stretcher` and 196-211 `reset`: each thread in turn is told to give up (`abandon`, StretcherProcess.cpp:104-108) and waited for (`Thread::wait`, Thread.cpp:338-351, which is
`pthread_join`).  A thread looks whether it was told before it goes round again (StretcherProcess.cpp:76-84).

Simplified as in R2Threads: a thread that waits for data (at most 50 ms, "bounded in case of abandonment") is one that is not given a turn for a while.  `m_abandoning` is a plain `bool` that one thread
stores and another loads without a lock; it is taken to be seen by loads that come after it (a compiler would have to see through the locks to make it otherwise).
-/
namespace Verif.R2.Threads
open Verif.R2

variable {α σ ρ κ : Type}

/-! ## Threads that are told to give up -/

/-- StretcherProcess.cpp:54-94: a step of a thread that has been told to give up: it returns when it comes to line 81. -/
def Worker.stepTold (p : Params) (env : Env α σ ρ κ) (z : Sizes) (incs : List Int) (w : Worker α σ ρ) : Option (Worker α σ ρ) :=
  match w.pc with
  | .tested .waiting _ => (w.step p env z incs).map fun w => { w with pc := .done }
  | _ => w.step p env z incs

/-- R2Stretcher.cpp:166-173, 201-208: a stretcher whose `reset` or destructor is waiting for its threads. -/
structure Closing (α σ ρ : Type) where
  workers : List (Worker α σ ρ)
  /-- The channels of the threads that have not yet been waited for, in the order of the set. -/
  left : List Nat
  /-- Whether the first of them has been told. -/
  told : Bool

/-- R2Stretcher.cpp:162-166, 196-202: `reset` or the destructor is called (by the user, who is not in another call).  The set is in the order of the addresses of the threads, which may be any. -/
def Sys.close (s : Sys α σ ρ) (order : List Nat) : Option (Closing α σ ρ) :=
  match s.user with
  | .idle => some ⟨s.workers, order, false⟩
  | _ => none

/-- Whose turn it is: the caller's, or the thread's of a channel. -/
inductive Turn where
  | caller
  | thread (c : Nat)

/-- One turn.  The caller tells the next thread, and then goes on when it has ended. -/
def Closing.step (p : Params) (env : Env α σ ρ κ) (z : Sizes) (incs : List Int) (s : Closing α σ ρ) : Turn → Option (Closing α σ ρ)
  | .thread c => (s.workers[c]?).bind fun w =>
    (if s.told ∧ s.left.head? = some c then w.stepTold p env z incs else w.step p env z incs).map fun w => { s with workers := s.workers.set c w }
  | .caller =>
    match s.left with
    | [] => some s
    | c :: cs =>
      if s.told then (s.workers[c]?).bind fun w =>
        match w.pc with
        | .done => some { s with left := cs, told := false }
        | _ => some s
      else some { s with told := true }

/-- Any number of turns. -/
def Closing.run (p : Params) (env : Env α σ ρ κ) (z : Sizes) (incs : List Int) : Closing α σ ρ → List Turn → Option (Closing α σ ρ)
  | s, [] => some s
  | s, e :: es => (s.step p env z incs e).bind fun s => Closing.run p env z incs s es

/-- How many turns a thread is given. -/
def Turn.of (c : Nat) (es : List Turn) : Nat := es.countP fun
  | .thread d => d == c
  | .caller => false

/-- Whether the caller is given one. -/
def Turn.isCaller : Turn → Bool
  | .caller => true
  | .thread _ => false

/-! ## How much is left -/

/-- How far a thread that was told is in a chunk that is not drained: steps to the point where the input is given up, or to the end. -/
def rankTold (_ : Sizes) (_ : Chan α σ ρ) : Pc α → Nat
  | .piece _ _ (_ :: _) _ => 20
  | .grow _ => 19
  | .swap _ _ => 18
  | .limit _ => 17
  | .emit _ _ => 16
  | .settle _ => 15
  | .piece _ _ [] _ => 14
  | .top => 13
  | .left => 12
  | .test .loop => 11
  | .tested .loop _ => 10
  | .take _ => 9
  | .skip _ => 8
  | .test .waiting => 5
  | .tested .waiting _ => 4
  | _ => 0

/-- How many turns a thread that was told needs at most. -/
def toldLeft (z : Sizes) (w : Worker α σ ρ) : Nat := 32 * chunksLeft z w.cd + if w.cd.draining then rankDraining w.pc else rankTold z w.cd w.pc

theorem rankTold_le (z : Sizes) (cd : Chan α σ ρ) (pc : Pc α) : rankTold z cd pc ≤ 20 := by
  unfold rankTold
  split <;> omega

/-- `toldLeft` of a thread that is not being drained, and of one that is. -/
theorem told_plain {z : Sizes} {w : Worker α σ ρ} (h : w.cd.draining = false) : toldLeft z w = 32 * (w.cd.inbuf.data.length + z.window + 1) + rankTold z w.cd w.pc := by
  unfold toldLeft chunksLeft
  simp [h]

theorem told_draining {z : Sizes} {w : Worker α σ ρ} (h : w.cd.draining = true) : toldLeft z w = 32 * w.cd.accumulatorFill + rankDraining w.pc := by
  unfold toldLeft chunksLeft
  simp [h]

/-- A step that leaves the channel as it is. -/
theorem told_pc {z : Sizes} {cd : Chan α σ ρ} {o o' : List (Fifo α)} {pc pc' : Pc α} (h1 : cd.draining = false → rankTold z cd pc' < rankTold z cd pc)
    (h2 : cd.draining = true → rankDraining pc' < rankDraining pc) : toldLeft z (⟨cd, o', pc'⟩ : Worker α σ ρ) < toldLeft z ⟨cd, o, pc⟩ := by
  cases hd : cd.draining with
  | false => rw [told_plain (w := ⟨cd, o', pc'⟩) hd, told_plain (w := ⟨cd, o, pc⟩) hd]; have := h1 hd; simp only; omega
  | true => rw [told_draining (w := ⟨cd, o', pc'⟩) hd, told_draining (w := ⟨cd, o, pc⟩) hd]; have := h2 hd; simp only; omega

theorem told_room (x y : Writing α) (b : Prop) [Decidable b] (z : Sizes) (cd : Chan α σ ρ) :
    rankDraining (if b then Pc.grow x else Pc.limit y) ≤ 10 ∧ rankTold z cd (if b then Pc.grow x else Pc.limit y) ≤ 19 := by
  split <;> simp [rankDraining, rankTold]

/-- A step that leaves the input and the accumulator as they are. -/
theorem told_same {z : Sizes} {cd cd' : Chan α σ ρ} {o o' : List (Fifo α)} {pc pc' : Pc α} (e1 : cd'.draining = cd.draining) (e2 : cd'.inbuf = cd.inbuf)
    (e3 : cd.draining = true → cd'.accumulatorFill = cd.accumulatorFill) (h1 : cd.draining = false → rankTold z cd' pc' < rankTold z cd pc)
    (h2 : cd.draining = true → rankDraining pc' < rankDraining pc) : toldLeft z (⟨cd', o', pc'⟩ : Worker α σ ρ) < toldLeft z ⟨cd, o, pc⟩ := by
  rcases Bool.eq_false_or_eq_true cd.draining with hd | hd
  · rw [told_draining (w := ⟨cd', o', pc'⟩) (e1.trans hd), told_draining (w := ⟨cd, o, pc⟩) hd]
    have := h2 hd
    simp only [e3 hd]
    omega
  · rw [told_plain (w := ⟨cd', o', pc'⟩) (e1.trans hd), told_plain (w := ⟨cd, o, pc⟩) hd]
    have := h1 hd
    simp only [e2]
    omega

section
variable [Zero α] {J : Job α σ ρ κ}

/-- What a thread at work has before it becomes less with each of its turns. -/
theorem told_less_step (hJ : J.Ok) {w w' : Worker α σ ρ} {g : Nat} {r : List α} (h : Phase J w g r) (hp : Sound w) (hn : w.pc ≠ .done)
    (hn' : ∀ rs, w.pc ≠ .tested .waiting rs) (hs : w.step J.p J.env J.z J.incs = some w') : toldLeft J.z w' < toldLeft J.z w := by
  obtain ⟨cd, old, pc⟩ := w
  have hc : Common J cd g := h.1
  replace h := h.2
  have hw2 : 1 ≤ J.z.window / 2 := by have := hJ.fine.inc; have := hJ.fine.window; omega
  have hinc := hJ.fine.inc
  unfold Worker.step at hs
  cases pc with
  | top =>
    simp only [Option.some.injEq] at hs
    subst hs
    split
    · exact told_pc (fun _ => by simp [rankTold]) (fun _ => by simp [rankDraining])
    · exact told_pc (fun _ => by simp [rankTold]) (fun _ => by simp [rankDraining])
  | left =>
    simp only [Option.some.injEq] at hs
    subst hs
    have h1 := idle_some hJ hc.le h.1
    have h1' : cd.inbuf.readSpace > 0 := h1
    simp only [if_pos h1']
    exact told_pc (fun _ => by simp [rankTold]) (fun _ => by simp [rankDraining])
  | test k =>
    simp only [Option.some.injEq] at hs
    subst hs
    cases k with
    | loop =>
      exact told_pc (fun _ => by simp [rankTold]) (fun _ => by simp [rankDraining])
    | after =>
      have o : Over J cd r := by simpa using h
      exact told_pc (fun e => by rw [o.drain.draining] at e; cases e) (fun _ => by simp [rankDraining])
    | waiting => exact told_pc (fun _ => by simp [rankTold]) (fun _ => by simp [rankDraining])
  | tested k rs =>
    simp only at hs
    cases k with
    | after =>
      have o : Over J cd r := by simpa using h
      have hd := o.drain.draining
      simp only [hd, Bool.true_eq_false, and_false, if_false, Option.some.injEq] at hs
      subst hs
      exact told_pc (fun e => by rw [hd] at e; cases e) (fun _ => by simp [rankDraining, Asker.yes])
    | loop =>
      obtain ⟨h1, h2, h3⟩ : Idle J cd g r ∧ rs ≤ cd.inbuf.readSpace ∧ (J.z.window / 2 ≤ rs ∨ rs = cd.inbuf.readSpace ∧ cd.inputSize.isSome = true) := by simpa using h
      have hle := idle_some hJ hc.le h1
      have hrs : rs ≠ 0 := by
        unfold Fifo.readSpace at h3
        omega
      split at hs
      · rename_i hr
        split at hs
        · rename_i hi
          cases hs
          refine told_pc (fun _ => ?_) (fun e => by rw [hr.2] at e; cases e)
          simp [rankTold, Asker.no]
        · rename_i hi
          · split at hs
            · cases hs
              rw [told_plain (w := ⟨cd, old, _⟩) hr.2, told_draining (by rfl)]
              have := idle_fill hJ h1 hr.2
              have := rankDraining_le (Asker.loop.yes : Pc α)
              simp only
              omega
            · cases hs
              refine told_pc (fun _ => ?_) (fun e => by rw [hr.2] at e; cases e)
              simp [rankTold, Asker.yes]
      · rename_i hr
        cases hs
        refine told_pc (fun e => ?_) (fun _ => by simp [rankDraining, Asker.yes])
        simp [rankTold, Asker.yes]
    | waiting => exact absurd rfl (hn' rs)
  | take after =>
    have hlow : ∀ cd' : Chan α σ ρ, cd'.draining = cd.draining → cd'.inbuf = cd.inbuf → cd'.accumulatorFill = cd.accumulatorFill →
        toldLeft J.z (⟨cd', old, .skip after⟩ : Worker α σ ρ) < toldLeft J.z ⟨cd, old, .take after⟩ := by
      intro cd' e1 e2 e3
      exact told_same e1 e2 (fun _ => e3) (fun _ => by simp [rankTold]) (fun _ => by cases after <;> simp [rankDraining])
    simp only at hs
    split at hs
    · cases hs; exact hlow cd rfl rfl rfl
    · cases hs; exact hlow _ rfl rfl rfl
  | skip after =>
    simp only [Option.some.injEq] at hs
    subst hs
    generalize hcd' : (if cd.draining = true then cd else { cd with inbuf := cd.inbuf.skip J.z.increment }) = cd'
    obtain ⟨g1, g2⟩ := getIncrements_eq J.z J.incs cd'
    rw [g1]
    rcases Bool.eq_false_or_eq_true cd.draining with hd | hd
    · have e : cd' = cd := by rw [← hcd', if_pos hd]
      subst e
      rw [g2, pieces_short hJ.fine]
      exact told_same rfl rfl (fun _ => rfl) (fun e => by rw [hd] at e; cases e) (fun _ => by cases after <;> simp [rankDraining])
    · have e : cd' = { cd with inbuf := cd.inbuf.skip J.z.increment } := by rw [← hcd', if_neg (by simp [hd])]
      subst e
      rw [told_plain (w := ⟨cd, old, _⟩) hd, told_plain (by exact hd)]
      have hlen : 1 ≤ cd.inbuf.data.length := by
        simp only at h
        split at h
        · have := h.drain.draining
          rw [hd] at this
          cases this
        · rcases h with ⟨j, h1, _, _⟩ | ⟨h, h1, _⟩
          · have hX := J.length_X
            have h2 := h1.full j (by omega)
            have h3 := hc.le
            have hda : cd.inbuf.data = _ := h1.data
            rw [hda, List.length_drop, List.length_take]
            omega
          · have := h1.drain.draining
            rw [hd] at this
            cases this
      have h20 := rankTold_le (α := α) (σ := σ) (ρ := ρ) J.z
      show 32 * ((cd.inbuf.data.drop J.z.increment).length + J.z.window + 1) + _ < 32 * (cd.inbuf.data.length + J.z.window + 1) + 8
      rw [List.length_drop]
      refine lt_of_le_of_lt (Nat.add_le_add_left (h20 _ _) _) ?_
      omega
  | piece after tmp todo last =>
    cases todo with
    | nil =>
      simp only [Option.some.injEq] at hs
      subst hs
      simp only at h
      cases last with
      | true =>
        have o : Over J cd r := by simpa using h
        have hd := o.drain.draining
        rw [told_draining (w := ⟨cd, old, _⟩) hd, told_draining (by exact hd)]
        cases after <;> simp [rankDraining, next]
      | false =>
        have h1 : after = false := by
          simp only [Bool.false_eq_true, if_false] at h
          exact h.1
        subst h1
        exact told_same rfl rfl (fun _ => rfl) (fun _ => by simp [rankTold, next, asker]) (fun _ => by simp [rankDraining, next, asker])
    | cons i todo =>
      simp only [Option.some.injEq] at hs
      subst hs
      simp only at h
      obtain ⟨s1, s2⟩ := spectral_draining J.env J.z i ({ cd with fltbuf := tmp } : Chan α σ ρ)
      obtain ⟨s3, s4, s5, s6⟩ := spectral_same J.env J.z i ({ cd with fltbuf := tmp } : Chan α σ ρ)
      unfold beginPiece
      simp only
      generalize spectral J.env J.z i ({ cd with fltbuf := tmp } : Chan α σ ρ) = cd' at s1 s2 s3 s4 s5 s6
      replace s1 : cd'.draining = cd.draining := s1
      replace s2 : cd.draining = true → cd'.accumulatorFill = cd.accumulatorFill := s2
      replace s4 : cd'.inbuf = cd.inbuf := s4
      obtain ⟨h0, h⟩ := h
      subst h0
      rcases Bool.eq_false_or_eq_true cd.draining with hd | hd
      · have hd' := s1.trans hd
        have hfill := s2 hd
        cases after with
        | true =>
          have o : Over J cd r := by simpa using h
          have h0 : (cd'.accumulatorFill == 0) = true := by rw [hfill, o.fill]; rfl
          rw [if_pos (by rw [hd', h0]; rfl)]
          exact told_same s1 s4 (fun _ => hfill) (fun e => by rw [hd] at e; cases e) (fun _ => by simp [rankDraining])
        | false =>
          have hb : Begun J cd g r i := by
            have : tmp = cd.fltbuf ∧ Begun J cd g r i := by simpa using h
            exact this.2
          have hne : cd'.accumulatorFill ≠ 0 := by
            rw [hfill]
            rcases hb with ⟨j, h1, _, _⟩ | ⟨S, h, h1, h2, _⟩
            · have := h1.draining
              rw [hd] at this
              cases this
            · rw [h2.fill]
              exact h1.fill
          have hne' : (cd'.accumulatorFill == 0) = false := by simpa using hne
          rw [if_neg (by rw [hd', hne']; simp)]
          exact told_same s1 s4 (fun _ => hfill) (fun e => by rw [hd] at e; cases e) (fun _ => lt_of_le_of_lt (told_room _ _ _ J.z cd').1 (by simp [rankDraining]))
      · have hd' := s1.trans hd
        rw [if_neg (by rw [hd']; simp)]
        exact told_same s1 s4 s2 (fun _ => lt_of_le_of_lt (told_room _ _ _ J.z cd').2 (by simp [rankTold])) (fun e => by rw [hd] at e; cases e)
  | grow x =>
    simp only [Option.some.injEq] at hs
    subst hs
    exact told_pc (fun _ => by simp [rankTold]) (fun _ => by simp [rankDraining])
  | swap x new =>
    simp only [Option.some.injEq] at hs
    subst hs
    exact told_same rfl rfl (fun _ => rfl) (fun _ => by simp [rankTold]) (fun _ => by simp [rankDraining])
  | limit x =>
    simp only [Option.some.injEq] at hs
    subst hs
    exact told_pc (fun _ => by simp [rankTold]) (fun _ => by simp [rankDraining])
  | emit x θ =>
    simp only at hs
    split at hs
    · cases hs
    · rw [resampled_plain hJ.fine.plain] at hs
      cases hs
      have hw : (writeOutput (startSkip J.p J.z) θ cd ((List.range x.si).map (J.env.emit cd.spec))).draining = cd.draining ∧
          (writeOutput (startSkip J.p J.z) θ cd ((List.range x.si).map (J.env.emit cd.spec))).inbuf = cd.inbuf ∧
          (writeOutput (startSkip J.p J.z) θ cd ((List.range x.si).map (J.env.emit cd.spec))).accumulatorFill = cd.accumulatorFill := by
        unfold writeOutput
        split
        · exact ⟨rfl, rfl, rfl⟩
        · split
          · exact ⟨rfl, rfl, rfl⟩
          · exact ⟨rfl, rfl, rfl⟩
      exact told_same hw.1 hw.2.1 (fun _ => hw.2.2) (fun _ => by simp [rankTold]) (fun _ => by simp [rankDraining])
  | settle x =>
    simp only [Option.some.injEq] at hs
    subst hs
    have hm : Mid J cd x := h.1
    have hsi := hm.si
    have haf := hm.after
    have htodo := hm.todo
    obtain ⟨af, tmp, todo, si, last⟩ := x
    simp only at haf htodo hsi
    subst haf htodo
    have hl : ∀ cd' : Chan α σ ρ, cd'.accumulatorFill = cd.accumulatorFill → cd'.inbuf = cd.inbuf → cd'.draining = cd.draining →
        (lessFill si cd').draining = cd.draining ∧ (lessFill si cd').inbuf = cd.inbuf ∧ (lessFill si cd').accumulatorFill ≤ cd.accumulatorFill - si := by
      intro cd' e1 e2 e3
      unfold lessFill
      rw [e1]
      split
      · exact ⟨e3, e2, le_refl _⟩
      · exact ⟨e3, e2, Nat.zero_le _⟩
    obtain ⟨l1, l2, l3⟩ := hl { cd with spec := J.env.shift cd.spec cd.accumulatorFill si } rfl rfl rfl
    simp only
    generalize lessFill si { cd with spec := J.env.shift cd.spec cd.accumulatorFill si } = cd' at l1 l2 l3
    rcases Bool.eq_false_or_eq_true cd.draining with hd | hd
    · rw [told_draining (w := ⟨cd, old, _⟩) hd, told_draining (w := ⟨cd', old, _⟩) (l1.trans hd)]
      have h1 : 1 ≤ si := hp hd
      have h2 := rankDraining_le (Pc.piece false tmp [] last)
      show 32 * cd'.accumulatorFill + rankDraining (Pc.piece false tmp [] last) < 32 * cd.accumulatorFill + 6
      omega
    · exact told_same l1 l2 (fun e => by rw [hd] at e; cases e) (fun _ => by simp [rankTold]) (fun e => by rw [hd] at e; cases e)
  | done => exact absurd rfl hn


/-- What is kept of a thread that is left to itself. -/
def Live (J : Job α σ ρ κ) (cap icap : Nat) (w : Worker α σ ρ) : Prop :=
  Solid J.z w ∧ ∃ q g r, Phase J (ghost w q) g r ∧ Settled cap (ghost w q) ∧ Slim J.z icap (ghost w q)

/-- The same of one that may have given up. -/
def Good (J : Job α σ ρ κ) (cap icap : Nat) (w : Worker α σ ρ) : Prop := w.pc = .done ∨ Live J cap icap w

/-- How many turns a thread that was told needs at most. -/
def toldEffort (z : Sizes) (w : Worker α σ ρ) : Nat := 3 * toldLeft z (ghost w w.cd.outbuf) + extra w.pc

theorem told_ghost (z : Sizes) (w : Worker α σ ρ) (q : Fifo α) : toldLeft z (ghost w q) = toldLeft z (ghost w w.cd.outbuf) := rfl

omit [Zero α] in
theorem step_done (p : Params) (env : Env α σ ρ κ) (z : Sizes) (incs : List Int) {w : Worker α σ ρ} (h : w.pc = .done) : w.step p env z incs = some w := by
  unfold Worker.step
  rw [h]

omit [Zero α] in
theorem told_done (p : Params) (env : Env α σ ρ κ) (z : Sizes) (incs : List Int) {w : Worker α σ ρ} (h : w.pc = .done) : w.stepTold p env z incs = some w := by
  unfold Worker.stepTold
  rw [h]
  exact step_done p env z incs h

theorem live_step (hJ : J.Ok) {cap icap : Nat} (hroom : J.out.length + J.z.window ≤ cap) {w : Worker α σ ρ} (h : Live J cap icap w) :
    ∃ w', w.step J.p J.env J.z J.incs = some w' ∧ Live J cap icap w' ∧ (w.pc ≠ .done → (∀ rs, w.pc ≠ .tested .waiting rs) → toldEffort J.z w' < toldEffort J.z w) := by
  obtain ⟨h1, q, g, r, h2, h3, h4⟩ := h
  obtain ⟨w', e1, e2, e3⟩ := ghost_step hJ h1 h2 h3 hroom
  refine ⟨w', e1, ?_⟩
  rcases e3 with ⟨e3, e4⟩ | ⟨q', e3⟩
  · refine ⟨⟨e2, q, g, r, by rw [e3]; exact h2, by rw [e3]; exact h3, by rw [e3]; exact h4⟩, fun _ _ => ?_⟩
    unfold toldEffort
    rw [← told_ghost J.z w' q, ← told_ghost J.z w q, e3]
    omega
  · obtain ⟨v, f1, f2, -⟩ := step_phase hJ h2
    rw [e3] at f1
    cases f1
    refine ⟨⟨e2, q', g, r, f2, settled_step hJ h3 e3 f2 hroom, step_slim J.p J.env J.incs hJ.fine.inc h4 e3⟩, fun n1 n2 => ?_⟩
    have := told_less_step hJ h2 h4.sound (fun e => n1 (flat_done.mp e)) (fun rs e => n2 rs (by
      change flat w.pc = _ at e
      revert e
      generalize w.pc = pc
      intro e
      cases pc <;> simp_all [flat])) e3
    rw [told_ghost, told_ghost J.z w q] at this
    unfold toldEffort
    have := extra_le w'.pc
    omega

/-- A thread can go on, and what is kept of it is kept. -/
theorem good_step (hJ : J.Ok) {cap icap : Nat} (hroom : J.out.length + J.z.window ≤ cap) {w : Worker α σ ρ} (h : Good J cap icap w) :
    ∃ w', w.step J.p J.env J.z J.incs = some w' ∧ Good J cap icap w' ∧ (w.pc = .done → w'.pc = .done) := by
  rcases h with h | h
  · exact ⟨w, step_done _ _ _ _ h, Or.inl h, id⟩
  · by_cases hd : w.pc = .done
    · exact ⟨w, step_done _ _ _ _ hd, Or.inl hd, id⟩
    · obtain ⟨w', e1, e2, -⟩ := live_step hJ hroom h
      exact ⟨w', e1, Or.inr e2, fun e => absurd e hd⟩

/-- One that was told comes nearer to its end. -/
theorem good_told (hJ : J.Ok) {cap icap : Nat} (hroom : J.out.length + J.z.window ≤ cap) {w : Worker α σ ρ} (h : Good J cap icap w) :
    ∃ w', w.stepTold J.p J.env J.z J.incs = some w' ∧ Good J cap icap w' ∧ (w.pc = .done → w'.pc = .done) ∧ (w'.pc = .done ∨ toldEffort J.z w' + 1 ≤ toldEffort J.z w) := by
  by_cases hd : w.pc = .done
  · exact ⟨w, told_done _ _ _ _ hd, Or.inl hd, id, Or.inl hd⟩
  · replace h : Live J cap icap w := h.resolve_left hd
    obtain ⟨w', e1, e2, e3⟩ := live_step hJ hroom h
    by_cases ht : ∃ rs, w.pc = .tested .waiting rs
    · obtain ⟨rs, ht⟩ := ht
      refine ⟨{ w' with pc := .done }, ?_, Or.inl rfl, fun _ => rfl, Or.inl rfl⟩
      unfold Worker.stepTold
      rw [ht]
      simp only [e1, Option.map_some]
    · refine ⟨w', ?_, Or.inr e2, fun e => absurd e hd, Or.inr (e3 hd fun rs e => ht ⟨rs, e⟩)⟩
      unfold Worker.stepTold
      split
      · rename_i rs e
        exact absurd ⟨rs, e⟩ ht
      · exact e1

/-- No more than this. -/
theorem told_bound {cap icap : Nat} {w : Worker α σ ρ} (h : Live J cap icap w) : toldEffort J.z w < 96 * (icap + J.z.window + 2) := by
  obtain ⟨_, q, g, r, hp, _, hw⟩ := h
  have h1 := hw.fill
  have h2 := hp.1.fits
  rw [hw.cap] at h2
  have hb : toldLeft J.z (ghost w q) < 32 * (icap + J.z.window + 2) := by
    rcases Bool.eq_false_or_eq_true (ghost w q).cd.draining with hd | hd
    · rw [told_draining hd]
      have := rankDraining_le (ghost w q).pc
      omega
    · rw [told_plain hd]
      have := rankTold_le J.z (ghost w q).cd (ghost w q).pc
      omega
  rw [told_ghost] at hb
  have := extra_le w.pc
  unfold toldEffort
  omega

end

/-! ## All the threads -/

section
variable [Zero α] [Add α] [Sub α] {p : Params} {env : Env α σ ρ κ} {z : Sizes} {incs : List Int} {x₀ : Nat → Syn α σ} {all : List (Frame α)} {icaps caps : Nat → Nat} {n : Nat} {order : List Nat}

/-- What is kept while the caller waits. -/
structure Kept (p : Params) (env : Env α σ ρ κ) (z : Sizes) (incs : List Int) (x₀ : Nat → Syn α σ) (all : List (Frame α)) (icaps caps : Nat → Nat) (n : Nat) (order : List Nat) (s : Closing α σ ρ) : Prop where
  length : s.workers.length = n
  good : ∀ (c : Nat) w, s.workers[c]? = some w → Good (job p env z incs x₀ all c) (caps c) (icaps c) w
  order : ∃ before, order = before ++ s.left ∧ ∀ c ∈ before, ∃ w, s.workers[c]? = some w ∧ w.pc = .done
  left : ∀ c ∈ s.left, c < n

/-- A turn can be one of these. -/
def Turn.below (n : Nat) : Turn → Prop
  | .caller => True
  | .thread c => c < n

omit [Zero α] [Add α] [Sub α] in
theorem set_done {l : List (Worker α σ ρ)} {c d : Nat} {w w' : Worker α σ ρ} (hc : l[c]? = some w) (hd : w.pc = .done → w'.pc = .done) (h : ∃ v, l[d]? = some v ∧ v.pc = .done) :
    ∃ v, (l.set c w')[d]? = some v ∧ v.pc = .done := by
  obtain ⟨v, h1, h2⟩ := h
  by_cases e : c = d
  · subst e
    rw [hc] at h1
    cases h1
    exact ⟨w', List.getElem?_set_self (lt_of_get hc), hd h2⟩
  · exact ⟨v, by rw [List.getElem?_set_ne e]; exact h1, h2⟩

/-- A turn can be taken; what it does for the thread that is waited for. -/
theorem kept_step (hJ : AllOk p env z incs x₀ all) (hroom : ∀ c, c < n → (job p env z incs x₀ all c).out.length + z.window ≤ caps c) {s : Closing α σ ρ} (h : Kept p env z incs x₀ all icaps caps n order s) {e : Turn}
    (he : e.below n) : ∃ s', s.step p env z incs e = some s' ∧ Kept p env z incs x₀ all icaps caps n order s' ∧
      (s'.left.length < s.left.length ∨ s'.left = s.left ∧ (s.told = true → s'.told = true) ∧ (e = .caller → s.left ≠ [] → s.told = false → s'.told = true) ∧
        ∀ (c : Nat) cs, s.left = c :: cs → s.told = true → ∃ w w', s.workers[c]? = some w ∧ s'.workers[c]? = some w' ∧ (w.pc = .done → w'.pc = .done ∧ e ≠ .caller) ∧
          (w'.pc = .done ∨ toldEffort z w' + Turn.of c [e] ≤ toldEffort z w)) := by
  obtain ⟨workers, left, told⟩ := s
  obtain ⟨h1, h2, ⟨before, h3, h4⟩, h5⟩ := h
  simp only at h1 h2 h3 h4 h5
  cases e with
  | thread d =>
    have hd : d < workers.length := by rw [h1]; exact he
    have hw := List.getElem?_eq_getElem hd
    generalize workers[d] = w at hw
    have hg := h2 d w hw
    have hr : (job p env z incs x₀ all d).out.length + (job p env z incs x₀ all d).z.window ≤ caps d := hroom d he
    have key : ∀ w', Good (job p env z incs x₀ all d) (caps d) (icaps d) w' → (w.pc = .done → w'.pc = .done) → Kept p env z incs x₀ all icaps caps n order (⟨workers.set d w', left, told⟩ : Closing α σ ρ) := by
      intro w' g1 g2
      refine ⟨by simp only [List.length_set]; exact h1, ?_, ⟨before, h3, fun c hc => set_done hw g2 (h4 c hc)⟩, h5⟩
      intro c v hv
      rcases get_set hw hv with ⟨rfl, rfl⟩ | ⟨_, e⟩
      · exact g1
      · exact h2 c v e
    have other : ∀ w', ∀ c, c ≠ d → c < n → ∃ v v', workers[c]? = some v ∧ (workers.set d w')[c]? = some v' ∧ (v.pc = .done → v'.pc = .done ∧ Turn.thread d ≠ .caller) ∧
        (v'.pc = .done ∨ toldEffort z v' + Turn.of c [.thread d] ≤ toldEffort z v) := by
      intro w' c hcd hcn
      have hv := List.getElem?_eq_getElem (show c < workers.length by rw [h1]; exact hcn)
      refine ⟨_, _, hv, by rw [List.getElem?_set_ne (Ne.symm hcd)]; exact hv, fun e => ⟨e, by simp⟩, Or.inr ?_⟩
      have : Turn.of c [.thread d] = 0 := by simp [Turn.of, Ne.symm hcd]
      omega
    by_cases ht : told = true ∧ left.head? = some d
    · obtain ⟨w', g1, g2, g3, g4⟩ := good_told (hJ d) hr hg
      change w.stepTold p env z incs = _ at g1
      refine ⟨⟨workers.set d w', left, told⟩, ?_, key w' g2 g3, Or.inr ⟨rfl, id, by simp, ?_⟩⟩
      · unfold Closing.step
        simp only [hw, Option.bind_some, if_pos ht, g1, Option.map_some]
      · intro c cs hcs _
        simp only at hcs
        by_cases hcd : c = d
        · subst hcd
          refine ⟨w, w', hw, List.getElem?_set_self (lt_of_get hw), fun e => ⟨g3 e, by simp⟩, ?_⟩
          have : Turn.of c [.thread c] = 1 := by simp [Turn.of]
          rw [this]
          exact g4
        · exact other w' c hcd (h5 c (by rw [hcs]; exact List.mem_cons_self))
    · obtain ⟨w', g1, g2, g3⟩ := good_step (hJ d) hr hg
      change w.step p env z incs = _ at g1
      refine ⟨⟨workers.set d w', left, told⟩, ?_, key w' g2 g3, Or.inr ⟨rfl, id, by simp, ?_⟩⟩
      · unfold Closing.step
        simp only [hw, Option.bind_some, if_neg ht, g1, Option.map_some]
      · intro c cs hcs hto
        simp only at hcs hto
        have hcd : c ≠ d := by
          intro e
          exact ht ⟨hto, by rw [hcs, e]; rfl⟩
        exact other w' c hcd (h5 c (by rw [hcs]; exact List.mem_cons_self))
  | caller =>
    cases left with
    | nil => exact ⟨⟨workers, [], told⟩, rfl, ⟨h1, h2, ⟨before, h3, h4⟩, h5⟩, Or.inr ⟨rfl, id, fun _ e => absurd rfl e, fun c cs e => by cases e⟩⟩
    | cons c cs =>
      have hc : c < workers.length := by rw [h1]; exact h5 c List.mem_cons_self
      have hw := List.getElem?_eq_getElem hc
      generalize workers[c] = w at hw
      cases told with
      | false =>
        refine ⟨⟨workers, c :: cs, true⟩, by simp [Closing.step], ⟨h1, h2, ⟨before, h3, h4⟩, h5⟩, Or.inr ⟨rfl, fun _ => rfl, fun _ _ _ => rfl, fun _ _ _ e => by cases e⟩⟩
      | true =>
        by_cases hd : w.pc = .done
        · refine ⟨⟨workers, cs, false⟩, ?_, ⟨h1, h2, ⟨before ++ [c], by rw [h3]; simp, ?_⟩, fun d hd => h5 d (List.mem_cons_of_mem _ hd)⟩, Or.inl (by simp)⟩
          · simp [Closing.step, hw, hd]
          · intro d hd'
            rcases List.mem_append.mp hd' with hd' | hd'
            · exact h4 d hd'
            · rw [List.mem_singleton] at hd'
              subst hd'
              exact ⟨w, hw, hd⟩
        · refine ⟨⟨workers, c :: cs, true⟩, ?_, ⟨h1, h2, ⟨before, h3, h4⟩, h5⟩, Or.inr ⟨rfl, id, fun _ _ _ => rfl, ?_⟩⟩
          · simp only [Closing.step, if_true, hw, Option.bind_some]
          · intro d ds hcs _
            cases hcs
            exact ⟨w, w, hw, hw, fun e => absurd e hd, Or.inr (by simp [Turn.of])⟩

/-- Any number of turns. -/
theorem kept_run (hJ : AllOk p env z incs x₀ all) (hroom : ∀ c, c < n → (job p env z incs x₀ all c).out.length + z.window ≤ caps c) (es : List Turn) :
    ∀ {s : Closing α σ ρ}, Kept p env z incs x₀ all icaps caps n order s → (∀ e ∈ es, e.below n) → ∃ s', s.run p env z incs es = some s' ∧ Kept p env z incs x₀ all icaps caps n order s' ∧
      (s'.left.length < s.left.length ∨ s'.left = s.left ∧ (s.told = true → s'.told = true) ∧ (Turn.caller ∈ es → s.left ≠ [] → s'.told = true) ∧
        ∀ (c : Nat) cs, s.left = c :: cs → s.told = true → ∃ w w', s.workers[c]? = some w ∧ s'.workers[c]? = some w' ∧ (w.pc = .done → w'.pc = .done ∧ Turn.caller ∉ es) ∧
          (w'.pc = .done ∨ toldEffort z w' + Turn.of c es ≤ toldEffort z w)) := by
  induction es with
  | nil =>
    intro s h _
    refine ⟨s, rfl, h, Or.inr ⟨rfl, id, by simp, ?_⟩⟩
    intro c cs hcs _
    have hw := List.getElem?_eq_getElem (show c < s.workers.length by rw [h.length]; exact h.left c (by rw [hcs]; exact List.mem_cons_self))
    exact ⟨_, _, hw, hw, fun e => ⟨e, by simp⟩, Or.inr (by simp [Turn.of])⟩
  | cons e es ih =>
    intro s h hes
    obtain ⟨t, e1, e2, e3⟩ := kept_step hJ hroom h (hes e List.mem_cons_self)
    obtain ⟨s', f1, f2, f3⟩ := ih e2 fun e he => hes e (List.mem_cons_of_mem _ he)
    refine ⟨s', by unfold Closing.run; rw [e1]; exact f1, f2, ?_⟩
    rcases e3 with e3 | ⟨e3, e4, e5, e6⟩
    · left
      rcases f3 with f3 | ⟨f3, -⟩
      · omega
      · rw [f3]; exact e3
    · rcases f3 with f3 | ⟨f3, f4, f5, f6⟩
      · left; rw [← e3]; exact f3
      · refine Or.inr ⟨f3.trans e3, fun a => f4 (e4 a), ?_, ?_⟩
        · intro hm hne
          rcases List.mem_cons.mp hm with hm | hm
          · cases hto : s.told with
            | true => exact f4 (e4 hto)
            | false => exact f4 (e5 hm.symm hne hto)
          · exact f5 hm (by rw [e3]; exact hne)
        · intro c cs hcs hto
          obtain ⟨w, w', a1, a2, a3, a4⟩ := e6 c cs hcs hto
          obtain ⟨v, w'', b1, b2, b3, b4⟩ := f6 c cs (e3.trans hcs) (e4 hto)
          rw [a2] at b1
          cases b1
          refine ⟨w, w'', a1, b2, ?_, ?_⟩
          · intro hd
            obtain ⟨a3, a3'⟩ := a3 hd
            obtain ⟨b3, b3'⟩ := b3 a3
            refine ⟨b3, fun hm => ?_⟩
            rcases List.mem_cons.mp hm with hm | hm
            · exact a3' hm.symm
            · exact b3' hm
          · have hcount : Turn.of c (e :: es) = Turn.of c [e] + Turn.of c es := by
              unfold Turn.of
              rw [← List.countP_append]
              rfl
            rcases a4 with a4 | a4
            · exact Or.inl (b3 a4).1
            · rcases b4 with b4 | b4
              · exact Or.inl b4
              · right; omega

/-- What a round has for every thread and for the caller. -/
def Round (icaps : Nat → Nat) (z : Sizes) (n : Nat) (es : List Turn) : Prop := (∀ e ∈ es, e.below n) ∧ Turn.caller ∈ es ∧ ∀ c, c < n → 96 * (icaps c + z.window + 2) ≤ Turn.of c es

/-- Three rounds for one thread. -/
theorem kept_three (hJ : AllOk p env z incs x₀ all) (hroom : ∀ c, c < n → (job p env z incs x₀ all c).out.length + z.window ≤ caps c) {s : Closing α σ ρ} (h : Kept p env z incs x₀ all icaps caps n order s) (hne : s.left ≠ [])
    {a b c : List Turn} (ha : Round icaps z n a) (hb : Round icaps z n b) (hc : Round icaps z n c) :
    ∃ s₁ s₂ s₃, s.run p env z incs a = some s₁ ∧ s₁.run p env z incs b = some s₂ ∧ s₂.run p env z incs c = some s₃ ∧ Kept p env z incs x₀ all icaps caps n order s₃ ∧ s₃.left.length < s.left.length := by
  obtain ⟨s₁, a1, a2, a3⟩ := kept_run hJ hroom a h ha.1
  obtain ⟨s₂, b1, b2, b3⟩ := kept_run hJ hroom b a2 hb.1
  obtain ⟨s₃, c1, c2, c3⟩ := kept_run hJ hroom c b2 hc.1
  refine ⟨s₁, s₂, s₃, a1, b1, c1, c2, ?_⟩
  have le3 : s₃.left.length ≤ s₂.left.length := by rcases c3 with c3 | ⟨c3, -⟩; exacts [by omega, by rw [c3]]
  have le2 : s₂.left.length ≤ s₁.left.length := by rcases b3 with b3 | ⟨b3, -⟩; exacts [by omega, by rw [b3]]
  rcases a3 with a3 | ⟨a3, -, a5, -⟩
  · omega
  · have ht1 := a5 ha.2.1 hne
    rcases b3 with b3 | ⟨b3, b4, -, b6⟩
    · rw [a3] at b3; omega
    · have ht2 := b4 ht1
      rcases c3 with c3 | ⟨-, -, -, c6⟩
      · rw [b3, a3] at c3; exact c3
      · exfalso
        cases hl : s.left with
        | nil => exact hne hl
        | cons d ds =>
          have hl1 := a3.trans hl
          have hl2 := b3.trans hl1
          have hdn : d < n := h.left d (by rw [hl]; exact List.mem_cons_self)
          obtain ⟨w, w', x1, x2, x3, x4⟩ := b6 d ds hl1 ht1
          have hd : w'.pc = .done := by
            rcases a2.good d w x1 with g | g
            · exact (x3 g).1
            · rcases x4 with x4 | x4
              · exact x4
              · have hbnd := told_bound g
                change toldEffort z w < 96 * (icaps d + z.window + 2) at hbnd
                have := hb.2.2 d hdn
                omega
          obtain ⟨v, v', y1, y2, y3, y4⟩ := c6 d ds hl2 ht2
          rw [x2] at y1
          cases y1
          exact (y3 hd).2 hc.2.1

omit [Zero α] [Add α] [Sub α] in
theorem closing_append (p : Params) (env : Env α σ ρ κ) (z : Sizes) (incs : List Int) (es fs : List Turn) : ∀ s : Closing α σ ρ, s.run p env z incs (es ++ fs) = (s.run p env z incs es).bind fun s => s.run p env z incs fs := by
  induction es with
  | nil => intro s; rfl
  | cons e es ih =>
    intro s
    simp only [List.cons_append, Closing.run]
    cases s.step p env z incs e with
    | none => rfl
    | some t => exact ih t

/-- All of them. -/
theorem kept_rounds (hJ : AllOk p env z incs x₀ all) (hroom : ∀ c, c < n → (job p env z incs x₀ all c).out.length + z.window ≤ caps c) (k : Nat) :
    ∀ {s : Closing α σ ρ} {rounds : List (List Turn)}, Kept p env z incs x₀ all icaps caps n order s → (∀ r ∈ rounds, Round icaps z n r) → s.left.length ≤ k → 3 * k ≤ rounds.length →
    ∃ s', s.run p env z incs rounds.flatten = some s' ∧ Kept p env z incs x₀ all icaps caps n order s' ∧ s'.left = [] := by
  have stay : ∀ {s : Closing α σ ρ} {rounds : List (List Turn)}, Kept p env z incs x₀ all icaps caps n order s → (∀ r ∈ rounds, Round icaps z n r) → s.left = [] →
      ∃ s', s.run p env z incs rounds.flatten = some s' ∧ Kept p env z incs x₀ all icaps caps n order s' ∧ s'.left = [] := by
    intro s rounds h hr hl
    obtain ⟨s', e1, e2, e3⟩ := kept_run hJ hroom rounds.flatten h (fun e he => by
      obtain ⟨r, h1, h2⟩ := List.mem_flatten.mp he
      exact (hr r h1).1 e h2)
    refine ⟨s', e1, e2, ?_⟩
    rcases e3 with e3 | ⟨e3, -⟩
    · rw [hl] at e3; cases e3
    · rw [e3, hl]
  induction k with
  | zero =>
    intro s rounds h hr hl _
    exact stay h hr (List.eq_nil_of_length_eq_zero (Nat.le_zero.mp hl))
  | succ k ih =>
    intro s rounds h hr hl hk
    by_cases hne : s.left = []
    · exact stay h hr hne
    · match rounds, hr, hk with
      | [], _, hk => simp only [List.length_nil] at hk; omega
      | [_], _, hk => simp only [List.length_cons, List.length_nil] at hk; omega
      | [_, _], _, hk => simp only [List.length_cons, List.length_nil] at hk; omega
      | a :: b :: c :: rest, hr, hk =>
        obtain ⟨s₁, s₂, s₃, e1, e2, e3, e4, e5⟩ := kept_three hJ hroom h hne (hr a (by simp)) (hr b (by simp)) (hr c (by simp))
        obtain ⟨s', f1, f2, f3⟩ := ih (rounds := rest) e4 (fun r hr' => hr r (by simp [hr'])) (by omega) (by simp only [List.length_cons] at hk; omega)
        refine ⟨s', ?_, f2, f3⟩
        simp only [List.flatten_cons, closing_append, e1, e2, e3, Option.bind_some, f1]

end
end Verif.R2.Threads
