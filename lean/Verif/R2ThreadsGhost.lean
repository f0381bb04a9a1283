import Verif.R2ThreadsSmall
/-!
# The faster engine with threads and any user

What a thread does with its input does not depend on what becomes of its output.  So beside a stretcher whose user retrieves when and what they like there is one (a ghost) with output buffers that are long enough, from
which nothing is retrieved, and of which all is known.
-/
namespace Verif.R2.Threads
open Verif.R2

variable {α σ ρ κ : Type}

/-- Where the ghost of a thread is: its output buffer is never replaced. -/
def flat : Pc α → Pc α
  | .grow x => .limit x
  | .swap x _ => .limit x
  | pc => pc

/-- The ghost of a thread, with this output buffer. -/
def ghost (w : Worker α σ ρ) (q : Fifo α) : Worker α σ ρ := ⟨{ w.cd with outbuf := q }, [], flat w.pc⟩

/-- What is kept of the output buffer of a thread. -/
structure Solid (z : Sizes) (w : Worker α σ ρ) : Prop where
  room : Room z w.cd.outbuf
  new : ∀ x new, w.pc = .swap x new → Room z new ∧ z.window ≤ new.writeSpace
  space : ∀ x, (w.pc = .limit x ∨ ∃ T, w.pc = .emit x T) → x.si ≤ w.cd.outbuf.writeSpace

/-- Steps that the ghost does not take. -/
def extra : Pc α → Nat
  | .grow _ => 2
  | .swap _ _ => 1
  | _ => 0

theorem extra_le (pc : Pc α) : extra pc ≤ 2 := by unfold extra; split <;> omega

/-- How many turns a thread needs at most. -/
def effort (z : Sizes) (w : Worker α σ ρ) : Nat := 3 * turnsLeft z (ghost w w.cd.outbuf) + extra w.pc

theorem turns_ghost (z : Sizes) (w : Worker α σ ρ) (q : Fifo α) : turnsLeft z (ghost w q) = turnsLeft z (ghost w w.cd.outbuf) := rfl

theorem flat_done {pc : Pc α} : flat pc = .done ↔ pc = .done := by
  unfold flat
  split <;> simp

theorem Solid.plain {z : Sizes} {cd : Chan α σ ρ} {old : List (Fifo α)} {pc : Pc α} (h : Room z cd.outbuf) (h1 : ∀ x new, pc ≠ .swap x new) (h2 : ∀ x, pc ≠ .limit x) (h3 : ∀ x T, pc ≠ .emit x T) :
    Solid z (⟨cd, old, pc⟩ : Worker α σ ρ) :=
  ⟨h, fun x new e => absurd e (h1 x new), fun x e => by rcases e with e | ⟨T, e⟩; exacts [absurd e (h2 x), absurd e (h3 x T)]⟩

theorem room_emit (x y : Writing α) (T : Nat) (b : Prop) [Decidable b] : (if b then Pc.grow x else Pc.limit x) ≠ Pc.emit y T := by split <;> simp

theorem spectral_ghost (env : Env α σ ρ κ) (z : Sizes) (i : Incs) (cd : Chan α σ ρ) (q : Fifo α) : spectral env z i { cd with outbuf := q } = { spectral env z i cd with outbuf := q } := by
  unfold spectral
  simp only
  split <;> rfl

theorem getIncrements_ghost (z : Sizes) (incs : List Int) (cd : Chan α σ ρ) (q : Fifo α) : getIncrements z incs { cd with outbuf := q } =
    ({ (getIncrements z incs cd).1 with outbuf := q }, (getIncrements z incs cd).2) := by
  unfold getIncrements
  simp only
  split <;> rfl

theorem lessFill_ghost (si : Nat) (cd : Chan α σ ρ) (q : Fifo α) : lessFill si { cd with outbuf := q } = { lessFill si cd with outbuf := q } := by
  unfold lessFill
  simp only
  split <;> rfl

/-- The same is written. -/
theorem writeOutput_ghost (skip T : Nat) (cd : Chan α σ ρ) (q : Fifo α) (out : List α) (h1 : out.length ≤ cd.outbuf.writeSpace) (h2 : out.length ≤ q.writeSpace) :
    ∃ q', writeOutput skip T { cd with outbuf := q } out = { writeOutput skip T cd out with outbuf := q' } := by
  unfold writeOutput
  simp only
  split
  · refine ⟨q.write (out.take (if T > 0 ∧ cd.outCount - skip ≤ T ∧ cd.outCount - skip + out.length > T then T - (cd.outCount - skip) else out.length)), ?_⟩
    simp only
    congr 2
    have : ∀ n, n ≤ out.length → min n q.writeSpace = min n cd.outbuf.writeSpace := by intro n hn; omega
    exact this _ (by split <;> omega)
  · split
    · exact ⟨q, rfl⟩
    · exact ⟨_, rfl⟩

theorem writeOutput_room {z : Sizes} (skip T : Nat) (cd : Chan α σ ρ) (out : List α) (h : Room z cd.outbuf) : Room z (writeOutput skip T cd out).outbuf := by
  have key : ∀ xs : List α, Room z (cd.outbuf.write xs) := by
    intro xs
    refine ⟨?_, h.cap⟩
    have := h.fits
    simp only [Fifo.write, Fifo.writeSpace, List.length_append, List.length_take]
    omega
  unfold writeOutput
  split
  · exact key _
  · split
    · exact h
    · exact key _

section
variable [Zero α] {J : Job α σ ρ κ}

theorem settled_step (hJ : J.Ok) {cap g : Nat} {r : List α} {v v' : Worker α σ ρ} (h : Settled cap v) (hs : v.step J.p J.env J.z J.incs = some v') (hp : Phase J v' g r)
    (hroom : J.out.length + J.z.window ≤ cap) : Settled cap v' := by
  obtain ⟨a1, a2, a3⟩ := step_room J.p J.env J.z J.incs h hs
  refine ⟨a1, ?_, a2⟩
  intro x hx
  have hlt := a3 x hx
  have hpre := (phase_prefix hJ hp).length_le
  rw [List.length_append] at hpre
  have hm : Mid J v'.cd x := by
    have := hp.2
    rw [hx] at this
    exact this.1
  have hw := hm.window
  unfold required at hlt
  rw [hJ.fine.plain.pitch] at hlt
  simp only [ne_eq, not_true_eq_false, if_false] at hlt
  unfold Fifo.writeSpace at hlt
  rw [a1] at hlt
  omega

/-- A step of a thread is a step of its ghost, unless it is about to replace its output buffer. -/
theorem ghost_step (hJ : J.Ok) {w : Worker α σ ρ} {q : Fifo α} {g cap : Nat} {r : List α} (hw : Solid J.z w) (hp : Phase J (ghost w q) g r) (hset : Settled cap (ghost w q))
    (hroom : J.out.length + J.z.window ≤ cap) :
    ∃ w', w.step J.p J.env J.z J.incs = some w' ∧ Solid J.z w' ∧
      ((ghost w' q = ghost w q ∧ extra w'.pc < extra w.pc) ∨ ∃ q', (ghost w q).step J.p J.env J.z J.incs = some (ghost w' q')) := by
  obtain ⟨v', hv, hp', -⟩ := step_phase hJ hp
  have hset' := settled_step hJ hset hv hp' hroom
  obtain ⟨cd, old, pc⟩ := w
  have hr : Room J.z cd.outbuf := hw.room
  have hpl := hJ.fine.plain
  cases pc with
  | top => refine ⟨_, rfl, ?_, Or.inr ⟨q, ?_⟩⟩
           · split <;> exact .plain hr (by simp) (by simp) (by simp)
           · unfold ghost flat Worker.step; simp only; split <;> rfl
  | left => refine ⟨_, rfl, ?_, Or.inr ⟨q, ?_⟩⟩
            · split <;> exact .plain hr (by simp) (by simp) (by simp)
            · unfold ghost flat Worker.step; simp only; split <;> rfl
  | test k => exact ⟨_, rfl, .plain hr (by simp) (by simp) (by simp), Or.inr ⟨q, rfl⟩⟩
  | tested k rs =>
    have no : Solid J.z (⟨cd, old, k.no⟩ : Worker α σ ρ) := by cases k <;> exact .plain hr (by simp [Asker.no]) (by simp [Asker.no]) (by simp [Asker.no])
    have yes : ∀ cd' : Chan α σ ρ, cd'.outbuf = cd.outbuf → Solid J.z (⟨cd', old, k.yes⟩ : Worker α σ ρ) := by
      intro cd' e
      cases k <;> exact .plain (by rw [e]; exact hr) (by simp [Asker.yes]) (by simp [Asker.yes]) (by simp [Asker.yes])
    have gno : ghost (⟨cd, old, k.no⟩ : Worker α σ ρ) q = ⟨{ cd with outbuf := q }, [], k.no⟩ := by cases k <;> rfl
    have gyes : ∀ cd' : Chan α σ ρ, ghost (⟨cd', old, k.yes⟩ : Worker α σ ρ) q = ⟨{ cd' with outbuf := q }, [], k.yes⟩ := by intro cd'; cases k <;> rfl
    by_cases h1 : rs < J.z.window ∧ cd.draining = false
    · by_cases h2 : cd.inputSize.isNone = true
      · refine ⟨⟨cd, old, k.no⟩, ?_, no, Or.inr ⟨q, ?_⟩⟩
        · unfold Worker.step; simp only [h1, h2, and_self, if_true]
        · rw [gno]; unfold Worker.step ghost; simp only [flat, h1, h2, and_self, if_true]
      · by_cases h3 : rs = 0
        · refine ⟨⟨cd, old, k.no⟩, ?_, no, Or.inr ⟨q, ?_⟩⟩
          · unfold Worker.step; simp only [h1, h2, and_self, if_true, if_false, if_pos h3]; simp
          · rw [gno]; unfold Worker.step ghost; simp only [flat, h1, h2, and_self, if_true, if_false, if_pos h3]; simp
        · by_cases h4 : rs < J.z.window / 2
          · refine ⟨⟨{ cd with draining := true }, old, k.yes⟩, ?_, yes _ rfl, Or.inr ⟨q, ?_⟩⟩
            · unfold Worker.step; simp only [h1, h2, and_self, if_true, if_false, if_neg h3, h4]; simp
            · rw [gyes]; unfold Worker.step ghost; simp only [flat, h1, h2, and_self, if_true, if_false, if_neg h3, h4]; simp
          · refine ⟨⟨cd, old, k.yes⟩, ?_, yes _ rfl, Or.inr ⟨q, ?_⟩⟩
            · unfold Worker.step; simp only [h1, h2, and_self, if_true, if_false, if_neg h3, h4]; simp
            · rw [gyes]; unfold Worker.step ghost; simp only [flat, h1, h2, and_self, if_true, if_false, if_neg h3, h4]; simp
    · refine ⟨⟨cd, old, k.yes⟩, ?_, yes _ rfl, Or.inr ⟨q, ?_⟩⟩
      · unfold Worker.step; simp only [h1, if_false]
      · rw [gyes]; unfold Worker.step ghost; simp only [flat, h1, if_false]
  | take after =>
    by_cases hd : cd.draining = true
    · refine ⟨⟨cd, old, .skip after⟩, ?_, .plain hr (by simp) (by simp) (by simp), Or.inr ⟨q, ?_⟩⟩
      · unfold Worker.step; simp only [hd, if_true]
      · unfold Worker.step ghost; simp only [flat, hd, if_true]
    · refine ⟨⟨{ cd with fltbuf := fun i => (cd.inbuf.peek J.z.window).getD i (cd.fltbuf i) }, old, .skip after⟩, ?_, .plain hr (by simp) (by simp) (by simp), Or.inr ⟨q, ?_⟩⟩
      · unfold Worker.step; simp only [hd, if_false]; rfl
      · unfold Worker.step ghost; simp only [flat, hd, if_false]; rfl
  | skip after =>
    refine ⟨_, rfl, ?_, Or.inr ⟨q, ?_⟩⟩
    · refine .plain ?_ (by simp) (by simp) (by simp)
      show Room J.z (getIncrements J.z J.incs _).1.outbuf
      rw [(getIncrements_other J.z J.incs _).2.2]
      split <;> exact hr
    · unfold ghost flat Worker.step
      simp only
      have e : (if cd.draining = true then { cd with outbuf := q } else { cd with outbuf := q, inbuf := cd.inbuf.skip J.z.increment } : Chan α σ ρ) =
          { (if cd.draining = true then cd else { cd with inbuf := cd.inbuf.skip J.z.increment } : Chan α σ ρ) with outbuf := q } := by split <;> rfl
      rw [e, getIncrements_ghost]
      rfl
  | piece after tmp todo last =>
    cases todo with
    | nil =>
      refine ⟨_, rfl, ?_, Or.inr ⟨q, ?_⟩⟩
      · refine .plain hr ?_ ?_ ?_ <;> (unfold next asker; cases last <;> cases after <;> simp)
      · unfold ghost Worker.step
        simp only [flat]
        congr 2
        unfold next asker
        cases last <;> cases after <;> rfl
    | cons i todo =>
      refine ⟨_, rfl, ?_, Or.inr ⟨q, ?_⟩⟩
      · unfold beginPiece
        simp only
        have e : (spectral J.env J.z i { cd with fltbuf := tmp }).outbuf = cd.outbuf := (spectral_same J.env J.z i { cd with fltbuf := tmp }).1
        generalize spectral J.env J.z i { cd with fltbuf := tmp } = cd' at e
        split
        · exact .plain (by rw [e]; exact hr) (by simp) (by simp) (by simp)
        · refine ⟨by rw [e]; exact hr, fun x new he => absurd he ((room_pc _ _).1 x new), ?_⟩
          intro x hx
          simp only at hx ⊢
          rcases hx with hx | ⟨T, hx⟩
          · by_cases hb : cd'.outbuf.writeSpace < required J.z (if (cd'.draining && decide (cd'.accumulatorFill ≤ if (cd'.draining && i.shift == 0) = true then J.z.increment else i.shift)) = true then cd'.accumulatorFill
                else if (cd'.draining && i.shift == 0) = true then J.z.increment else i.shift)
            · rw [if_pos hb] at hx; cases hx
            · rw [if_neg hb] at hx
              injection hx with hx
              subst hx
              unfold required at hb
              rw [hpl.pitch] at hb
              simp only [ne_eq, not_true_eq_false, if_false] at hb
              simp only
              omega
          · exact absurd hx (room_emit _ _ _ _)
      · have hv2 : (ghost ⟨cd, old, .piece after tmp (i :: todo) last⟩ q).step J.p J.env J.z J.incs =
            some (beginPiece J.env J.z after tmp i todo (ghost ⟨cd, old, .piece after tmp (i :: todo) last⟩ q)) := rfl
        rw [hv2]
        rw [hv2] at hv
        cases hv
        have hg := hset'.grow
        congr 1
        unfold beginPiece at hg ⊢
        have e : ({ (ghost ⟨cd, old, .piece after tmp (i :: todo) last⟩ q).cd with fltbuf := tmp } : Chan α σ ρ) = { ({ cd with fltbuf := tmp } : Chan α σ ρ) with outbuf := q } := rfl
        rw [e, spectral_ghost] at hg ⊢
        simp only at hg ⊢
        generalize spectral J.env J.z i { cd with fltbuf := tmp } = cd' at hg ⊢
        split
        · rfl
        · rename_i hn
          rw [if_neg hn] at hg
          simp only at hg
          generalize (if (cd'.draining && decide (cd'.accumulatorFill ≤ if (cd'.draining && i.shift == 0) = true then J.z.increment else i.shift)) = true then cd'.accumulatorFill
                else if (cd'.draining && i.shift == 0) = true then J.z.increment else i.shift) = si at hg ⊢
          generalize (cd'.draining && decide (cd'.accumulatorFill ≤ if (cd'.draining && i.shift == 0) = true then J.z.increment else i.shift)) = last' at hg ⊢
          have hb : ¬ q.writeSpace < required J.z si := by
            intro hb
            rw [if_pos hb] at hg
            exact hg _ rfl
          rw [if_neg hb]
          unfold ghost
          simp only
          split <;> rfl
  | grow x =>
    refine ⟨_, rfl, ⟨hr, ?_, ?_⟩, Or.inl ⟨rfl, ?_⟩⟩
    · intro y new e
      simp only [Pc.swap.injEq] at e
      obtain ⟨_, rfl⟩ := e
      have h1 := hr.fits
      have h2 := hr.cap
      unfold Fifo.resized Fifo.writeSpace
      refine ⟨⟨?_, ?_⟩, ?_⟩
      · simp only [List.length_take]; omega
      · simp only; omega
      · simp only [List.length_take]; omega
    · intro y e
      rcases e with e | ⟨T, e⟩ <;> cases e
    · exact Nat.lt_succ_self 1
  | swap x new =>
    obtain ⟨n1, n2⟩ := hw.new x new rfl
    refine ⟨_, rfl, ⟨n1, ?_, ?_⟩, Or.inl ⟨rfl, ?_⟩⟩
    · intro y n e; cases e
    · intro y e
      rcases e with e | ⟨T, e⟩
      · simp only [Pc.limit.injEq] at e
        subst e
        have hm : Mid J { cd with outbuf := q } x := hp.2.1.1
        have := hm.window
        simp only
        omega
      · cases e
    · exact Nat.lt_succ_self 0
  | limit x =>
    refine ⟨_, rfl, ⟨hr, ?_, ?_⟩, Or.inr ⟨q, rfl⟩⟩
    · intro y n e; cases e
    · intro y e
      rcases e with e | ⟨T, e⟩
      · cases e
      · simp only [Pc.emit.injEq] at e
        obtain ⟨rfl, _⟩ := e
        exact hw.space x (Or.inl rfl)
  | emit x T =>
    have hm : (Mid J { cd with outbuf := q } x ∧ x.si ≤ q.writeSpace) := hp.2.1
    have hsi : ¬ x.si > cd.accumulatorFill := by have := hm.1.si; simp only at this; omega
    have hsp : x.si ≤ cd.outbuf.writeSpace := hw.space x (Or.inr ⟨T, rfl⟩)
    have hlen : ((List.range x.si).map (J.env.emit cd.spec)).length = x.si := by simp
    obtain ⟨q', hq'⟩ := writeOutput_ghost (startSkip J.p J.z) T cd q ((List.range x.si).map (J.env.emit cd.spec)) (by rw [hlen]; exact hsp) (by rw [hlen]; exact hm.2)
    refine ⟨⟨writeOutput (startSkip J.p J.z) T cd ((List.range x.si).map (J.env.emit cd.spec)), old, .settle x⟩, ?_, ?_, Or.inr ⟨q', ?_⟩⟩
    · unfold Worker.step
      simp only [if_neg hsi, resampled_plain hpl]
    · exact .plain (writeOutput_room _ _ _ _ hr) (by simp) (by simp) (by simp)
    · unfold Worker.step ghost
      simp only [flat, if_neg hsi, resampled_plain hpl]
      rw [hq']
  | settle x =>
    refine ⟨_, rfl, ?_, Or.inr ⟨q, ?_⟩⟩
    · refine .plain ?_ (by simp) (by simp) (by simp)
      rw [(lessFill_other _ _).2.2]
      exact hr
    · unfold ghost flat Worker.step
      simp only
      rw [← lessFill_ghost]
  | done => exact ⟨_, rfl, .plain hr (by simp) (by simp) (by simp), Or.inr ⟨q, rfl⟩⟩

end

end Verif.R2.Threads
