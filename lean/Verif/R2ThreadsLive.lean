import Verif.R2ThreadsTold
/-!
# The faster engine with threads: that they get on
-/
namespace Verif.R2.Threads
open Verif.R2

variable {α σ ρ κ : Type}

/-- How many chunks a thread can have before it at most: one for each sample in the input buffer and in the accumulator. -/
def chunksLeft (z : Sizes) (cd : Chan α σ ρ) : Nat := if cd.draining then cd.accumulatorFill else cd.inbuf.data.length + z.window + 1

/-- How far a thread is in a chunk that is not drained: steps to the point where the input is given up. -/
def rankPlain (z : Sizes) (cd : Chan α σ ρ) : Pc α → Nat
  | .piece _ _ (_ :: _) _ => 20
  | .grow _ => 19
  | .swap _ _ => 18
  | .limit _ => 17
  | .emit _ _ => 16
  | .settle _ => 15
  | .piece _ _ [] _ => 14
  | .tested .loop rs => if cd.inputSize = none ∧ rs < z.window then 13 else 7
  | .test .waiting => 12
  | .tested .waiting _ => 11
  | .top => 10
  | .left => 9
  | .test .loop => 8
  | .take _ => 6
  | .skip _ => 5
  | _ => 0

/-- How far a thread is in a chunk that is drained: steps to the point where the accumulator is moved up, or to the end. -/
def rankDraining : Pc α → Nat
  | .piece false _ [] true => 31
  | .test .after => 30
  | .tested .after _ => 29
  | .take true => 28
  | .skip true => 27
  | .piece true _ (_ :: _) _ => 26
  | .piece true _ [] _ => 25
  | .piece false _ [] false => 20
  | .test .waiting => 19
  | .tested .waiting _ => 18
  | .top => 17
  | .left => 16
  | .test .loop => 15
  | .tested .loop _ => 14
  | .take false => 13
  | .skip false => 12
  | .piece false _ (_ :: _) _ => 11
  | .grow _ => 10
  | .swap _ _ => 9
  | .limit _ => 8
  | .emit _ _ => 7
  | .settle _ => 6
  | .done => 0

/-- How many turns a thread needs at most. -/
def turnsLeft (z : Sizes) (w : Worker α σ ρ) : Nat := 32 * chunksLeft z w.cd + if w.cd.draining then rankDraining w.pc else rankPlain z w.cd w.pc

theorem rankPlain_le (z : Sizes) (cd : Chan α σ ρ) (pc : Pc α) : rankPlain z cd pc ≤ 20 := by
  unfold rankPlain
  split <;> (try split) <;> omega

theorem rankDraining_le (pc : Pc α) : rankDraining pc ≤ 31 := by
  unfold rankDraining
  split <;> omega

/-- Some of the accumulator is given up by a chunk that is drained. -/
def Sound (w : Worker α σ ρ) : Prop :=
  match w.pc with
  | .grow x => w.cd.draining = true → 1 ≤ x.si
  | .swap x _ => w.cd.draining = true → 1 ≤ x.si
  | .limit x => w.cd.draining = true → 1 ≤ x.si
  | .emit x _ => w.cd.draining = true → 1 ≤ x.si
  | .settle x => w.cd.draining = true → 1 ≤ x.si
  | _ => True

/-- There is something to be done. -/
def Fed (z : Sizes) (w : Worker α σ ρ) : Prop := w.cd.inputSize.isSome = true ∨ z.window ≤ w.cd.inbuf.data.length

theorem spectral_draining (env : Env α σ ρ κ) (z : Sizes) (i : Incs) (cd : Chan α σ ρ) : (spectral env z i cd).draining = cd.draining ∧
    (cd.draining = true → (spectral env z i cd).accumulatorFill = cd.accumulatorFill) := by
  unfold spectral
  cases hd : cd.draining
  · refine ⟨?_, fun e => by cases e⟩
    split <;> first | rfl | exact hd
  · simp [hd]

/-- `turnsLeft` of a thread that is not being drained, and of one that is. -/
theorem turns_plain {z : Sizes} {w : Worker α σ ρ} (h : w.cd.draining = false) : turnsLeft z w = 32 * (w.cd.inbuf.data.length + z.window + 1) + rankPlain z w.cd w.pc := by
  unfold turnsLeft chunksLeft
  simp [h]

theorem turns_draining {z : Sizes} {w : Worker α σ ρ} (h : w.cd.draining = true) : turnsLeft z w = 32 * w.cd.accumulatorFill + rankDraining w.pc := by
  unfold turnsLeft chunksLeft
  simp [h]

/-- A step that leaves the channel as it is. -/
theorem turns_pc {z : Sizes} {cd : Chan α σ ρ} {o o' : List (Fifo α)} {pc pc' : Pc α} (h1 : cd.draining = false → rankPlain z cd pc' < rankPlain z cd pc)
    (h2 : cd.draining = true → rankDraining pc' < rankDraining pc) : turnsLeft z (⟨cd, o', pc'⟩ : Worker α σ ρ) < turnsLeft z ⟨cd, o, pc⟩ := by
  cases hd : cd.draining with
  | false => rw [turns_plain (w := ⟨cd, o', pc'⟩) hd, turns_plain (w := ⟨cd, o, pc⟩) hd]; have := h1 hd; simp only; omega
  | true => rw [turns_draining (w := ⟨cd, o', pc'⟩) hd, turns_draining (w := ⟨cd, o, pc⟩) hd]; have := h2 hd; simp only; omega

theorem rank_room (x y : Writing α) (b : Prop) [Decidable b] (z : Sizes) (cd : Chan α σ ρ) :
    rankDraining (if b then Pc.grow x else Pc.limit y) ≤ 10 ∧ rankPlain z cd (if b then Pc.grow x else Pc.limit y) ≤ 19 := by
  split <;> simp [rankDraining, rankPlain]

/-- A step that leaves the input and the accumulator as they are. -/
theorem turns_same {z : Sizes} {cd cd' : Chan α σ ρ} {o o' : List (Fifo α)} {pc pc' : Pc α} (e1 : cd'.draining = cd.draining) (e2 : cd'.inbuf = cd.inbuf)
    (e3 : cd.draining = true → cd'.accumulatorFill = cd.accumulatorFill) (h1 : cd.draining = false → rankPlain z cd' pc' < rankPlain z cd pc)
    (h2 : cd.draining = true → rankDraining pc' < rankDraining pc) : turnsLeft z (⟨cd', o', pc'⟩ : Worker α σ ρ) < turnsLeft z ⟨cd, o, pc⟩ := by
  rcases Bool.eq_false_or_eq_true cd.draining with hd | hd
  · rw [turns_draining (w := ⟨cd', o', pc'⟩) (e1.trans hd), turns_draining (w := ⟨cd, o, pc⟩) hd]
    have := h2 hd
    simp only [e3 hd]
    omega
  · rw [turns_plain (w := ⟨cd', o', pc'⟩) (e1.trans hd), turns_plain (w := ⟨cd, o, pc⟩) hd]
    have := h1 hd
    simp only [e2]
    omega

section
variable [Zero α] {J : Job α σ ρ κ}

theorem idle_fill (hJ : J.Ok) {cd : Chan α σ ρ} {g : Nat} {r : List α} (h : Idle J cd g r) (hd : cd.draining = false) : cd.accumulatorFill ≤ J.z.window := by
  rcases h with ⟨j, _, h2, _⟩ | ⟨h, h1, _⟩
  · have : cd.accumulatorFill = (J.syn j).fill := congrArg Syn.fill h2
    rw [this]
    exact fill_le hJ j
  · have := h1.drain.draining
    rw [hd] at this
    cases this

/-- What a thread at work has before it becomes less with each of its turns. -/
theorem step_less (hJ : J.Ok) {w w' : Worker α σ ρ} {g : Nat} {r : List α} (h : Phase J w g r) (hp : Sound w) (hf : Fed J.z w) (hn : w.pc ≠ .done)
    (hs : w.step J.p J.env J.z J.incs = some w') : turnsLeft J.z w' < turnsLeft J.z w := by
  obtain ⟨cd, old, pc⟩ := w
  have hc : Common J cd g := h.1
  replace h := h.2
  have hw2 : 1 ≤ J.z.window / 2 := by have := hJ.fine.inc; have := hJ.fine.window; omega
  have hinc := hJ.fine.inc
  unfold Worker.step at hs
  cases pc with
  | top =>
    simp only [Option.some.injEq] at hs
    subst hs
    split
    · exact turns_pc (fun _ => by simp [rankPlain]) (fun _ => by simp [rankDraining])
    · exact turns_pc (fun _ => by simp [rankPlain]) (fun _ => by simp [rankDraining])
  | left =>
    simp only [Option.some.injEq] at hs
    subst hs
    have h1 := idle_some hJ hc.le h.1
    have h1' : cd.inbuf.readSpace > 0 := h1
    simp only [if_pos h1']
    exact turns_pc (fun _ => by simp [rankPlain]) (fun _ => by simp [rankDraining])
  | test k =>
    simp only [Option.some.injEq] at hs
    subst hs
    cases k with
    | loop =>
      refine turns_pc (fun _ => ?_) (fun _ => by simp [rankDraining])
      have : ¬ (cd.inputSize = none ∧ cd.inbuf.readSpace < J.z.window) := by
        rintro ⟨a, b⟩
        rcases hf with hf | hf
        · have hf' : cd.inputSize.isSome = true := hf
          rw [a] at hf'
          cases hf'
        · have hf' : J.z.window ≤ cd.inbuf.data.length := hf
          unfold Fifo.readSpace at b
          omega
      simp only [rankPlain, if_neg this]
      omega
    | after =>
      have o : Over J cd r := by simpa using h
      exact turns_pc (fun e => by rw [o.drain.draining] at e; cases e) (fun _ => by simp [rankDraining])
    | waiting => exact turns_pc (fun _ => by simp [rankPlain]) (fun _ => by simp [rankDraining])
  | tested k rs =>
    simp only at hs
    cases k with
    | after =>
      have o : Over J cd r := by simpa using h
      have hd := o.drain.draining
      simp only [hd, Bool.true_eq_false, and_false, if_false, Option.some.injEq] at hs
      subst hs
      exact turns_pc (fun e => by rw [hd] at e; cases e) (fun _ => by simp [rankDraining, Asker.yes])
    | loop =>
      obtain ⟨h1, h2, h3⟩ : Idle J cd g r ∧ rs ≤ cd.inbuf.readSpace ∧ (J.z.window / 2 ≤ rs ∨ rs = cd.inbuf.readSpace ∧ cd.inputSize.isSome = true) := by simpa using h
      have hle := idle_some hJ hc.le h1
      have hrs : rs ≠ 0 := by
        unfold Fifo.readSpace at h3
        omega
      split at hs
      · rename_i hr
        split at hs
        · rename_i hi
          cases hs
          have hi' : cd.inputSize = none := Option.isNone_iff_eq_none.mp hi
          refine turns_pc (fun _ => ?_) (fun e => by rw [hr.2] at e; cases e)
          simp only [rankPlain, Asker.no, if_pos (And.intro hi' hr.1)]
          omega
        · rename_i hi
          · split at hs
            · cases hs
              rw [turns_plain (w := ⟨cd, old, _⟩) hr.2, turns_draining (by rfl)]
              have := idle_fill hJ h1 hr.2
              have := rankDraining_le (Asker.loop.yes : Pc α)
              simp only
              omega
            · cases hs
              have hi' : ¬ (cd.inputSize = none ∧ rs < J.z.window) := fun e => hi (by rw [e.1]; rfl)
              refine turns_pc (fun _ => ?_) (fun e => by rw [hr.2] at e; cases e)
              simp only [rankPlain, Asker.yes, if_neg hi']
              omega
      · rename_i hr
        cases hs
        refine turns_pc (fun e => ?_) (fun _ => by simp [rankDraining, Asker.yes])
        have hi' : ¬ (cd.inputSize = none ∧ rs < J.z.window) := fun a => hr ⟨a.2, e⟩
        simp only [rankPlain, Asker.yes, if_neg hi']
        omega
    | waiting =>
      obtain ⟨h1, h2, h3⟩ : Idle J cd g r ∧ rs ≤ cd.inbuf.readSpace ∧ (J.z.window / 2 ≤ rs ∨ rs = cd.inbuf.readSpace ∧ cd.inputSize.isSome = true) := by simpa using h
      have hpc : ∀ pc : Pc α, pc = .top → turnsLeft J.z (⟨cd, old, pc⟩ : Worker α σ ρ) < turnsLeft J.z ⟨cd, old, .tested .waiting rs⟩ := by
        intro pc e
        subst e
        exact turns_pc (fun _ => by simp [rankPlain]) (fun _ => by simp [rankDraining])
      split at hs
      · rename_i hr
        split at hs
        · cases hs; exact hpc _ rfl
        · split at hs
          · cases hs; exact hpc _ rfl
          · split at hs
            · cases hs
              rw [turns_plain (w := ⟨cd, old, _⟩) hr.2, turns_draining (by rfl)]
              have := idle_fill hJ h1 hr.2
              have := rankDraining_le (Asker.waiting.yes : Pc α)
              simp only
              omega
            · cases hs; exact hpc _ rfl
      · cases hs; exact hpc _ rfl
  | take after =>
    have hlow : ∀ cd' : Chan α σ ρ, cd'.draining = cd.draining → cd'.inbuf = cd.inbuf → cd'.accumulatorFill = cd.accumulatorFill →
        turnsLeft J.z (⟨cd', old, .skip after⟩ : Worker α σ ρ) < turnsLeft J.z ⟨cd, old, .take after⟩ := by
      intro cd' e1 e2 e3
      exact turns_same e1 e2 (fun _ => e3) (fun _ => by simp [rankPlain]) (fun _ => by cases after <;> simp [rankDraining])
    simp only at hs
    split at hs
    · cases hs; exact hlow cd rfl rfl rfl
    · cases hs; exact hlow _ rfl rfl rfl
  | skip after =>
    simp only [Option.some.injEq] at hs
    subst hs
    generalize hcd' : (if cd.draining = true then cd else { cd with inbuf := cd.inbuf.skip J.z.increment }) = cd'
    obtain ⟨g1, g2⟩ := getIncrements_eq J.z J.incs cd'
    rw [g1]
    rcases Bool.eq_false_or_eq_true cd.draining with hd | hd
    · have e : cd' = cd := by rw [← hcd', if_pos hd]
      subst e
      rw [g2, pieces_short hJ.fine]
      exact turns_same rfl rfl (fun _ => rfl) (fun e => by rw [hd] at e; cases e) (fun _ => by cases after <;> simp [rankDraining])
    · have e : cd' = { cd with inbuf := cd.inbuf.skip J.z.increment } := by rw [← hcd', if_neg (by simp [hd])]
      subst e
      rw [turns_plain (w := ⟨cd, old, _⟩) hd, turns_plain (by exact hd)]
      have hlen : 1 ≤ cd.inbuf.data.length := by
        simp only at h
        split at h
        · have := h.drain.draining
          rw [hd] at this
          cases this
        · rcases h with ⟨j, h1, _, _⟩ | ⟨h, h1, _⟩
          · have hX := J.length_X
            have h2 := h1.full j (by omega)
            have h3 := hc.le
            have hda : cd.inbuf.data = _ := h1.data
            rw [hda, List.length_drop, List.length_take]
            omega
          · have := h1.drain.draining
            rw [hd] at this
            cases this
      have h20 := rankPlain_le (α := α) (σ := σ) (ρ := ρ) J.z
      show 32 * ((cd.inbuf.data.drop J.z.increment).length + J.z.window + 1) + _ < 32 * (cd.inbuf.data.length + J.z.window + 1) + 5
      rw [List.length_drop]
      refine lt_of_le_of_lt (Nat.add_le_add_left (h20 _ _) _) ?_
      omega
  | piece after tmp todo last =>
    cases todo with
    | nil =>
      simp only [Option.some.injEq] at hs
      subst hs
      simp only at h
      cases last with
      | true =>
        have o : Over J cd r := by simpa using h
        have hd := o.drain.draining
        rw [turns_draining (w := ⟨cd, old, _⟩) hd, turns_draining (by exact hd)]
        cases after <;> simp [rankDraining, next]
      | false =>
        have h1 : after = false := by
          simp only [Bool.false_eq_true, if_false] at h
          exact h.1
        subst h1
        exact turns_same rfl rfl (fun _ => rfl) (fun _ => by simp [rankPlain, next, asker]) (fun _ => by simp [rankDraining, next, asker])
    | cons i todo =>
      simp only [Option.some.injEq] at hs
      subst hs
      simp only at h
      obtain ⟨s1, s2⟩ := spectral_draining J.env J.z i ({ cd with fltbuf := tmp } : Chan α σ ρ)
      obtain ⟨s3, s4, s5, s6⟩ := spectral_same J.env J.z i ({ cd with fltbuf := tmp } : Chan α σ ρ)
      unfold beginPiece
      simp only
      generalize spectral J.env J.z i ({ cd with fltbuf := tmp } : Chan α σ ρ) = cd' at s1 s2 s3 s4 s5 s6
      replace s1 : cd'.draining = cd.draining := s1
      replace s2 : cd.draining = true → cd'.accumulatorFill = cd.accumulatorFill := s2
      replace s4 : cd'.inbuf = cd.inbuf := s4
      obtain ⟨h0, h⟩ := h
      subst h0
      rcases Bool.eq_false_or_eq_true cd.draining with hd | hd
      · have hd' := s1.trans hd
        have hfill := s2 hd
        cases after with
        | true =>
          have o : Over J cd r := by simpa using h
          have h0 : (cd'.accumulatorFill == 0) = true := by rw [hfill, o.fill]; rfl
          rw [if_pos (by rw [hd', h0]; rfl)]
          exact turns_same s1 s4 (fun _ => hfill) (fun e => by rw [hd] at e; cases e) (fun _ => by simp [rankDraining])
        | false =>
          have hb : Begun J cd g r i := by
            have : tmp = cd.fltbuf ∧ Begun J cd g r i := by simpa using h
            exact this.2
          have hne : cd'.accumulatorFill ≠ 0 := by
            rw [hfill]
            rcases hb with ⟨j, h1, _, _⟩ | ⟨S, h, h1, h2, _⟩
            · have := h1.draining
              rw [hd] at this
              cases this
            · rw [h2.fill]
              exact h1.fill
          have hne' : (cd'.accumulatorFill == 0) = false := by simpa using hne
          rw [if_neg (by rw [hd', hne']; simp)]
          exact turns_same s1 s4 (fun _ => hfill) (fun e => by rw [hd] at e; cases e) (fun _ => lt_of_le_of_lt (rank_room _ _ _ J.z cd').1 (by simp [rankDraining]))
      · have hd' := s1.trans hd
        rw [if_neg (by rw [hd']; simp)]
        exact turns_same s1 s4 s2 (fun _ => lt_of_le_of_lt (rank_room _ _ _ J.z cd').2 (by simp [rankPlain])) (fun e => by rw [hd] at e; cases e)
  | grow x =>
    simp only [Option.some.injEq] at hs
    subst hs
    exact turns_pc (fun _ => by simp [rankPlain]) (fun _ => by simp [rankDraining])
  | swap x new =>
    simp only [Option.some.injEq] at hs
    subst hs
    exact turns_same rfl rfl (fun _ => rfl) (fun _ => by simp [rankPlain]) (fun _ => by simp [rankDraining])
  | limit x =>
    simp only [Option.some.injEq] at hs
    subst hs
    exact turns_pc (fun _ => by simp [rankPlain]) (fun _ => by simp [rankDraining])
  | emit x θ =>
    simp only at hs
    split at hs
    · cases hs
    · rw [resampled_plain hJ.fine.plain] at hs
      cases hs
      have hw : (writeOutput (startSkip J.p J.z) θ cd ((List.range x.si).map (J.env.emit cd.spec))).draining = cd.draining ∧
          (writeOutput (startSkip J.p J.z) θ cd ((List.range x.si).map (J.env.emit cd.spec))).inbuf = cd.inbuf ∧
          (writeOutput (startSkip J.p J.z) θ cd ((List.range x.si).map (J.env.emit cd.spec))).accumulatorFill = cd.accumulatorFill := by
        unfold writeOutput
        split
        · exact ⟨rfl, rfl, rfl⟩
        · split
          · exact ⟨rfl, rfl, rfl⟩
          · exact ⟨rfl, rfl, rfl⟩
      exact turns_same hw.1 hw.2.1 (fun _ => hw.2.2) (fun _ => by simp [rankPlain]) (fun _ => by simp [rankDraining])
  | settle x =>
    simp only [Option.some.injEq] at hs
    subst hs
    have hm : Mid J cd x := h.1
    have hsi := hm.si
    have haf := hm.after
    have htodo := hm.todo
    obtain ⟨af, tmp, todo, si, last⟩ := x
    simp only at haf htodo hsi
    subst haf htodo
    have hl : ∀ cd' : Chan α σ ρ, cd'.accumulatorFill = cd.accumulatorFill → cd'.inbuf = cd.inbuf → cd'.draining = cd.draining →
        (lessFill si cd').draining = cd.draining ∧ (lessFill si cd').inbuf = cd.inbuf ∧ (lessFill si cd').accumulatorFill ≤ cd.accumulatorFill - si := by
      intro cd' e1 e2 e3
      unfold lessFill
      rw [e1]
      split
      · exact ⟨e3, e2, le_refl _⟩
      · exact ⟨e3, e2, Nat.zero_le _⟩
    obtain ⟨l1, l2, l3⟩ := hl { cd with spec := J.env.shift cd.spec cd.accumulatorFill si } rfl rfl rfl
    simp only
    generalize lessFill si { cd with spec := J.env.shift cd.spec cd.accumulatorFill si } = cd' at l1 l2 l3
    rcases Bool.eq_false_or_eq_true cd.draining with hd | hd
    · rw [turns_draining (w := ⟨cd, old, _⟩) hd, turns_draining (w := ⟨cd', old, _⟩) (l1.trans hd)]
      have h1 : 1 ≤ si := hp hd
      have h2 := rankDraining_le (Pc.piece false tmp [] last)
      show 32 * cd'.accumulatorFill + rankDraining (Pc.piece false tmp [] last) < 32 * cd.accumulatorFill + 6
      omega
    · exact turns_same l1 l2 (fun e => by rw [hd] at e; cases e) (fun _ => by simp [rankPlain]) (fun e => by rw [hd] at e; cases e)
  | done => exact absurd rfl hn

end
end Verif.R2.Threads
