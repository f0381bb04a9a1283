import Verif.R2ThreadsEnd
/-!
# The faster engine with threads: output buffers that need not grow; turns that can be taken
-/
namespace Verif.R2.Threads
open Verif.R2

variable {α σ ρ κ : Type}

/-! ## When there is room -/

/-- A thread that is not about to replace its output buffer. -/
structure Settled (cap : Nat) (w : Worker α σ ρ) : Prop where
  cap : w.cd.outbuf.cap = cap
  grow : ∀ x, w.pc ≠ .grow x
  swap : ∀ x new, w.pc ≠ .swap x new

theorem room_pc (x : Writing α) (b : Prop) [Decidable b] : (∀ y new, (if b then Pc.grow x else Pc.limit x) ≠ Pc.swap y new) ∧ ∀ y, (if b then Pc.grow x else Pc.limit x) = Pc.grow y → b ∧ x = y := by
  by_cases h : b
  · rw [if_pos h]; exact ⟨by simp, fun y e => ⟨h, by simpa using e⟩⟩
  · rw [if_neg h]; exact ⟨by simp, by simp⟩

theorem step_room (p : Params) (env : Env α σ ρ κ) (z : Sizes) (incs : List Int) {cap : Nat} {w w' : Worker α σ ρ} (h : Settled cap w)
    (hs : w.step p env z incs = some w') : w'.cd.outbuf.cap = cap ∧ (∀ x new, w'.pc ≠ .swap x new) ∧ ∀ x, w'.pc = .grow x → w'.cd.outbuf.writeSpace < required z x.si := by
  obtain ⟨cd, old, pc⟩ := w
  obtain ⟨h1, h2, h3⟩ := h
  unfold Worker.step at hs
  have no : ∀ k : Asker, (∀ x new, (k.no : Pc α) ≠ .swap x new) ∧ ∀ x, (k.no : Pc α) ≠ .grow x := by intro k; cases k <;> simp [Asker.no]
  have yes : ∀ k : Asker, (∀ x new, (k.yes : Pc α) ≠ .swap x new) ∧ ∀ x, (k.yes : Pc α) ≠ .grow x := by intro k; cases k <;> simp [Asker.yes]
  cases pc with
  | top => simp only [Option.some.injEq] at hs; subst hs; refine ⟨h1, ?_⟩; simp only; split <;> simp
  | left => simp only [Option.some.injEq] at hs; subst hs; refine ⟨h1, ?_⟩; simp only; split <;> simp
  | test k => simp only [Option.some.injEq] at hs; subst hs; exact ⟨h1, by simp, by simp⟩
  | tested k rs =>
    simp only at hs
    split at hs
    · split at hs
      · cases hs; exact ⟨h1, (no k).1, fun x e => absurd e ((no k).2 x)⟩
      · split at hs
        · cases hs; exact ⟨h1, (no k).1, fun x e => absurd e ((no k).2 x)⟩
        · split at hs
          · cases hs; exact ⟨h1, (yes k).1, fun x e => absurd e ((yes k).2 x)⟩
          · cases hs; exact ⟨h1, (yes k).1, fun x e => absurd e ((yes k).2 x)⟩
    · cases hs; exact ⟨h1, (yes k).1, fun x e => absurd e ((yes k).2 x)⟩
  | take after =>
    simp only at hs
    split at hs
    · cases hs; exact ⟨h1, by simp, by simp⟩
    · cases hs; exact ⟨h1, by simp, by simp⟩
  | skip after =>
    simp only [Option.some.injEq] at hs
    subst hs
    refine ⟨?_, by simp, by simp⟩
    show (getIncrements z incs _).1.outbuf.cap = _
    rw [(getIncrements_other z incs _).2.2]
    split <;> exact h1
  | piece after tmp todo last =>
    cases todo with
    | nil =>
      simp only [Option.some.injEq] at hs
      subst hs
      refine ⟨h1, ?_⟩
      unfold next asker
      cases last <;> cases after <;> simp
    | cons i todo =>
      simp only [Option.some.injEq] at hs
      subst hs
      unfold beginPiece
      simp only
      have e : (spectral env z i { cd with fltbuf := tmp }).outbuf = cd.outbuf := (spectral_same env z i { cd with fltbuf := tmp }).1
      generalize spectral env z i { cd with fltbuf := tmp } = cd' at e
      split
      · exact ⟨by rw [e]; exact h1, by simp, by simp⟩
      · refine ⟨by rw [e]; exact h1, (room_pc _ _).1, ?_⟩
        intro x hx
        obtain ⟨b, rfl⟩ := (room_pc _ _).2 x hx
        exact b
  | grow x => exact absurd rfl (h2 x)
  | swap x new => exact absurd rfl (h3 x new)
  | limit x => simp only [Option.some.injEq] at hs; subst hs; exact ⟨h1, by simp, by simp⟩
  | emit x T =>
    simp only at hs
    split at hs
    · cases hs
    · cases hs
      refine ⟨?_, by simp, by simp⟩
      show (writeOutput _ _ _ _).outbuf.cap = _
      rw [(writeOutput_other _ _ _ _).2.2.2, (resampled_other _ _ _ _ _ _).2.2.2]
      exact h1
  | settle x =>
    simp only [Option.some.injEq] at hs
    subst hs
    refine ⟨?_, by simp, by simp⟩
    show (lessFill _ _).outbuf.cap = _
    rw [(lessFill_other _ _).2.2]
    exact h1
  | done => simp only [Option.some.injEq] at hs; subst hs; exact ⟨h1, by simp, by simp⟩

section
variable [Zero α] [Add α] [Sub α] {p : Params} {env : Env α σ ρ κ} {z : Sizes} {incs : List Int} {x₀ : Nat → Syn α σ} {all : List (Frame α)}
variable {s s' : Sys α σ ρ} {B : List (Frame α)} {g : Nat → Nat} {r : Nat → List α}

def AllSettled (caps : Nat → Nat) (s : Sys α σ ρ) : Prop := ∀ (c : Nat) w, s.workers[c]? = some w → Settled (caps c) w

omit [Zero α] [Add α] [Sub α] in
theorem AllSettled.calm {caps : Nat → Nat} (h : AllSettled caps s) : s.calm = true := by
  unfold Sys.calm
  split
  · rename_i c _ _ _
    cases hw : s.workers[c]? with
    | none => rfl
    | some w =>
      have := (h c w hw).swap
      simp only [Option.all_some]
      unfold Worker.swapping
      split
      · rename_i e; exact absurd e (this _ _)
      · rfl
  · rfl

theorem settled_turn (hJ : AllOk p env z incs x₀ all) (hz : z.pitchScale = 1) {caps : Nat → Nat} {e : Event α} (hf : Flow p env z incs x₀ all s B g r)
    (hroom : ∀ c, c < s.workers.length → (job p env z incs x₀ all c).out.length + z.window ≤ caps c) (h : AllSettled caps s) (hs : s.step p env z incs e = some s') : AllSettled caps s' := by
  cases e with
  | call q =>
    unfold Sys.step at hs
    simp only at hs
    split at hs
    · cases hs
      unfold Sys.call
      cases q with
      | process input final => simp only; split <;> exact h
      | _ => exact h
    · cases hs
  | user =>
    intro c v hv
    obtain ⟨u, h1, h2⟩ := user_touched hf hs c v hv
    have := h c u h1
    exact ⟨h2.room.trans this.cap, by rw [h2.pc]; exact this.grow, by rw [h2.pc]; exact this.swap⟩
  | thread d =>
    unfold Sys.step at hs
    simp only at hs
    obtain ⟨v, hv, hs⟩ := Option.bind_eq_some_iff.mp hs
    obtain ⟨v', hv', hs⟩ := Option.map_eq_some_iff.mp hs
    cases hs
    intro c u hu
    rcases get_set hv hu with ⟨rfl, rfl⟩ | ⟨_, e⟩
    · obtain ⟨a1, a2, a3⟩ := step_room p env z incs (h c v hv) hv'
      refine ⟨a1, ?_, a2⟩
      intro x hx
      have hlt := a3 x hx
      obtain ⟨v'', b1, b2, _⟩ := flow_thread hJ hf h.calm hv
      rw [hv'] at b1
      cases b1
      have hp := b2.phase c u (List.getElem?_set_self (lt_of_get hv))
      have hpre := (phase_prefix (hJ c) hp).length_le
      rw [List.length_append] at hpre
      have hm : Mid (job p env z incs x₀ all c) u.cd x := by
        have := hp.2
        rw [hx] at this
        exact this.1
      have hw := hm.window
      change x.si ≤ z.window at hw
      have := hroom c (lt_of_get hv)
      unfold required at hlt
      rw [hz] at hlt
      simp only [ne_eq, not_true_eq_false, if_false] at hlt
      unfold Fifo.writeSpace at hlt
      rw [a1] at hlt
      omega
    · exact h c u e

theorem length_turn {e : Event α} (hs : s.step p env z incs e = some s') : s'.workers.length = s.workers.length := by
  cases e with
  | call q =>
    unfold Sys.step at hs
    simp only at hs
    split at hs
    · cases hs
      unfold Sys.call
      cases q with
      | process input final => simp only; split <;> rfl
      | _ => rfl
    · cases hs
  | user =>
    unfold Sys.step Sys.userStep at hs
    simp only at hs
    generalize s.user = user at hs
    cases user with
    | idle => cases hs
    | consume input final used c => simp only at hs; split at hs <;> [split at hs; skip] <;> cases hs <;> rfl
    | write input final used c n => simp only at hs; split at hs <;> cases hs; simp
    | mark input final used c => simp only at hs; split at hs <;> cases hs; simp
    | asking c least q => simp only at hs; split at hs <;> cases hs <;> rfl
    | asked c least q => simp only at hs; split at hs <;> cases hs; rfl
    | point n got c outs => simp only at hs; split at hs <;> cases hs <;> rfl
    | read n got c outs place => simp only at hs; split at hs <;> cases hs; simp
  | thread c =>
    unfold Sys.step at hs
    simp only at hs
    obtain ⟨w, hw, hs⟩ := Option.bind_eq_some_iff.mp hs
    obtain ⟨w', h1, hs⟩ := Option.map_eq_some_iff.mp hs
    cases hs
    simp

/-- With room for everything, nothing is ever read from a buffer that is being replaced. -/
theorem settled_run (hJ : AllOk p env z incs x₀ all) (hz : z.pitchScale = 1) (hsep : (p.channelsTogether && decide (p.channels ≥ 2)) = false) {caps : Nat → Nat} (es : List (Event α)) :
    ∀ {s s' : Sys α σ ρ} {B : List (Frame α)} {g : Nat → Nat} {r : Nat → List α}, Flow p env z incs x₀ all s B g r → Fits all s B es →
    (∀ c, c < s.workers.length → (job p env z incs x₀ all c).out.length + z.window ≤ caps c) → s.heeding p env z incs es = true → s.run p env z incs es = some s' → AllSettled caps s →
    s.calmly p env z incs es = true := by
  induction es with
  | nil =>
    intro s s' B g r h hf _ _ hs hw
    exact hw.calm
  | cons e es ih =>
    intro s s' B g r h hf hroom hh hs hw
    unfold Sys.run at hs
    obtain ⟨t, ht, hs⟩ := Option.bind_eq_some_iff.mp hs
    unfold Sys.heeding at hh
    rw [ht] at hh
    simp only [Bool.and_eq_true] at hh
    obtain ⟨B', g', r', f1, f2⟩ := flow_turn hJ hz hsep h hf hw.calm hh.1 ht
    unfold Sys.calmly
    rw [ht]
    simp only [Bool.and_eq_true]
    exact ⟨hw.calm, ih f1 f2 (by rw [length_turn ht]; exact hroom) hh.2 hs (settled_turn hJ hz h hroom hw ht)⟩

/-! ## Turns that can be taken -/

/-- A user in the middle of a call is at a channel there is. -/
def Placed (s : Sys α σ ρ) : Prop :=
  match s.user with
  | .consume _ _ _ c => c ≤ s.workers.length
  | .write _ _ _ c _ => c < s.workers.length
  | .mark _ _ _ c => c < s.workers.length
  | .asked c _ _ => c < s.workers.length
  | .read _ _ c _ _ => c < s.workers.length
  | _ => True

theorem placed_turn {e : Event α} (h : Placed s) (hs : s.step p env z incs e = some s') : Placed s' := by
  cases e with
  | call q =>
    unfold Sys.step at hs
    simp only at hs
    split at hs
    · cases hs
      unfold Sys.call
      cases q with
      | process input final =>
        simp only
        split
        · exact h
        · exact Nat.zero_le _
      | _ => trivial
    · cases hs
  | user =>
    unfold Sys.step Sys.userStep at hs
    simp only at hs
    unfold Placed at h
    generalize s.user = user at hs h
    cases user with
    | idle => cases hs
    | consume input final used c =>
      simp only at hs
      split at hs
      · split at hs
        · cases hs; trivial
        · cases hs; exact Nat.zero_le _
      · rename_i hw; cases hs; exact lt_of_get hw
    | write input final used c n =>
      simp only at hs
      split at hs <;> cases hs
      unfold Placed
      simp only [List.length_set]
      exact h
    | mark input final used c =>
      simp only at hs
      split at hs <;> cases hs
      unfold Placed
      simp only [List.length_set]
      exact h
    | asking c least q =>
      simp only at hs
      split at hs
      · cases hs; trivial
      · rename_i hw; cases hs; exact lt_of_get hw
    | asked c least q => simp only at hs; split at hs <;> cases hs; trivial
    | point n got c outs =>
      simp only at hs
      split at hs
      · cases hs; trivial
      · rename_i hw; cases hs; exact lt_of_get hw
    | read n got c outs place => simp only at hs; split at hs <;> cases hs; trivial
  | thread c =>
    unfold Sys.step at hs
    simp only at hs
    obtain ⟨w, hw, hs⟩ := Option.bind_eq_some_iff.mp hs
    obtain ⟨w', h1, hs⟩ := Option.map_eq_some_iff.mp hs
    cases hs
    unfold Placed at h ⊢
    simp only [List.length_set]
    exact h

theorem placed_run (es : List (Event α)) : ∀ {s s' : Sys α σ ρ}, Placed s → s.run p env z incs es = some s' → Placed s' ∧ s'.workers.length = s.workers.length := by
  induction es with
  | nil =>
    intro s s' h hs
    unfold Sys.run at hs
    cases hs
    exact ⟨h, rfl⟩
  | cons e es ih =>
    intro s s' h hs
    unfold Sys.run at hs
    obtain ⟨t, ht, hs⟩ := Option.bind_eq_some_iff.mp hs
    obtain ⟨a, b⟩ := ih (placed_turn h ht) hs
    exact ⟨a, b.trans (length_turn ht)⟩

/-- The user can go on. -/
theorem user_some (h : Placed s) (hu : ∀ u, s.user = u → u ≠ .idle) : (s.userStep p env z).isSome = true := by
  unfold Sys.userStep
  unfold Placed at h
  cases he : s.user with
  | idle => exact absurd rfl (hu _ he)
  | consume input final used c => simp only; split <;> [split; skip] <;> rfl
  | asking c least q => simp only; split <;> rfl
  | point n got c outs => simp only; split <;> rfl
  | write input final used c n => rw [he] at h; simp only at h; simp only; rw [List.getElem?_eq_getElem h]; rfl
  | mark input final used c => rw [he] at h; simp only at h; simp only; rw [List.getElem?_eq_getElem h]; rfl
  | asked c least q => rw [he] at h; simp only at h; simp only; rw [List.getElem?_eq_getElem h]; rfl
  | read n got c outs place => rw [he] at h; simp only at h; simp only; rw [List.getElem?_eq_getElem h]; rfl

/-- What has been heard is part of what there is. -/
theorem heard_prefix (hJ : AllOk p env z incs x₀ all) (hf : Flow p env z incs x₀ all s B g r) {c : Nat} (hc : c < s.workers.length) :
    heard c s.replies <+: (job p env z incs x₀ all c).out := by
  have hw := List.getElem?_eq_getElem hc
  have hp := phase_prefix (hJ c) (hf.phase c _ hw)
  have key : heard c s.replies <+: r c := by
    have ho := hf.outputs
    unfold Outputs at ho
    split at ho
    · rw [(ho.1 c _ hw).1]
    · rw [(ho.1 c _ hw).1]
    · rename_i n got d outs _
      rcases Nat.lt_or_ge c d with e | e
      · rw [(ho.read c _ hw e).2.1]; exact List.prefix_append ..
      · rw [(ho.unread c _ hw e).1]
    · rename_i n got d outs place _
      rcases Nat.lt_or_ge c d with e | e
      · rw [(ho.1.read c _ hw e).2.1]; exact List.prefix_append ..
      · rw [(ho.1.unread c _ hw e).1]
    · rw [(ho c _ hw).1]
  exact (key.trans (List.prefix_append ..)).trans hp

/-- A thread that is done has given all, if the user is not in the middle of retrieving. -/
theorem heard_done (hf : Flow p env z incs x₀ all s B g r) {c : Nat} {w : Worker α σ ρ} (hw : s.workers[c]? = some w) (hd : w.pc = .done) (hu : s.user = .idle) :
    heard c s.replies ++ w.cd.outbuf.data = (job p env z incs x₀ all c).out := by
  have hp := (hf.phase c w hw).2
  rw [hd] at hp
  have ho := hf.outputs
  rw [hu] at ho
  rw [← (ho c w hw).1]
  exact hp.heard

end
end Verif.R2.Threads
