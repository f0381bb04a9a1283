import Verif.R2ThreadsLive
/-!
# The faster engine with threads: that they come to the end
-/
namespace Verif.R2.Threads
open Verif.R2

variable {α σ ρ κ : Type}

/-! ## Turns of a thread -/

/-- What is kept of a thread whose input buffer is of this size. -/
structure Slim (z : Sizes) (cap : Nat) (w : Worker α σ ρ) : Prop where
  fill : w.cd.accumulatorFill ≤ z.window
  cap : w.cd.inbuf.cap = cap
  sound : Sound w

theorem spectral_fill (env : Env α σ ρ κ) (z : Sizes) (i : Incs) (cd : Chan α σ ρ) (h : cd.accumulatorFill ≤ z.window) : (spectral env z i cd).accumulatorFill ≤ z.window := by
  unfold spectral
  split
  · exact h
  · show max cd.accumulatorFill z.window ≤ z.window
    omega

theorem writeOutput_other (skip T : Nat) (cd : Chan α σ ρ) (out : List α) : (writeOutput skip T cd out).accumulatorFill = cd.accumulatorFill ∧ (writeOutput skip T cd out).inbuf = cd.inbuf ∧
    (writeOutput skip T cd out).draining = cd.draining ∧ (writeOutput skip T cd out).outbuf.cap = cd.outbuf.cap := by
  unfold writeOutput
  split
  · exact ⟨rfl, rfl, rfl, rfl⟩
  · split <;> exact ⟨rfl, rfl, rfl, rfl⟩

theorem resampled_other (p : Params) (env : Env α σ ρ κ) (z : Sizes) (cd : Chan α σ ρ) (mix : List α) (last : Bool) :
    (resampled p env z cd mix last).1.accumulatorFill = cd.accumulatorFill ∧ (resampled p env z cd mix last).1.inbuf = cd.inbuf ∧
    (resampled p env z cd mix last).1.draining = cd.draining ∧ (resampled p env z cd mix last).1.outbuf = cd.outbuf := by
  unfold resampled
  split <;> exact ⟨rfl, rfl, rfl, rfl⟩

theorem lessFill_other (si : Nat) (cd : Chan α σ ρ) : (lessFill si cd).accumulatorFill ≤ cd.accumulatorFill ∧ (lessFill si cd).inbuf = cd.inbuf ∧ (lessFill si cd).outbuf = cd.outbuf := by
  unfold lessFill
  split
  · exact ⟨Nat.sub_le .., rfl, rfl⟩
  · exact ⟨Nat.zero_le _, rfl, rfl⟩

theorem getIncrements_other (z : Sizes) (incs : List Int) (cd : Chan α σ ρ) : (getIncrements z incs cd).1.accumulatorFill = cd.accumulatorFill ∧ (getIncrements z incs cd).1.inbuf = cd.inbuf ∧
    (getIncrements z incs cd).1.outbuf = cd.outbuf := by
  unfold getIncrements
  split <;> exact ⟨rfl, rfl, rfl⟩

theorem sound_room {cd : Chan α σ ρ} {old : List (Fifo α)} {x : Writing α} {b : Prop} [Decidable b] (h : cd.draining = true → 1 ≤ x.si) :
    Sound (⟨cd, old, if b then .grow x else .limit x⟩ : Worker α σ ρ) := by
  split <;> exact h

/-- A thread keeps this. -/
theorem step_slim (p : Params) (env : Env α σ ρ κ) {z : Sizes} (incs : List Int) (hi : 1 ≤ z.increment) {cap : Nat} {w w' : Worker α σ ρ} (h : Slim z cap w)
    (hs : w.step p env z incs = some w') : Slim z cap w' := by
  obtain ⟨cd, old, pc⟩ := w
  obtain ⟨h1, h2, h3⟩ := h
  unfold Worker.step at hs
  cases pc with
  | top => simp only [Option.some.injEq] at hs; subst hs; refine ⟨h1, h2, ?_⟩; split <;> trivial
  | left => simp only [Option.some.injEq] at hs; subst hs; refine ⟨h1, h2, ?_⟩; split <;> trivial
  | test k => simp only [Option.some.injEq] at hs; subst hs; exact ⟨h1, h2, trivial⟩
  | tested k rs =>
    have no : Sound (⟨cd, old, k.no⟩ : Worker α σ ρ) := by cases k <;> trivial
    have yes : ∀ cd' : Chan α σ ρ, Sound (⟨cd', old, k.yes⟩ : Worker α σ ρ) := fun cd' => by cases k <;> trivial
    simp only at hs
    split at hs
    · split at hs
      · cases hs; exact ⟨h1, h2, no⟩
      · split at hs
        · cases hs; exact ⟨h1, h2, no⟩
        · split at hs
          · cases hs; exact ⟨h1, h2, yes _⟩
          · cases hs; exact ⟨h1, h2, yes _⟩
    · cases hs; exact ⟨h1, h2, yes _⟩
  | take after =>
    simp only at hs
    split at hs
    · cases hs; exact ⟨h1, h2, trivial⟩
    · cases hs; exact ⟨h1, h2, trivial⟩
  | skip after =>
    simp only [Option.some.injEq] at hs
    subst hs
    refine ⟨?_, ?_, trivial⟩
    · show (getIncrements z incs _).1.accumulatorFill ≤ _
      rw [(getIncrements_other z incs _).1]
      split <;> exact h1
    · show (getIncrements z incs _).1.inbuf.cap = _
      rw [(getIncrements_other z incs _).2.1]
      split <;> exact h2
  | piece after tmp todo last =>
    cases todo with
    | nil =>
      simp only [Option.some.injEq] at hs
      subst hs
      refine ⟨h1, h2, ?_⟩
      unfold Sound next asker
      simp only
      cases last <;> cases after <;> trivial
    | cons i todo =>
      simp only [Option.some.injEq] at hs
      subst hs
      unfold beginPiece
      simp only
      have e1 := spectral_fill env z i { cd with fltbuf := tmp } h1
      have e2 : (spectral env z i { cd with fltbuf := tmp }).inbuf.cap = cap := by rw [(spectral_same env z i { cd with fltbuf := tmp }).2.1]; exact h2
      generalize spectral env z i { cd with fltbuf := tmp } = cd' at e1 e2
      split
      · exact ⟨e1, e2, trivial⟩
      · rename_i hn
        refine ⟨e1, e2, ?_⟩
        have key : cd'.draining = true → 1 ≤ (if (cd'.draining && decide (cd'.accumulatorFill ≤ if (cd'.draining && i.shift == 0) = true then z.increment else i.shift)) = true then cd'.accumulatorFill
            else if (cd'.draining && i.shift == 0) = true then z.increment else i.shift) := by
          intro hd
          rw [hd] at hn ⊢
          simp only [Bool.true_and, beq_iff_eq, decide_eq_true_eq] at hn ⊢
          by_cases hz : i.shift = 0 <;> simp only [hz, if_true, if_false] <;> split <;> omega
        exact sound_room key
  | grow x => simp only [Option.some.injEq] at hs; subst hs; exact ⟨h1, h2, h3⟩
  | swap x new => simp only [Option.some.injEq] at hs; subst hs; exact ⟨h1, h2, h3⟩
  | limit x => simp only [Option.some.injEq] at hs; subst hs; exact ⟨h1, h2, h3⟩
  | emit x T =>
    simp only at hs
    split at hs
    · cases hs
    · cases hs
      obtain ⟨a1, a2, a3, _⟩ := resampled_other p env z cd ((List.range x.si).map (env.emit cd.spec)) x.last
      obtain ⟨b1, b2, b3, _⟩ := writeOutput_other (startSkip p z) T (resampled p env z cd ((List.range x.si).map (env.emit cd.spec)) x.last).1 (resampled p env z cd ((List.range x.si).map (env.emit cd.spec)) x.last).2
      refine ⟨?_, ?_, ?_⟩
      · exact (b1.trans a1) ▸ h1
      · exact (congrArg Fifo.cap (b2.trans a2)).trans h2
      · intro hd
        exact h3 ((b3.trans a3) ▸ hd)
  | settle x =>
    simp only [Option.some.injEq] at hs
    subst hs
    obtain ⟨a1, a2, _⟩ := lessFill_other x.si { cd with spec := env.shift cd.spec cd.accumulatorFill x.si }
    refine ⟨le_trans a1 h1, (congrArg Fifo.cap a2).trans h2, ?_⟩
    unfold Sound
    cases ht : x.todo <;> trivial
  | done => simp only [Option.some.injEq] at hs; subst hs; exact ⟨h1, h2, h3⟩

/-! ## Turns of the user -/

/-- What the user leaves of a channel. -/
structure Touched (w w' : Worker α σ ρ) : Prop where
  pc : w'.pc = w.pc
  draining : w'.cd.draining = w.cd.draining
  fill : w'.cd.accumulatorFill = w.cd.accumulatorFill
  cap : w'.cd.inbuf.cap = w.cd.inbuf.cap
  size : w.cd.inputSize.isSome = true → w'.cd.inputSize.isSome = true
  count : w'.cd.inbuf.data.length + w.cd.inCount = w.cd.inbuf.data.length + w'.cd.inCount
  room : w'.cd.outbuf.cap = w.cd.outbuf.cap

theorem Touched.refl (w : Worker α σ ρ) : Touched w w := ⟨rfl, rfl, rfl, rfl, id, rfl, rfl⟩

theorem Touched.slim {z : Sizes} {cap : Nat} {w w' : Worker α σ ρ} (t : Touched w w') (h : Slim z cap w) : Slim z cap w' := by
  refine ⟨t.fill ▸ h.fill, t.cap.trans h.cap, ?_⟩
  have hs := h.sound
  unfold Sound at hs ⊢
  rw [t.pc, t.draining]
  exact hs

theorem touched_set {ws : List (Worker α σ ρ)} {c : Nat} {w w' : Worker α σ ρ} (hc : ws[c]? = some w) (ht : Touched w w') (d : Nat) (v : Worker α σ ρ)
    (hv : (ws.set c w')[d]? = some v) : ∃ u, ws[d]? = some u ∧ Touched u v := by
  rcases get_set hc hv with ⟨rfl, rfl⟩ | ⟨_, e⟩
  · exact ⟨w, hc, ht⟩
  · exact ⟨v, e, .refl v⟩

section
variable [Zero α] [Add α] [Sub α] {p : Params} {env : Env α σ ρ κ} {z : Sizes} {incs : List Int} {x₀ : Nat → Syn α σ} {all : List (Frame α)}
variable {s s' : Sys α σ ρ} {B : List (Frame α)} {g : Nat → Nat} {r : Nat → List α}

theorem user_touched (hf : Flow p env z incs x₀ all s B g r) (hs : s.userStep p env z = some s') (c : Nat) (v : Worker α σ ρ) (hv : s'.workers[c]? = some v) :
    ∃ u, s.workers[c]? = some u ∧ Touched u v := by
  unfold Sys.userStep at hs
  have hin := hf.inputs
  cases hu : s.user with
  | idle => rw [hu] at hs; cases hs
  | consume input final used d =>
    rw [hu] at hs
    simp only at hs
    split at hs
    · split at hs <;> (cases hs; exact ⟨v, hv, .refl v⟩)
    · cases hs; exact ⟨v, hv, .refl v⟩
  | write input final used d n =>
    rw [hu] at hs hin
    simp only at hs
    split at hs
    · cases hs
    · rename_i w hw
      cases hs
      refine touched_set hw ?_ c v hv
      refine ⟨rfl, rfl, rfl, rfl, id, ?_, rfl⟩
      have hn := hin.2 w hw
      have := (hin.1.count d (lt_of_get hw)).1
      simp only [Fifo.write, List.length_append, List.length_take, List.length_map, List.length_drop]
      omega
  | mark input final used d =>
    rw [hu] at hs
    simp only at hs
    split at hs
    · cases hs
    · rename_i w hw
      cases hs
      refine touched_set hw ?_ c v hv
      split
      · exact ⟨rfl, rfl, rfl, rfl, fun _ => rfl, rfl, rfl⟩
      · exact .refl w
  | asking d least q =>
    rw [hu] at hs
    simp only at hs
    split at hs <;> (cases hs; exact ⟨v, hv, .refl v⟩)
  | asked d least q =>
    rw [hu] at hs
    simp only at hs
    split at hs
    · cases hs
    · cases hs; exact ⟨v, hv, .refl v⟩
  | point n got d outs =>
    rw [hu] at hs
    simp only at hs
    split at hs <;> (cases hs; exact ⟨v, hv, .refl v⟩)
  | read n got d outs place =>
    rw [hu] at hs
    simp only at hs
    split at hs
    · cases hs
    · rename_i w hw
      cases hs
      refine touched_set hw ?_ c v hv
      unfold Worker.setBuf
      split
      · exact ⟨rfl, rfl, rfl, rfl, id, rfl, rfl⟩
      · rename_i hp
        refine ⟨rfl, rfl, rfl, rfl, id, rfl, ?_⟩
        show ((w.bufAt place).skip got).cap = _
        unfold Worker.bufAt Fifo.skip
        rw [List.getElem?_eq_none (by omega)]
        rfl

/-- What an ended thread has before it is left as it is by the user. -/
theorem touched_turns {J : Job α σ ρ κ} {w w' : Worker α σ ρ} {g g' : Nat} {r r' : List α} (h : Phase J w g r) (h' : Phase J w' g' r') (hs : w.cd.inputSize.isSome = true) (t : Touched w w') :
    turnsLeft J.z w' = turnsLeft J.z w := by
  have hs' := t.size hs
  have e1 : w.cd.inCount = J.N := by
    rcases h.1.size with e | e
    · rw [e] at hs; cases hs
    · exact h.1.inCount.trans e.2
  have e2 : w'.cd.inCount = J.N := by
    rcases h'.1.size with e | e
    · rw [e] at hs'; cases hs'
    · exact h'.1.inCount.trans e.2
  have hl : w'.cd.inbuf.data.length = w.cd.inbuf.data.length := by have := t.count; omega
  have hn : w.cd.inputSize ≠ none := by intro e; rw [e] at hs; cases hs
  have hn' : w'.cd.inputSize ≠ none := by intro e; rw [e] at hs'; cases hs'
  unfold turnsLeft chunksLeft
  rw [t.draining, t.fill, t.pc, hl]
  have : rankPlain J.z w'.cd w.pc = rankPlain J.z w.cd w.pc := by
    unfold rankPlain
    simp only [hn, hn', false_and, if_false]
  rw [this]

/-- No more than this. -/
theorem turns_bound {J : Job α σ ρ κ} {w : Worker α σ ρ} {g cap : Nat} {r : List α} (h : Phase J w g r) (hw : Slim J.z cap w) : turnsLeft J.z w < 32 * (cap + J.z.window + 2) := by
  have h1 := hw.fill
  have h2 := h.1.fits
  rw [hw.cap] at h2
  rcases Bool.eq_false_or_eq_true w.cd.draining with hd | hd
  · rw [turns_draining hd]
    have := rankDraining_le w.pc
    omega
  · rw [turns_plain hd]
    have := rankPlain_le J.z w.cd w.pc
    omega

/-! ## Runs after the end of the input -/

/-- How many turns a thread is given. -/
def turns (c : Nat) (es : List (Event α)) : Nat := es.countP fun
  | .thread d => d == c
  | _ => false

/-- One turn. -/
theorem ended_turn (hJ : AllOk p env z incs x₀ all) (calm : s.calm = true) {e : Event α} {B' : List (Frame α)} {g' : Nat → Nat} {r' : Nat → List α}
    (h : Flow p env z incs x₀ all s B g r) (h' : Flow p env z incs x₀ all s' B' g' r') (hs : s.step p env z incs e = some s') {c cap : Nat} {w : Worker α σ ρ} (hc : s.workers[c]? = some w)
    (hw : Slim z cap w) (he : w.cd.inputSize.isSome = true) : ∃ w', s'.workers[c]? = some w' ∧ Slim z cap w' ∧ w'.cd.inputSize.isSome = true ∧ (w.pc = .done → w'.pc = .done) ∧
      (w'.pc = .done ∨ turnsLeft z w' + turns c [e] ≤ turnsLeft z w) := by
  have same : ∀ s₂ : Sys α σ ρ, s₂.workers = s.workers → turns c [e] = 0 → ∃ w', s₂.workers[c]? = some w' ∧ Slim z cap w' ∧ w'.cd.inputSize.isSome = true ∧ (w.pc = .done → w'.pc = .done) ∧
      (w'.pc = .done ∨ turnsLeft z w' + turns c [e] ≤ turnsLeft z w) := by
    intro s₂ h2 ht
    exact ⟨w, by rw [h2]; exact hc, hw, he, id, Or.inr (by rw [ht]; omega)⟩
  cases e with
  | call q =>
    unfold Sys.step at hs
    simp only at hs
    split at hs
    · cases hs
      refine same _ ?_ rfl
      unfold Sys.call
      cases q with
      | process input final => simp only; split <;> rfl
      | _ => rfl
    · cases hs
  | user =>
    have hlen : s'.workers.length = s.workers.length := by
      unfold Sys.step Sys.userStep at hs
      simp only at hs
      generalize s.user = user at hs
      cases user with
      | idle => cases hs
      | consume input final used c => simp only at hs; split at hs <;> [split at hs; skip] <;> cases hs <;> rfl
      | write input final used c n => simp only at hs; split at hs <;> cases hs; simp
      | mark input final used c => simp only at hs; split at hs <;> cases hs; simp
      | asking c least q => simp only at hs; split at hs <;> cases hs <;> rfl
      | asked c least q => simp only at hs; split at hs <;> cases hs; rfl
      | point n got c outs => simp only at hs; split at hs <;> cases hs <;> rfl
      | read n got c outs place => simp only at hs; split at hs <;> cases hs; simp
    have hl : c < s'.workers.length := by rw [hlen]; exact lt_of_get hc
    obtain ⟨u, h1, h2⟩ := user_touched h hs c _ (List.getElem?_eq_getElem hl)
    rw [hc] at h1
    cases h1
    refine ⟨_, List.getElem?_eq_getElem hl, h2.slim hw, h2.size he, fun e => h2.pc.trans e, Or.inr ?_⟩
    have := touched_turns (h.phase c w hc) (h'.phase c _ (List.getElem?_eq_getElem hl)) he h2
    change turnsLeft z _ = turnsLeft z _ at this
    rw [this]
    exact Nat.le_refl _
  | thread d =>
    unfold Sys.step at hs
    simp only at hs
    obtain ⟨v, hv, hs⟩ := Option.bind_eq_some_iff.mp hs
    obtain ⟨v', hv', hs⟩ := Option.map_eq_some_iff.mp hs
    cases hs
    by_cases hd : d = c
    · subst hd
      rw [hc] at hv
      cases hv
      obtain ⟨w'', h1, _, h3⟩ := flow_thread hJ h calm hc
      rw [hv'] at h1
      cases h1
      refine ⟨v', List.getElem?_set_self (lt_of_get hc), step_slim p env incs (hJ d).fine.inc hw hv', by rw [h3.size]; exact he, ?_, ?_⟩
      · intro hp
        unfold Worker.step at hv'
        rw [hp] at hv'
        cases hv'
        exact hp
      · by_cases hp : w.pc = .done
        · left
          unfold Worker.step at hv'
          rw [hp] at hv'
          cases hv'
          exact hp
        · right
          have := step_less (hJ d) (h.phase d w hc) hw.sound (Or.inl he) hp hv'
          change turnsLeft z v' < turnsLeft z w at this
          have e : turns d [Event.thread (α := α) d] = 1 := by simp [turns]
          omega
    · refine ⟨w, by rw [List.getElem?_set_ne hd]; exact hc, hw, he, id, Or.inr ?_⟩
      have e : turns c [Event.thread (α := α) d] = 0 := by simp [turns, hd]
      omega

theorem turns_cons (c : Nat) (e : Event α) (es : List (Event α)) : turns c (e :: es) = turns c [e] + turns c es := by
  unfold turns
  simp only [List.countP_cons, List.countP_nil, Nat.zero_add]
  omega

theorem ended_run (hJ : AllOk p env z incs x₀ all) (hz : z.pitchScale = 1) (hsep : (p.channelsTogether && decide (p.channels ≥ 2)) = false) {c cap : Nat} (es : List (Event α)) :
    ∀ {s s' : Sys α σ ρ} {B : List (Frame α)} {g : Nat → Nat} {r : Nat → List α} {w : Worker α σ ρ}, Flow p env z incs x₀ all s B g r → Fits all s B es →
    s.calmly p env z incs es = true → s.heeding p env z incs es = true → s.run p env z incs es = some s' →
    s.workers[c]? = some w → Slim z cap w → w.cd.inputSize.isSome = true →
    ∃ w', s'.workers[c]? = some w' ∧ Slim z cap w' ∧ (w.pc = .done → w'.pc = .done) ∧ (w'.pc = .done ∨ turnsLeft z w' + turns c es ≤ turnsLeft z w) := by
  induction es with
  | nil =>
    intro s s' B g r w h hf _ _ hs hc hw he
    unfold Sys.run at hs
    cases hs
    exact ⟨w, hc, hw, id, Or.inr (Nat.le_refl _)⟩
  | cons e es ih =>
    intro s s' B g r w h hf hc hh hs hw h1 h2
    unfold Sys.run at hs
    obtain ⟨t, ht, hs⟩ := Option.bind_eq_some_iff.mp hs
    unfold Sys.calmly at hc
    unfold Sys.heeding at hh
    rw [ht] at hc hh
    simp only [Bool.and_eq_true] at hc hh
    obtain ⟨B', g', r', f1, f2⟩ := flow_turn hJ hz hsep h hf hc.1 hh.1 ht
    obtain ⟨w₁, a1, a2, a3, a4, a5⟩ := ended_turn hJ hc.1 h f1 ht hw h1 h2
    obtain ⟨w₂, b1, b2, b3, b4⟩ := ih f1 f2 hc.2 hh.2 hs a1 a2 a3
    refine ⟨w₂, b1, b2, b3 ∘ a4, ?_⟩
    rw [turns_cons]
    rcases a5 with a5 | a5
    · exact Or.inl (b3 a5)
    · rcases b4 with b4 | b4
      · exact Or.inl b4
      · right; omega

/-- What is kept by all the threads. -/
def AllSlim (z : Sizes) (caps : Nat → Nat) (s : Sys α σ ρ) : Prop := ∀ (c : Nat) w, s.workers[c]? = some w → Slim z (caps c) w

theorem slim_turn (hi : 1 ≤ z.increment) {caps : Nat → Nat} {e : Event α} (hf : Flow p env z incs x₀ all s B g r) (h : AllSlim z caps s) (hs : s.step p env z incs e = some s') : AllSlim z caps s' := by
  cases e with
  | call q =>
    unfold Sys.step at hs
    simp only at hs
    split at hs
    · cases hs
      unfold Sys.call
      cases q with
      | process input final => simp only; split <;> exact h
      | _ => exact h
    · cases hs
  | user =>
    intro c v hv
    obtain ⟨u, h1, h2⟩ := user_touched hf hs c v hv
    exact h2.slim (h c u h1)
  | thread d =>
    unfold Sys.step at hs
    simp only at hs
    obtain ⟨v, hv, hs⟩ := Option.bind_eq_some_iff.mp hs
    obtain ⟨v', hv', hs⟩ := Option.map_eq_some_iff.mp hs
    cases hs
    intro c u hu
    rcases get_set hv hu with ⟨rfl, rfl⟩ | ⟨_, e⟩
    · exact step_slim p env incs hi (h c v hv) hv'
    · exact h c u e

theorem slim_run (hJ : AllOk p env z incs x₀ all) (hz : z.pitchScale = 1) (hsep : (p.channelsTogether && decide (p.channels ≥ 2)) = false) {caps : Nat → Nat} (es : List (Event α)) :
    ∀ {s s' : Sys α σ ρ} {B : List (Frame α)} {g : Nat → Nat} {r : Nat → List α}, Flow p env z incs x₀ all s B g r → Fits all s B es →
    s.calmly p env z incs es = true → s.heeding p env z incs es = true → s.run p env z incs es = some s' → AllSlim z caps s → AllSlim z caps s' := by
  induction es with
  | nil =>
    intro s s' B g r h hf _ _ hs hw
    unfold Sys.run at hs
    cases hs
    exact hw
  | cons e es ih =>
    intro s s' B g r h hf hc hh hs hw
    unfold Sys.run at hs
    obtain ⟨t, ht, hs⟩ := Option.bind_eq_some_iff.mp hs
    unfold Sys.calmly at hc
    unfold Sys.heeding at hh
    rw [ht] at hc hh
    simp only [Bool.and_eq_true] at hc hh
    obtain ⟨B', g', r', f1, f2⟩ := flow_turn hJ hz hsep h hf hc.1 hh.1 ht
    exact ih f1 f2 hc.2 hh.2 hs (slim_turn (hJ 0).fine.inc h hw ht)

end
end Verif.R2.Threads
