import Verif.R2ThreadsGhost
/-!
# The faster engine with threads and any user: all together
-/
namespace Verif.R2.Threads
open Verif.R2

variable {α σ ρ κ : Type}

/-- What the user of the ghosts is doing: they only give input. -/
def quiet : User α → User α
  | .consume input final used c => .consume input final used c
  | .write input final used c n => .write input final used c n
  | .mark input final used c => .mark input final used c
  | _ => .idle

/-- The ghosts of all the threads. -/
structure Haunts (z : Sizes) (s S : Sys α σ ρ) : Prop where
  length : S.workers.length = s.workers.length
  ghost : ∀ (c : Nat) w, s.workers[c]? = some w → Solid z w ∧ ∃ q, S.workers[c]? = some (ghost w q)
  user : S.user = quiet s.user
  finished : S.finished = s.finished

theorem Haunts.none {z : Sizes} {s S : Sys α σ ρ} (h : Haunts z s S) {c : Nat} (hc : s.workers[c]? = none) : S.workers[c]? = none := by
  rw [List.getElem?_eq_none_iff] at hc ⊢
  rw [h.length]
  exact hc

/-- Of one thread. -/
theorem Haunts.set {z : Sizes} {s S : Sys α σ ρ} (h : Haunts z s S) {c : Nat} {w w' : Worker α σ ρ} {q q' : Fifo α} (hc : s.workers[c]? = some w) (hC : S.workers[c]? = some (Threads.ghost w q))
    (hw : Solid z w') (d : Nat) (v : Worker α σ ρ) (hd : (s.workers.set c w')[d]? = some v) : Solid z v ∧ ∃ q, (S.workers.set c (Threads.ghost w' q'))[d]? = some (Threads.ghost v q) := by
  rcases get_set hc hd with ⟨rfl, rfl⟩ | ⟨ne, e⟩
  · exact ⟨hw, q', List.getElem?_set_self (lt_of_get hC)⟩
  · obtain ⟨h1, q, h2⟩ := h.ghost d v e
    exact ⟨h1, q, by rw [List.getElem?_set_ne (fun e => ne e.symm)]; exact h2⟩

theorem solid_read {z : Sizes} {w : Worker α σ ρ} (h : Solid z w) (place got : Nat) : Solid z (w.setBuf place ((w.bufAt place).skip got)) := by
  unfold Worker.setBuf
  split
  · exact ⟨h.room, h.new, h.space⟩
  · rename_i hp
    have e : w.bufAt place = w.cd.outbuf := by
      unfold Worker.bufAt
      rw [List.getElem?_eq_none_iff.mpr (by omega)]
      rfl
    rw [e]
    refine ⟨⟨?_, h.room.cap⟩, h.new, ?_⟩
    · have := h.room.fits
      simp only [Fifo.skip, List.length_drop]
      omega
    · intro x hx
      have := h.space x hx
      simp only [Fifo.skip, Fifo.writeSpace, List.length_drop] at this ⊢
      omega

theorem ghost_read (w : Worker α σ ρ) (place : Nat) (b q : Fifo α) : ghost (w.setBuf place b) q = ghost w q := by
  unfold Worker.setBuf
  split <;> rfl

section
variable [Zero α] [Add α] [Sub α] {p : Params} {env : Env α σ ρ κ} {z : Sizes} {incs : List Int} {x₀ : Nat → Syn α σ} {all : List (Frame α)}

/-- All that is known of a stretcher: its ghosts are as they should be. -/
structure Haunted (p : Params) (env : Env α σ ρ κ) (z : Sizes) (incs : List Int) (x₀ : Nat → Syn α σ) (all : List (Frame α)) (icaps caps : Nat → Nat) (s S : Sys α σ ρ) (B : List (Frame α)) (g : Nat → Nat)
    (r : Nat → List α) (es : List (Event α)) : Prop where
  haunts : Haunts z s S
  flow : Flow p env z incs x₀ all S B g r
  settled : AllSettled caps S
  slim : AllSlim z icaps S
  fits : Fits all S B es

variable {s s' S : Sys α σ ρ} {B : List (Frame α)} {g icaps caps : Nat → Nat} {r : Nat → List α}

/-- The ghosts take the same turn, or none. -/
theorem haunted_turn (hJ : AllOk p env z incs x₀ all) (hz : z.pitchScale = 1) (hsep : (p.channelsTogether && decide (p.channels ≥ 2)) = false) {e : Event α} {es : List (Event α)}
    (hroom : ∀ c, c < s.workers.length → (job p env z incs x₀ all c).out.length + z.window ≤ caps c) (h : Haunted p env z incs x₀ all icaps caps s S B g r (e :: es))
    (hs : s.step p env z incs e = some s') : ∃ S' B' g' r', Haunted p env z incs x₀ all icaps caps s' S' B' g' r' es ∧
      ((S' = S ∧ ∀ c w, s.workers[c]? = some w → turns c [e] = 1 → ∃ w', s'.workers[c]? = some w' ∧ extra w'.pc < extra w.pc) ∨ S.step p env z incs e = some S') := by
  obtain ⟨hh, hf, hset, hslim, hfit⟩ := h
  have hroom' : ∀ c, c < S.workers.length → (job p env z incs x₀ all c).out.length + z.window ≤ caps c := by rw [hh.length]; exact hroom
  -- the ghosts take the turn
  have take : ∀ S', S.heeds e = true → S.step p env z incs e = some S' → Haunts z s' S' → ∃ S' B' g' r', Haunted p env z incs x₀ all icaps caps s' S' B' g' r' es ∧
      ((S' = S ∧ ∀ c w, s.workers[c]? = some w → turns c [e] = 1 → ∃ w', s'.workers[c]? = some w' ∧ extra w'.pc < extra w.pc) ∨ S.step p env z incs e = some S') := by
    intro S' he hS hl
    obtain ⟨B', g', r', f1, f2⟩ := flow_turn hJ hz hsep hf hfit hset.calm he hS
    exact ⟨S', B', g', r', ⟨hl, f1, settled_turn hJ hz hf hroom' hset hS, slim_turn (hJ 0).fine.inc hf hslim hS, f2⟩, Or.inr hS⟩
  -- they take none
  have stay : Haunts z s' S → Fits all S B es → (∀ c w, s.workers[c]? = some w → turns c [e] = 1 → ∃ w', s'.workers[c]? = some w' ∧ extra w'.pc < extra w.pc) →
      ∃ S' B' g' r', Haunted p env z incs x₀ all icaps caps s' S' B' g' r' es ∧
      ((S' = S ∧ ∀ c w, s.workers[c]? = some w → turns c [e] = 1 → ∃ w', s'.workers[c]? = some w' ∧ extra w'.pc < extra w.pc) ∨ S.step p env z incs e = some S') := by
    intro h1 h2 h3
    exact ⟨S, B, g, r, ⟨h1, hf, hset, hslim, h2⟩, Or.inl ⟨rfl, h3⟩⟩
  cases e with
  | call q =>
    unfold Sys.step at hs
    simp only at hs
    split at hs
    · rename_i hu
      cases hs
      have hU : S.user = .idle := by rw [hh.user, hu]; rfl
      cases q with
      | process input final =>
        refine take (S.call (.process input final)) rfl ?_ ?_
        · unfold Sys.step; simp only [hU]
        · unfold Sys.call
          simp only
          rw [hh.finished, hh.length]
          split
          · exact hh
          · exact ⟨hh.length, hh.ghost, rfl, rfl⟩
      | available => exact stay ⟨hh.length, hh.ghost, hU, hh.finished⟩ hfit (fun c w _ h1 => by simp [turns] at h1)
      | retrieve n => exact stay ⟨hh.length, hh.ghost, hU, hh.finished⟩ hfit (fun c w _ h1 => by simp [turns] at h1)
    · cases hs
  | user =>
    have no : ∀ c w, s.workers[c]? = some w → turns c [Event.user (α := α)] = 1 → ∃ w', s'.workers[c]? = some w' ∧ extra w'.pc < extra w.pc := fun c w _ h1 => by simp [turns] at h1
    unfold Sys.step Sys.userStep at hs
    simp only at hs
    have hU := hh.user
    cases hu : s.user with
    | idle => rw [hu] at hs; cases hs
    | consume input final used c =>
      rw [hu] at hs hU
      simp only at hs
      simp only [quiet] at hU
      split at hs
      · rename_i hw
        have hW := hh.none hw
        split at hs
        · rename_i hd
          cases hs
          refine take { S with user := .idle, finished := final } rfl ?_ ⟨hh.length, hh.ghost, rfl, rfl⟩
          unfold Sys.step Sys.userStep
          simp only [hU, hW, if_pos hd]
        · rename_i hd
          cases hs
          refine take { S with user := .consume input final used 0 } rfl ?_ ⟨hh.length, hh.ghost, rfl, hh.finished⟩
          unfold Sys.step Sys.userStep
          simp only [hU, hW, if_neg hd]
      · rename_i w hw
        obtain ⟨_, q, hW⟩ := hh.ghost c w hw
        cases hs
        refine take { S with user := .write input final used c w.cd.inbuf.writeSpace } rfl ?_ ⟨hh.length, hh.ghost, rfl, hh.finished⟩
        unfold Sys.step Sys.userStep
        simp only [hU, hW]
        rfl
    | write input final used c n =>
      rw [hu] at hs hU
      simp only at hs
      simp only [quiet] at hU
      split at hs
      · cases hs
      · rename_i w hw
        obtain ⟨hsol, q, hW⟩ := hh.ghost c w hw
        cases hs
        refine take { S with
          workers := S.workers.set c (ghost { w with cd := { w.cd with inbuf := w.cd.inbuf.write (((input.drop (used.getD c 0)).take (min n (input.length - used.getD c 0))).map (prepared p env c)), inCount := w.cd.inCount + min n (input.length - used.getD c 0) } } q)
          user := .mark input final (used.set c (used.getD c 0 + min n (input.length - used.getD c 0))) c } rfl ?_ ⟨?_, ?_, rfl, hh.finished⟩
        · unfold Sys.step Sys.userStep
          simp only [hU, hW]
          rfl
        · simp only [List.length_set]; exact hh.length
        · exact hh.set hw hW ⟨hsol.room, hsol.new, hsol.space⟩
    | mark input final used c =>
      rw [hu] at hs hU
      simp only at hs
      simp only [quiet] at hU
      split at hs
      · cases hs
      · rename_i w hw
        obtain ⟨hsol, q, hW⟩ := hh.ghost c w hw
        cases hs
        refine take { S with
          workers := S.workers.set c (ghost (if used.getD c 0 ≥ input.length ∧ final = true then { w with cd := { w.cd with inputSize := some w.cd.inCount } } else w) q)
          user := .consume input final used (c + 1) } rfl ?_ ⟨?_, ?_, rfl, hh.finished⟩
        · unfold Sys.step Sys.userStep
          simp only [hU, hW]
          split <;> rfl
        · simp only [List.length_set]; exact hh.length
        · refine hh.set hw hW ?_
          split
          · exact ⟨hsol.room, hsol.new, hsol.space⟩
          · exact hsol
    | asking c least b =>
      rw [hu] at hs hU
      simp only at hs
      split at hs <;> cases hs <;> exact stay ⟨hh.length, hh.ghost, hU, hh.finished⟩ hfit no
    | asked c least b =>
      rw [hu] at hs hU
      simp only at hs
      split at hs <;> cases hs
      exact stay ⟨hh.length, hh.ghost, hU, hh.finished⟩ hfit no
    | point n got c outs =>
      rw [hu] at hs hU
      simp only at hs
      split at hs <;> cases hs <;> exact stay ⟨hh.length, hh.ghost, hU, hh.finished⟩ hfit no
    | read n got c outs place =>
      rw [hu] at hs hU
      simp only at hs
      split at hs
      · cases hs
      · rename_i w hw
        obtain ⟨hsol, q, hW⟩ := hh.ghost c w hw
        cases hs
        refine stay ⟨?_, ?_, hU, hh.finished⟩ hfit no
        · simp only [List.length_set]; exact hh.length
        · intro d v hv
          rcases get_set hw hv with ⟨rfl, rfl⟩ | ⟨_, e⟩
          · exact ⟨solid_read hsol _ _, q, by rw [ghost_read]; exact hW⟩
          · exact hh.ghost d v e
  | thread d =>
    unfold Sys.step at hs
    simp only at hs
    obtain ⟨w, hw, hs⟩ := Option.bind_eq_some_iff.mp hs
    obtain ⟨w', hw', hs⟩ := Option.map_eq_some_iff.mp hs
    cases hs
    obtain ⟨hsol, q, hW⟩ := hh.ghost d w hw
    obtain ⟨w'', g1, g2, g3⟩ := ghost_step (hJ d) hsol (hf.phase d _ hW) (hset d _ hW) (hroom d (lt_of_get hw))
    have g1' : w.step p env z incs = some w'' := g1
    rw [hw'] at g1'
    cases g1'
    rcases g3 with ⟨g3, g4⟩ | ⟨q', g3⟩
    · refine stay ⟨?_, ?_, hh.user, hh.finished⟩ hfit ?_
      · simp only [List.length_set]; exact hh.length
      · intro c v hv
        rcases get_set hw hv with ⟨rfl, rfl⟩ | ⟨_, e⟩
        · exact ⟨g2, q, by rw [g3]; exact hW⟩
        · exact hh.ghost c v e
      · intro c v hv ht
        have : d = c := by
          by_contra hd
          simp [turns, hd] at ht
        subst this
        rw [hw] at hv
        cases hv
        exact ⟨w', List.getElem?_set_self (lt_of_get hw), g4⟩
    · refine take { S with workers := S.workers.set d (ghost w' q') } rfl ?_ ⟨?_, hh.set hw hW g2, hh.user, hh.finished⟩
      · unfold Sys.step
        simp only [hW, Option.bind_some]
        have g3' : (ghost w q).step p env z incs = some (ghost w' q') := g3
        rw [g3', Option.map_some]
      · simp only [List.length_set]; exact hh.length

/-- A thread whose turn it is not stays where it is. -/
theorem turn_pc {e : Event α} (hs : s.step p env z incs e = some s') {c : Nat} (ht : turns c [e] = 0) {w : Worker α σ ρ} (hw : s.workers[c]? = some w) :
    ∃ w', s'.workers[c]? = some w' ∧ w'.pc = w.pc := by
  have same : s'.workers = s.workers → ∃ w', s'.workers[c]? = some w' ∧ w'.pc = w.pc := fun e => ⟨w, by rw [e]; exact hw, rfl⟩
  have one : ∀ (d : Nat) v v', s.workers[d]? = some v → v'.pc = v.pc → s'.workers = s.workers.set d v' → ∃ w', s'.workers[c]? = some w' ∧ w'.pc = w.pc := by
    intro d v v' h1 h2 h3
    by_cases hd : d = c
    · subst hd
      rw [hw] at h1
      cases h1
      exact ⟨v', by rw [h3]; exact List.getElem?_set_self (lt_of_get hw), h2⟩
    · exact ⟨w, by rw [h3, List.getElem?_set_ne hd]; exact hw, rfl⟩
  cases e with
  | call q =>
    unfold Sys.step at hs
    simp only at hs
    split at hs
    · cases hs
      refine same ?_
      unfold Sys.call
      cases q with
      | process input final => simp only; split <;> rfl
      | _ => rfl
    · cases hs
  | user =>
    unfold Sys.step Sys.userStep at hs
    simp only at hs
    generalize s.user = user at hs
    cases user with
    | idle => cases hs
    | consume input final used c => simp only at hs; split at hs <;> [split at hs; skip] <;> cases hs <;> exact same rfl
    | write input final used c n => simp only at hs; split at hs <;> cases hs; rename_i v hv; refine one _ v _ hv ?_ rfl; rfl
    | mark input final used c => simp only at hs; split at hs <;> cases hs; rename_i v hv; exact one _ v _ hv (by split <;> rfl) rfl
    | asking c least q => simp only at hs; split at hs <;> cases hs <;> exact same rfl
    | asked c least q => simp only at hs; split at hs <;> cases hs; exact same rfl
    | point n got c outs => simp only at hs; split at hs <;> cases hs <;> exact same rfl
    | read n got c outs place =>
      simp only at hs; split at hs <;> cases hs; rename_i v hv
      exact one _ v _ hv (by unfold Worker.setBuf; split <;> rfl) rfl
  | thread d =>
    unfold Sys.step at hs
    simp only at hs
    obtain ⟨v, hv, hs⟩ := Option.bind_eq_some_iff.mp hs
    obtain ⟨v', hv', hs⟩ := Option.map_eq_some_iff.mp hs
    cases hs
    have hd : d ≠ c := by
      intro e
      subst e
      simp [turns] at ht
    exact ⟨w, by rw [List.getElem?_set_ne hd]; exact hw, rfl⟩

theorem turns_one (c : Nat) (e : Event α) : turns c [e] = 0 ∨ turns c [e] = 1 := by
  unfold turns
  simp only [List.countP_cons, List.countP_nil, Nat.zero_add]
  generalize (match e with | .thread d => d == c | _ => false) = b
  cases b <;> simp

/-- How much is left, by a turn. -/
theorem effort_turn (hJ : AllOk p env z incs x₀ all) (hz : z.pitchScale = 1) (hsep : (p.channelsTogether && decide (p.channels ≥ 2)) = false) {e : Event α} {es : List (Event α)}
    (hroom : ∀ c, c < s.workers.length → (job p env z incs x₀ all c).out.length + z.window ≤ caps c) (h : Haunted p env z incs x₀ all icaps caps s S B g r (e :: es))
    (hs : s.step p env z incs e = some s') {c : Nat} {w : Worker α σ ρ} (hw : s.workers[c]? = some w) (hi : w.cd.inputSize.isSome = true) :
    ∃ S' B' g' r', Haunted p env z incs x₀ all icaps caps s' S' B' g' r' es ∧ ∃ w', s'.workers[c]? = some w' ∧ w'.cd.inputSize.isSome = true ∧ (w.pc = .done → w'.pc = .done) ∧
      (w'.pc = .done ∨ effort z w' + turns c [e] ≤ effort z w) := by
  obtain ⟨S', B', g', r', k1, k2⟩ := haunted_turn hJ hz hsep hroom h hs
  refine ⟨S', B', g', r', k1, ?_⟩
  obtain ⟨_, q, hW⟩ := h.haunts.ghost c w hw
  have hl : c < s'.workers.length := by rw [length_turn hs]; exact lt_of_get hw
  have hw' := List.getElem?_eq_getElem hl
  generalize s'.workers[c] = w' at hw'
  obtain ⟨_, q', hW'⟩ := k1.haunts.ghost c w' hw'
  refine ⟨w', hw', ?_⟩
  rcases k2 with ⟨k2, k3⟩ | k2
  · subst k2
    rw [hW] at hW'
    injection hW' with hW'
    have e1 : w'.cd.inputSize = w.cd.inputSize := (congrArg (fun v => v.cd.inputSize) hW').symm
    have e2 : flat w'.pc = flat w.pc := (congrArg (fun v => v.pc) hW').symm
    have e3 : turnsLeft z (ghost w' w'.cd.outbuf) = turnsLeft z (ghost w w.cd.outbuf) := by
      rw [← turns_ghost z w' q', ← hW', turns_ghost z w q]
    refine ⟨by rw [e1]; exact hi, ?_, Or.inr ?_⟩
    · intro hd
      rw [← flat_done, e2, flat_done]
      exact hd
    · unfold effort
      rw [e3]
      rcases turns_one c e with ht | ht
      · obtain ⟨v, h1, h2⟩ := turn_pc hs ht hw
        rw [hw'] at h1
        cases h1
        rw [h2, ht]
        omega
      · obtain ⟨v, h1, h2⟩ := k3 c w hw ht
        rw [hw'] at h1
        cases h1
        omega
  · obtain ⟨v, e1, _, e3, e4, e5⟩ := ended_turn hJ h.settled.calm h.flow k1.flow k2 hW (h.slim c _ hW) hi
    rw [hW'] at e1
    cases e1
    have i1 : (ghost w q).pc = .done ↔ w.pc = .done := flat_done
    have i2 : (ghost w' q').pc = .done ↔ w'.pc = .done := flat_done
    rw [i1, i2] at e4
    rw [i2] at e5
    refine ⟨e3, e4, ?_⟩
    rcases e5 with e5 | e5
    · exact Or.inl e5
    · right
      rw [turns_ghost, turns_ghost z w q] at e5
      unfold effort
      rcases turns_one c e with ht | ht
      · obtain ⟨v, h1, h2⟩ := turn_pc hs ht hw
        rw [hw'] at h1
        cases h1
        rw [h2, ht]
        omega
      · have := extra_le w'.pc
        omega

theorem haunted_run (hJ : AllOk p env z incs x₀ all) (hz : z.pitchScale = 1) (hsep : (p.channelsTogether && decide (p.channels ≥ 2)) = false) (es : List (Event α)) :
    ∀ {s s' S : Sys α σ ρ} {B : List (Frame α)} {g : Nat → Nat} {r : Nat → List α}, (∀ c, c < s.workers.length → (job p env z incs x₀ all c).out.length + z.window ≤ caps c) →
    Haunted p env z incs x₀ all icaps caps s S B g r es → s.run p env z incs es = some s' → ∃ S' B' g' r', Haunted p env z incs x₀ all icaps caps s' S' B' g' r' [] := by
  induction es with
  | nil =>
    intro s s' S B g r _ h hs
    unfold Sys.run at hs
    cases hs
    exact ⟨S, B, g, r, h⟩
  | cons e es ih =>
    intro s s' S B g r hroom h hs
    unfold Sys.run at hs
    obtain ⟨t, ht, hs⟩ := Option.bind_eq_some_iff.mp hs
    obtain ⟨S', B', g', r', k1, _⟩ := haunted_turn hJ hz hsep hroom h ht
    exact ih (by rw [length_turn ht]; exact hroom) k1 hs

/-- The same when there is more to come. -/
theorem haunted_pre (hJ : AllOk p env z incs x₀ all) (hz : z.pitchScale = 1) (hsep : (p.channelsTogether && decide (p.channels ≥ 2)) = false) (rest es : List (Event α)) :
    ∀ {s s' S : Sys α σ ρ} {B : List (Frame α)} {g : Nat → Nat} {r : Nat → List α}, (∀ c, c < s.workers.length → (job p env z incs x₀ all c).out.length + z.window ≤ caps c) →
    Haunted p env z incs x₀ all icaps caps s S B g r (es ++ rest) → s.run p env z incs es = some s' → ∃ S' B' g' r', Haunted p env z incs x₀ all icaps caps s' S' B' g' r' rest := by
  induction es with
  | nil =>
    intro s s' S B g r _ h hs
    unfold Sys.run at hs
    cases hs
    exact ⟨S, B, g, r, h⟩
  | cons e es ih =>
    intro s s' S B g r hroom h hs
    unfold Sys.run at hs
    obtain ⟨t, ht, hs⟩ := Option.bind_eq_some_iff.mp hs
    obtain ⟨S', B', g', r', k1, _⟩ := haunted_turn hJ hz hsep hroom h ht
    exact ih (by rw [length_turn ht]; exact hroom) k1 hs

theorem effort_run (hJ : AllOk p env z incs x₀ all) (hz : z.pitchScale = 1) (hsep : (p.channelsTogether && decide (p.channels ≥ 2)) = false) {c : Nat} (es : List (Event α)) :
    ∀ {s s' S : Sys α σ ρ} {B : List (Frame α)} {g : Nat → Nat} {r : Nat → List α} {w : Worker α σ ρ}, (∀ c, c < s.workers.length → (job p env z incs x₀ all c).out.length + z.window ≤ caps c) →
    Haunted p env z incs x₀ all icaps caps s S B g r es → s.run p env z incs es = some s' → s.workers[c]? = some w → w.cd.inputSize.isSome = true →
    ∃ w', s'.workers[c]? = some w' ∧ (w.pc = .done → w'.pc = .done) ∧ (w'.pc = .done ∨ effort z w' + turns c es ≤ effort z w) := by
  induction es with
  | nil =>
    intro s s' S B g r w _ h hs hw _
    unfold Sys.run at hs
    cases hs
    exact ⟨w, hw, id, Or.inr (Nat.le_refl _)⟩
  | cons e es ih =>
    intro s s' S B g r w hroom h hs hw hi
    unfold Sys.run at hs
    obtain ⟨t, ht, hs⟩ := Option.bind_eq_some_iff.mp hs
    obtain ⟨S', B', g', r', k1, w₁, a1, a2, a3, a4⟩ := effort_turn hJ hz hsep hroom h ht hw hi
    obtain ⟨w₂, b1, b2, b3⟩ := ih (by rw [length_turn ht]; exact hroom) k1 hs a1 a2
    refine ⟨w₂, b1, b2 ∘ a3, ?_⟩
    rw [turns_cons]
    rcases a4 with a4 | a4
    · exact Or.inl (b2 a4)
    · rcases b3 with b3 | b3
      · exact Or.inl b3
      · right; omega

/-! ## The beginning -/

theorem phase_longer {J : Job α σ ρ κ} {w : Worker α σ ρ} {g cap : Nat} {r : List α} (h : Phase J w g r) (hp : w.pc = .top) (hcap : w.cd.outbuf.cap ≤ cap) :
    Phase J (ghost w { w.cd.outbuf with cap := cap }) g r := by
  obtain ⟨cd, old, pc⟩ := w
  cases hp
  obtain ⟨h1, h2⟩ := h
  have hf := h1.room.fits
  have hc := h1.room.cap
  have h3 : Idle J { cd with outbuf := { cd.outbuf with cap := cap } } g r := by
    have h2 : Idle J cd g r := h2
    rcases h2 with ⟨j, a1, a2, a3⟩ | ⟨h, a1, a2⟩
    · exact Or.inl ⟨j, a1.congr rfl rfl rfl rfl, a2, a3.heard, a3.count⟩
    · exact Or.inr ⟨h, a1.congr rfl rfl rfl rfl, a2.heard, a2.count⟩
  exact ⟨⟨h1.inCount, h1.le, h1.size, h1.fits, h1.cap, ⟨Nat.le_trans hf hcap, Nat.le_trans hc hcap⟩⟩, h3⟩

theorem haunted_begin {s t : State α σ ρ κ} (hs : Prepared p env s t) {all : List (Frame α)} (h : Ordinary p t all.length) {es : List (Event α)} (h1 : given es <+: all) (h2 : ends es = true → given es = all) :
    ∃ caps S, (∀ c, c < (start t).workers.length → (job p env t.sizes t.outputIncrements (initial env t) all c).out.length + t.sizes.window ≤ caps c) ∧
      Haunted p env t.sizes t.outputIncrements (initial env t) all (fun c => ((t.chans[c]?).map fun cd => cd.inbuf.cap).getD 0) caps (start t) S [] (fun _ => 0) (fun _ => []) es := by
  obtain ⟨b1, b2, b3, _⟩ := flow_begin hs h
  obtain ⟨_, _, _, c4⟩ := prologue_clean (hs.ready h.offline).1 hs.start
  let need : Nat → Nat := fun c => (job p env t.sizes t.outputIncrements (initial env t) all c).out.length + t.sizes.window
  let caps : Nat → Nat := fun c => ((t.chans[c]?).map fun cd => 16 * cd.outbuf.cap).getD 0 + need c
  let S : Sys α σ ρ := { start t with workers := (start t).workers.mapIdx fun c w => ghost w { w.cd.outbuf with cap := w.cd.outbuf.cap + need c } }
  have get : ∀ (c : Nat) v, S.workers[c]? = some v → ∃ cd w, t.chans[c]? = some cd ∧ (start t).workers[c]? = some w ∧ w = ⟨{ cd with outbuf := { cd.outbuf with cap := 16 * cd.outbuf.cap } }, [], .top⟩ ∧
      v = ghost w { w.cd.outbuf with cap := w.cd.outbuf.cap + need c } := by
    intro c v hv
    simp only [S, List.getElem?_mapIdx] at hv
    obtain ⟨w, hw, e⟩ := Option.map_eq_some_iff.mp hv
    have hw' := hw
    unfold start at hw
    simp only [List.getElem?_map] at hw
    obtain ⟨cd, hcd, e'⟩ := Option.map_eq_some_iff.mp hw
    exact ⟨cd, w, hcd, hw', e'.symm, e.symm⟩
  refine ⟨caps, S, fun c _ => Nat.le_add_left _ _, ⟨?_, ?_, rfl, rfl⟩, ⟨?_, ?_, ?_⟩, ?_, ?_, ?_⟩
  · simp [S]
  · intro c w hw
    have hp := b2.phase c w hw
    have hpc : w.pc = .top := by
      unfold start at hw
      simp only [List.getElem?_map] at hw
      obtain ⟨cd, hcd, e'⟩ := Option.map_eq_some_iff.mp hw
      rw [← e']
    refine ⟨?_, { w.cd.outbuf with cap := w.cd.outbuf.cap + need c }, ?_⟩
    · refine ⟨hp.1.room, ?_, ?_⟩
      · intro x new e; rw [hpc] at e; cases e
      · intro x e; rw [hpc] at e; rcases e with e | ⟨T, e⟩ <;> cases e
    · simp only [S, List.getElem?_mapIdx, hw, Option.map_some]
  · intro c v hv
    obtain ⟨cd, w, g1, g2, g3, g4⟩ := get c v hv
    rw [g4]
    exact phase_longer (b2.phase c w g2) (by rw [g3]) (Nat.le_add_right _ _)
  · refine ⟨List.nil_prefix, fun c _ => rfl, fun e => by cases e⟩
  · intro c w _
    exact ⟨rfl, Nat.zero_le _⟩
  · intro c v hv
    obtain ⟨cd, w, g1, g2, g3, g4⟩ := get c v hv
    rw [g4, g3]
    refine ⟨?_, by simp [ghost, flat], by simp [ghost, flat]⟩
    simp only [caps, g1, Option.map_some, Option.getD_some]
    rfl
  · intro c v hv
    obtain ⟨cd, w, g1, g2, g3, g4⟩ := get c v hv
    rw [g4, g3]
    refine ⟨?_, ?_, trivial⟩
    · show cd.accumulatorFill ≤ _
      rw [(c4 cd (List.mem_of_getElem? g1)).1.fill]
      exact Nat.zero_le _
    · simp only [g1, Option.map_some, Option.getD_some]
      rfl
  · exact Or.inr ⟨h1, h2⟩

end

end Verif.R2.Threads
