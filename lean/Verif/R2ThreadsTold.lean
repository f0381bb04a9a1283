import Verif.R2ThreadsOut
/-!
# The faster engine with threads: what the user is told
-/
namespace Verif.R2.Threads
open Verif.R2

variable {α σ ρ κ : Type}

/-- Whether the last thing the user was told is that there is no more. -/
def lastNo : List (Reply α) → Bool
  | .available n :: _ => n == -1
  | _ => false

/-- Whether the user was told so twice running. -/
def twice : List (Reply α) → Bool
  | .available n :: l => n == -1 && lastNo l
  | _ => false

/-- What has been seen of `outputComplete`. -/
def Seen (ws : List (Worker α σ ρ)) : User α → Prop
  | .asking c _ q => q = true → ∀ (d : Nat) w, d < c → ws[d]? = some w → w.cd.outputComplete = true
  | .asked c _ q => q = true → ∀ (d : Nat) w, d < c → ws[d]? = some w → w.cd.outputComplete = true
  | _ => True

/-- The least that has been seen is there. -/
def Least (ws : List (Worker α σ ρ)) : User α → Prop
  | .asking c least _ => c = 0 ∨ ∃ (d : Nat) (w : Worker α σ ρ), ws[d]? = some w ∧ w.cd.outbuf.readSpace = least
  | .asked _ least _ => ∃ (d : Nat) (w : Worker α σ ρ), ws[d]? = some w ∧ w.cd.outbuf.readSpace = least
  | _ => True

/-- What is always so of what the user has been told, `out` being all there is to be heard. -/
structure Told (out : Nat → List α) (ws : List (Worker α σ ρ)) (replies : List (Reply α)) (user : User α) : Prop where
  even : ∀ c d, c < ws.length → d < ws.length → (heard c replies).length = (heard d replies).length
  complete : lastNo replies = true → ∀ (c : Nat) w, ws[c]? = some w → w.cd.outputComplete = true
  seen : Seen ws user
  least : lastNo replies = true → Least ws user
  whole : twice replies = true → ∀ c, c < ws.length → heard c replies = out c
  retrieved : ∀ n outs got, Reply.retrieved n outs got ∈ replies → got = n ∧ outs.length = ws.length ∧ ∀ l ∈ outs, l.length = n

/-- Only the list of the channels has changed. -/
theorem Told.other {out : Nat → List α} {ws ws' : List (Worker α σ ρ)} {replies : List (Reply α)} {user user' : User α} (h : Told out ws replies user)
    (hl : ws'.length = ws.length) (hc : ∀ (c : Nat) w, ws'[c]? = some w → ∃ u, ws[c]? = some u ∧ (u.cd.outputComplete = true → w.cd.outputComplete = true))
    (hs : Seen ws' user') (hm : lastNo replies = true → Least ws' user') : Told out ws' replies user' := by
  refine ⟨?_, ?_, hs, hm, ?_, ?_⟩
  · rw [hl]; exact h.even
  · intro e c w hw
    obtain ⟨u, h1, h2⟩ := hc c w hw
    exact h2 (h.complete e c u h1)
  · rw [hl]; exact h.whole
  · rw [hl]; exact h.retrieved

section
variable [Zero α] [Add α] [Sub α] {p : Params} {env : Env α σ ρ κ} {z : Sizes} {incs : List Int} {x₀ : Nat → Syn α σ} {all : List (Frame α)}
variable {s s' : Sys α σ ρ} {B : List (Frame α)} {g : Nat → Nat} {r : Nat → List α} {out : Nat → List α}

theorem told_call (h : Told out s.workers s.replies s.user) (q : Req α) : Told out (s.call q).workers (s.call q).replies (s.call q).user := by
  have same : ∀ (c : Nat) w, s.workers[c]? = some w → ∃ u, s.workers[c]? = some u ∧ (u.cd.outputComplete = true → w.cd.outputComplete = true) := fun c w hw => ⟨w, hw, id⟩
  cases q with
  | process input final =>
    unfold Sys.call
    simp only
    split
    · exact h
    · exact h.other rfl same trivial fun _ => trivial
  | available => exact h.other rfl same (fun _ d w hd _ => absurd hd (Nat.not_lt_zero _)) fun _ => Or.inl rfl
  | retrieve n => exact h.other rfl same trivial fun _ => trivial

theorem told_thread (hJ : AllOk p env z incs x₀ all) (hf : Flow p env z incs x₀ all s B g r) (calm : s.calm = true) {c : Nat} {w w' : Worker α σ ρ} (hc : s.workers[c]? = some w)
    (hw' : w.step p env z incs = some w') (h : Told out s.workers s.replies s.user) : Told out (s.workers.set c w') s.replies s.user := by
  obtain ⟨w'', h1, h2, h3⟩ := flow_thread hJ hf calm hc
  rw [hw'] at h1
  cases h1
  have key : ∀ (d : Nat) v, (s.workers.set c w')[d]? = some v → ∃ u, s.workers[d]? = some u ∧ (u.cd.outputComplete = true → v.cd.outputComplete = true) := by
    intro d v hv
    rcases get_set hc hv with ⟨e1, e2⟩ | ⟨_, e⟩
    · subst e1 e2
      exact ⟨w, hc, h3.complete⟩
    · exact ⟨v, e, id⟩
  have space : w.cd.outputComplete = true → w'.cd.outbuf.readSpace = w.cd.outbuf.readSpace := by
    intro e
    have a := (phase_complete (hf.phase c w hc) e).heard
    have b := (phase_complete (h2.phase c w' (List.getElem?_set_self (lt_of_get hc))) (h3.complete e)).heard
    have := congrArg List.length (b.trans a.symm)
    rw [List.length_append, List.length_append] at this
    unfold Fifo.readSpace
    omega
  have back : lastNo s.replies = true → ∀ least, (∃ (d : Nat) (u : Worker α σ ρ), s.workers[d]? = some u ∧ u.cd.outbuf.readSpace = least) →
      ∃ (d : Nat) (u : Worker α σ ρ), (s.workers.set c w')[d]? = some u ∧ u.cd.outbuf.readSpace = least := by
    rintro e least ⟨d, u, a1, a2⟩
    by_cases hd : d = c
    · subst hd
      rw [hc] at a1
      cases a1
      exact ⟨d, w', List.getElem?_set_self (lt_of_get hc), (space (h.complete e d w hc)).trans a2⟩
    · exact ⟨d, u, by rw [List.getElem?_set_ne (by omega)]; exact a1, a2⟩
  refine h.other (by simp) key ?_ ?_
  · have hs := h.seen
    generalize s.user = user at hs
    cases user with
    | asking c₀ least q =>
      intro e d v hd hv
      obtain ⟨u, u1, u2⟩ := key d v hv
      exact u2 (hs e d u hd u1)
    | asked c₀ least q =>
      intro e d v hd hv
      obtain ⟨u, u1, u2⟩ := key d v hv
      exact u2 (hs e d u hd u1)
    | _ => trivial
  · intro e
    have hl := h.least e
    generalize s.user = user at hl
    cases user with
    | asking c₀ least q =>
      rcases hl with hl | hl
      · exact Or.inl hl
      · exact Or.inr (back e least hl)
    | asked c₀ least q => exact back e least hl
    | _ => trivial

theorem told_user (hz : z.pitchScale = 1) (hsep : (p.channelsTogether && decide (p.channels ≥ 2)) = false) (hf : Flow p env z incs x₀ all s B g r)
    (ho : ∀ c, (job p env z incs x₀ all c).out = out c) (hl : ∀ c d, c < s.workers.length → d < s.workers.length → (out c).length = (out d).length)
    (h : Told out s.workers s.replies s.user) (hs : s.userStep p env z = some s') : Told out s'.workers s'.replies s'.user := by
  have same : ∀ (c : Nat) w, s.workers[c]? = some w → ∃ u, s.workers[c]? = some u ∧ (u.cd.outputComplete = true → w.cd.outputComplete = true) := fun c w hw => ⟨w, hw, id⟩
  have put : ∀ (c₀ : Nat) (u v : Worker α σ ρ), s.workers[c₀]? = some u → v.cd.outputComplete = u.cd.outputComplete →
      ∀ (c : Nat) w, (s.workers.set c₀ v)[c]? = some w → ∃ u, s.workers[c]? = some u ∧ (u.cd.outputComplete = true → w.cd.outputComplete = true) := by
    intro c₀ u v hu hv c w hw
    rcases get_set hu hw with ⟨e1, e2⟩ | ⟨_, e⟩
    · subst e1 e2
      exact ⟨u, hu, fun e => hv.trans e⟩
    · exact ⟨w, e, id⟩
  unfold Sys.userStep at hs
  have hin := hf.inputs
  have hout := hf.outputs
  have hseen := h.seen
  have hleast := h.least
  cases hu : s.user with
  | idle => rw [hu] at hs; cases hs
  | consume input final used c =>
    rw [hu] at hs
    simp only at hs
    split at hs
    · split at hs
      · cases hs; exact h.other rfl same trivial fun _ => trivial
      · cases hs; exact h.other rfl same trivial fun _ => trivial
    · cases hs; exact h.other rfl same trivial fun _ => trivial
  | write input final used c n =>
    rw [hu] at hs
    simp only at hs
    split at hs
    · cases hs
    · rename_i w hw
      cases hs
      exact h.other (by simp) (put c w _ hw rfl) trivial fun _ => trivial
  | mark input final used c =>
    rw [hu] at hs
    simp only at hs
    split at hs
    · cases hs
    · rename_i w hw
      cases hs
      refine h.other (by simp) (put c w _ hw ?_) trivial fun _ => trivial
      split <;> rfl
  | asking c least q =>
    rw [hu] at hs hout hseen hleast
    simp only at hs
    split at hs
    · rename_i hn
      cases hs
      rw [List.getElem?_eq_none_iff] at hn
      have hno : ∀ l, lastNo (Reply.available (α := α) (answer z s.workers least q) :: l) = true → least = 0 ∧ q = true := by
        intro l e
        by_contra hc
        unfold lastNo answer at e
        rw [if_neg hc, if_pos hz] at e
        have e := eq_of_beq e
        omega
      refine ⟨h.even, ?_, trivial, fun _ => trivial, ?_, ?_⟩
      · intro e d w hw
        exact hseen (hno _ e).2 d w (Nat.lt_of_lt_of_le (lt_of_get hw) hn) hw
      · intro e d hd
        simp only [twice, Bool.and_eq_true] at e
        obtain ⟨e1, e2⟩ := e
        have hz0 := (hno s.replies e1).1
        rcases hleast e2 with h0 | ⟨k, w, k1, k2⟩
        · have hd' : d < s.workers.length := hd
          omega
        · have hk := lt_of_get k1
          have o := (phase_complete (hf.phase k w k1) (h.complete e2 k w k1)).heard
          have h0 : w.cd.outbuf.data = [] := by
            unfold Fifo.readSpace at k2
            exact List.eq_nil_of_length_eq_zero (k2.trans hz0)
          rw [h0, List.append_nil, (hout.1 k w k1).1, ho] at o
          have hd' : d < s.workers.length := hd
          obtain ⟨v, hv⟩ : ∃ v, s.workers[d]? = some v := ⟨_, List.getElem?_eq_getElem hd'⟩
          have o2 := (phase_complete (hf.phase d v hv) (h.complete e2 d v hv)).heard
          rw [(hout.1 d v hv).1, ho] at o2
          have l1 := h.even d k hd' hk
          have l2 := hl d k hd' hk
          have l3 := congrArg List.length o2
          rw [List.length_append, l1, o, l2] at l3
          have : v.cd.outbuf.data = [] := List.eq_nil_of_length_eq_zero (by omega)
          rw [this, List.append_nil] at o2
          exact o2
      · intro n outs got hm
        rcases List.mem_cons.mp hm with e | e
        · cases e
        · exact h.retrieved n outs got e
    · rename_i w hw
      cases hs
      refine h.other rfl same hseen ?_
      intro e
      show ∃ (d : Nat) (v : Worker α σ ρ), s.workers[d]? = some v ∧ v.cd.outbuf.readSpace = (if c = 0 ∨ w.cd.outbuf.readSpace < least then w.cd.outbuf.readSpace else least)
      split
      · exact ⟨c, w, hw, rfl⟩
      · rename_i hc
        rcases hleast e with h0 | h0
        · exact absurd (Or.inl h0) hc
        · exact h0
  | asked c least q =>
    rw [hu] at hs hseen hleast
    simp only at hs
    split at hs
    · cases hs
    · rename_i w hw
      cases hs
      refine h.other rfl same ?_ ?_
      · intro e d v hd hv
        rw [Bool.and_eq_true] at e
        have hv' : s.workers[d]? = some v := hv
        by_cases hdc : d = c
        · subst hdc
          rw [hw] at hv'
          cases hv'
          exact e.2
        · exact hseen e.1 d v (by omega) hv'
      · intro e
        exact Or.inr (hleast e)
  | point n got c outs =>
    rw [hu] at hs hout
    simp only [hsep, Bool.false_eq_true, if_false] at hs
    split at hs
    · rename_i hn
      cases hs
      rw [List.getElem?_eq_none_iff] at hn
      have htake : ∀ d, d < s.workers.length → (outs.getD d []).length = n := by
        intro d hd
        exact (hout.read d _ (List.getElem?_eq_getElem hd) (by omega)).1
      have hlen : outs.length = s.workers.length := by
        have := hout.length
        have := hout.le
        omega
      refine ⟨?_, fun e => (by cases e), trivial, fun e => (by cases e), fun e => (by cases e), ?_⟩
      · intro d e hd he
        show (heard d s.replies ++ (outs.getD d []).take got).length = (heard e s.replies ++ (outs.getD e []).take got).length
        rw [List.length_append, List.length_append, List.length_take, List.length_take, htake d hd, htake e he, h.even d e hd he]
      · intro n' outs' got' hm
        rcases List.mem_cons.mp hm with e | e
        · cases e
          refine ⟨hout.got, hlen, ?_⟩
          intro l hl
          obtain ⟨i, hi, e⟩ := List.getElem_of_mem hl
          have := htake i (by omega)
          rw [List.getD_eq_getElem?_getD, List.getElem?_eq_getElem hi, Option.getD_some, e] at this
          exact this
        · exact h.retrieved n' outs' got' e
    · cases hs; exact h.other rfl same trivial fun _ => trivial
  | read n got c outs place =>
    rw [hu] at hs
    simp only at hs
    split at hs
    · cases hs
    · rename_i w hw
      cases hs
      refine h.other (by simp) (put c w _ hw ?_) trivial fun _ => trivial
      unfold Worker.setBuf
      split <;> rfl

theorem told_turn (hJ : AllOk p env z incs x₀ all) (hz : z.pitchScale = 1) (hsep : (p.channelsTogether && decide (p.channels ≥ 2)) = false)
    {e : Event α} (hf : Flow p env z incs x₀ all s B g r) (calm : s.calm = true)
    (ho : ∀ c, (job p env z incs x₀ all c).out = out c) (hl : ∀ c d, c < s.workers.length → d < s.workers.length → (out c).length = (out d).length)
    (h : Told out s.workers s.replies s.user) (hs : s.step p env z incs e = some s') : Told out s'.workers s'.replies s'.user ∧ s'.workers.length = s.workers.length := by
  cases e with
  | call q =>
    unfold Sys.step at hs
    simp only at hs
    split at hs
    · cases hs
      refine ⟨told_call h q, ?_⟩
      cases q with
      | process input final => unfold Sys.call; simp only; split <;> rfl
      | available => rfl
      | retrieve n => rfl
    · cases hs
  | user =>
    refine ⟨told_user hz hsep hf ho hl h hs, ?_⟩
    replace hs : s.userStep p env z = some s' := hs
    unfold Sys.userStep at hs
    generalize s.user = user at hs
    cases user with
    | idle => cases hs
    | consume input final used c => simp only at hs; split at hs <;> [split at hs; skip] <;> cases hs <;> rfl
    | write input final used c n => simp only at hs; split at hs <;> cases hs; simp
    | mark input final used c => simp only at hs; split at hs <;> cases hs; simp
    | asking c least q => simp only at hs; split at hs <;> cases hs <;> rfl
    | asked c least q => simp only at hs; split at hs <;> cases hs; rfl
    | point n got c outs => simp only at hs; split at hs <;> cases hs <;> rfl
    | read n got c outs place => simp only at hs; split at hs <;> cases hs; simp
  | thread c =>
    unfold Sys.step at hs
    simp only at hs
    obtain ⟨w, hw, hs⟩ := Option.bind_eq_some_iff.mp hs
    obtain ⟨w', h1, hs⟩ := Option.map_eq_some_iff.mp hs
    cases hs
    exact ⟨told_thread hJ hf calm hw h1 h, by simp⟩

theorem told_run (hJ : AllOk p env z incs x₀ all) (hz : z.pitchScale = 1) (hsep : (p.channelsTogether && decide (p.channels ≥ 2)) = false)
    (ho : ∀ c, (job p env z incs x₀ all c).out = out c) (es : List (Event α)) : ∀ {s s' : Sys α σ ρ} {B : List (Frame α)} {g : Nat → Nat} {r : Nat → List α},
    Flow p env z incs x₀ all s B g r → Fits all s B es → Told out s.workers s.replies s.user →
    (∀ c d, c < s.workers.length → d < s.workers.length → (out c).length = (out d).length) →
    s.calmly p env z incs es = true → s.heeding p env z incs es = true → s.run p env z incs es = some s' →
    Told out s'.workers s'.replies s'.user ∧ s'.workers.length = s.workers.length := by
  induction es with
  | nil =>
    intro s s' B g r h hf ht _ _ _ hs
    unfold Sys.run at hs
    cases hs
    exact ⟨ht, rfl⟩
  | cons e es ih =>
    intro s s' B g r h hf ht hl hc hh hs
    unfold Sys.run at hs
    obtain ⟨t, h1, hs⟩ := Option.bind_eq_some_iff.mp hs
    unfold Sys.calmly at hc
    unfold Sys.heeding at hh
    rw [h1] at hc hh
    simp only [Bool.and_eq_true] at hc hh
    obtain ⟨B', g', r', f1, f2⟩ := flow_turn hJ hz hsep h hf hc.1 hh.1 h1
    obtain ⟨t1, t2⟩ := told_turn hJ hz hsep h hc.1 ho hl ht h1
    obtain ⟨u1, u2⟩ := ih f1 f2 t1 (by rw [t2]; exact hl) hc.2 hh.2 hs
    exact ⟨u1, u2.trans t2⟩

/-- Any run in which nothing is read from a buffer that is being replaced and no more is asked for than there is. -/
theorem told_whole (hap : Apart p) {s t : State α σ ρ κ} (hs : Prepared p env s t) {all : List (Frame α)} (h : Ordinary p t all.length) {es : List (Event α)} {s' : Sys α σ ρ}
    (hg : given es <+: all) (he : ends es = true → given es = all) (hc : (start t).calmly p env t.sizes t.outputIncrements es = true)
    (hh : (start t).heeding p env t.sizes t.outputIncrements es = true) (hr : (start t).run p env t.sizes t.outputIncrements es = some s') :
    Told (sounds p env t all) s'.workers s'.replies s'.user ∧ s'.workers.length = p.channels := by
  obtain ⟨a1, a2, a3, _⟩ := flow_begin hs h
  obtain ⟨b1, b2⟩ := told_run a1 h.pitch hap.sep (fun c => job_out p env t all c) es a2 (Or.inr ⟨hg, he⟩)
    ⟨fun _ _ _ _ => rfl, fun e => (by cases e), trivial, fun e => (by cases e), fun e => (by cases e), fun _ _ _ hm => (by cases hm)⟩
    (by rw [a3]; exact fun c d hc hd => sounds_length hs h hc hd) hc hh hr
  exact ⟨b1, b2.trans a3⟩

end
end Verif.R2.Threads
