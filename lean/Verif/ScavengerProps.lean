import Verif.ScavengerLemmas
/-!
# Deferred deletion: property C25
-/
namespace Verif.Scavenger

/-- **C25, exactly once.**  After any history of claims and scavenges at any times,
on a scavenger of any delay and any number of slots: each deletion so far is of a
claimed object and no object was deleted more often than claimed, and after
destruction the objects deleted are exactly those claimed, each as often as it
was claimed. -/
theorem C25_once (sec : Int) (n : Nat) (ops : List Op) :
    ((run (init sec n) ops).deleted.map (·.1)).Subperm ((claims ops).map (·.1)) ∧
    ((destroy (run (init sec n) ops)).deleted.map (·.1)).Perm ((claims ops).map (·.1)) := by
  have h := run_inv sec n ops
  refine ⟨?_, destroy_perm h⟩
  refine List.Subperm.trans (List.Sublist.subperm ?_) h.all.subperm
  rw [List.append_assoc]
  exact List.sublist_append_left _ _

/-- **C25**, the timing part as claimed: an object deleted for its age was handed over
more than the delay before. -/
def C25_not_early_statement : Prop :=
  ∀ (sec : Int) (n : Nat) (ops : List Op), 0 ≤ sec →
    ∀ t now, (t, some now) ∈ (run (init sec n) ops).deleted →
      ∃ at_, (t, at_) ∈ claims ops ∧ at_ + sec < now

/-- It is false of the code: objects that found no free slot are deleted as soon as
any object in a slot is, whatever their age.  Here one slot, delay 2: object 1 is
claimed at 0, object 2 at 9, and at 10 both are deleted. -/
theorem C25_not_early_violated : ¬ C25_not_early_statement := by
  intro h
  obtain ⟨a, h1, h2⟩ := h 2 1 [.claim 1 0, .claim 2 9, .scavenge false 10] (by decide) 2 10
    (by decide)
  simp [claims] at h1
  omega

/-- **C25, not early (partial).**  If whenever an object is claimed fewer are held
than there are slots, every object deleted for its age was claimed more than the
delay before.  Missing: objects claimed when all slots are in use, for which it is
false (`C25_not_early_violated`). -/
theorem C25_not_early_partial (sec : Int) (n : Nat) (ops : List Op) (hf : NeverFull sec n ops) :
    ∀ t now, (t, some now) ∈ (run (init sec n) ops).deleted →
      ∃ at_, (t, at_) ∈ claims ops ∧ at_ + sec < now := by
  induction ops using List.reverseRecOn with
  | nil => simp [run, init]
  | append_singleton ops op ih =>
    have hf' : NeverFull sec n ops := by
      intro pre t now post he
      exact hf pre t now (post ++ [op]) (by rw [he]; simp)
    have ih1 := excess_nil sec n ops hf'
    have ih2 := ih hf'
    have hinv := run_inv sec n ops
    rw [claims_snoc]
    have hstep : run (init sec n) (ops ++ [op]) = step (run (init sec n) ops) op := by
      simp [run]
    rw [hstep]
    generalize hs : run (init sec n) ops = s at *
    cases op with
    | claim t0 now0 =>
      intro t now hm
      have hd : (claim s t0 now0).deleted = s.deleted := by
        unfold claim
        cases place t0 now0 s.objects <;> rfl
      simp only [step, hd] at hm
      obtain ⟨a, a1, a2⟩ := ih2 t now hm
      exact ⟨a, List.mem_append_left _ a1, a2⟩
    | scavenge c now0 =>
      have hc : claims [Op.scavenge c now0] = [] := rfl
      rw [hc, List.append_nil]
      simp only [step, scavenge]
      split
      · exact ih2
      · obtain ⟨_, _, s3, gone, g1, g2⟩ := sweepAll_inv hinv c now0
        have hdel : ∀ t now, (t, some now) ∈ (sweepAll s c now0).1.deleted →
            ∃ at_, (t, at_) ∈ claims ops ∧ at_ + sec < now := by
          intro t now hm
          rw [g2] at hm
          rcases List.mem_append.mp hm with h | h
          · exact ih2 t now h
          · simp only [List.mem_map, Prod.mk.injEq] at h
            obtain ⟨x, x1, x2, x3⟩ := h
            obtain ⟨y1, y2⟩ := g1 x x1
            unfold stamp at x3
            split at x3
            · cases x3
            · rename_i hcf
              have : now0 = now := Option.some.inj x3
              subst this
              rcases y2 with y2 | y2
              · exact absurd y2 hcf
              · exact ⟨x.2, by rw [← x2]; exact y1, y2⟩
        rw [ih1] at s3
        split
        · intro t now hm
          simp only [clearExcess, s3, List.map_nil, List.append_nil] at hm
          exact hdel t now hm
        · exact hdel

/-- A history with three claims and two slots that is never full. -/
example : NeverFull 2 2 [.claim 1 0, .claim 2 3, .scavenge false 4, .claim 3 4] ∧
    (run (init 2 2) [.claim 1 0, .claim 2 3, .scavenge false 4, .claim 3 4]).deleted
      = [(1, some 4)] := by
  refine ⟨?_, by decide⟩
  intro pre t now post he
  match pre, he with
  | [], _ => decide
  | [a], he => simp at he; obtain ⟨rfl, he⟩ := he; decide
  | [a, b], he => simp at he
  | [a, b, c], he => simp at he; obtain ⟨rfl, rfl, rfl, he⟩ := he; decide
  | a :: b :: c :: d :: e, he => simp at he

/-- **C25, in time.**  In a history that is never full, after a `scavenge` every object
still held was claimed at most the delay ago, and after `scavenge(true)` nothing is
held. -/
theorem C25_timely (sec : Int) (n : Nat) (ops : List Op) (hf : NeverFull sec n ops)
    (c : Bool) (now : Int) :
    ∃ held : List (Nat × Int),
      (((run (init sec n) (ops ++ [.scavenge c now])).deleted.map (·.1)) ++ held.map (·.1)).Perm
        ((claims ops).map (·.1)) ∧
      ∀ x ∈ held, x ∈ claims ops ∧ c = false ∧ now ≤ x.2 + sec := by
  have hinv := run_inv sec n ops
  have hex := excess_nil sec n ops hf
  have hstep : run (init sec n) (ops ++ [.scavenge c now])
      = scavenge (run (init sec n) ops) c now := by simp [run, step]
  rw [hstep]
  generalize run (init sec n) ops = s at *
  have hinv' := scavenge_inv hinv c now
  refine ⟨slotObjs (scavenge s c now).objects, ?_, ?_⟩
  · have he : (scavenge s c now).excess = [] := by
      unfold scavenge
      split
      · exact hex
      · have s3 := (sweepAll_inv hinv c now).2.2.1
        rw [hex] at s3
        simp only
        split
        · rfl
        · exact s3
    have := hinv'.all
    rwa [he, List.append_nil] at this
  · intro x hx
    refine ⟨hinv'.slots x hx, ?_⟩
    unfold scavenge at hx
    split at hx
    · have h3 := hinv.count
      have : slotObjs s.objects = [] := List.length_eq_zero_iff.mp (by omega)
      rw [this] at hx
      simp at hx
    · have hs := (sweepAll_inv hinv c now).2.1
      simp only at hx
      split at hx
      · exact hs x hx
      · exact hs x hx

end Verif.Scavenger
