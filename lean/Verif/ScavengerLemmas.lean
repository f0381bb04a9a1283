import Verif.ScavengerSpec
import Mathlib.Data.List.Perm.Basic
import Mathlib.Data.List.Induction
namespace Verif.Scavenger

/-- The objects in the slots. -/
def slotObjs (o : List (Option (Nat × Int))) : List (Nat × Int) := o.filterMap id

theorem place_some {t : Nat} {now : Int} {o o' : List (Option (Nat × Int))}
    (h : place t now o = some o') :
    (slotObjs o').Perm ((t, now) :: slotObjs o) ∧ o'.length = o.length := by
  induction o generalizing o' with
  | nil => simp [place] at h
  | cons x rest ih =>
    cases x with
    | none =>
      simp only [place, Option.some.injEq] at h
      subst h
      simp [slotObjs]
    | some x =>
      simp only [place, Option.map_eq_some_iff] at h
      obtain ⟨r, h1, h2⟩ := h
      subst h2
      obtain ⟨a1, a2⟩ := ih h1
      simp only [slotObjs, List.filterMap_cons_some, id] at *
      exact ⟨(List.Perm.cons x a1).trans (List.Perm.swap _ _ _), by simp [a2]⟩

theorem place_none {t : Nat} {now : Int} {o : List (Option (Nat × Int))}
    (h : place t now o = none) : (slotObjs o).length = o.length := by
  induction o with
  | nil => rfl
  | cons x rest ih =>
    cases x with
    | none => simp [place] at h
    | some x =>
      simp only [place, Option.map_eq_none_iff] at h
      simp [slotObjs]
      simpa [slotObjs] using ih h

theorem sweep_spec (c : Bool) (sec now : Int) (o : List (Option (Nat × Int))) :
    ∃ gone : List (Nat × Int), (sweep c sec now o).2 = gone.map (·.1) ∧
      (gone ++ slotObjs (sweep c sec now o).1).Perm (slotObjs o) ∧
      (∀ x ∈ gone, c = true ∨ x.2 + sec < now) ∧
      (∀ x ∈ slotObjs (sweep c sec now o).1, c = false ∧ now ≤ x.2 + sec) ∧
      (sweep c sec now o).1.length = o.length := by
  induction o with
  | nil => exact ⟨[], rfl, by simp [sweep, slotObjs], by simp, by simp [sweep, slotObjs], rfl⟩
  | cons x rest ih =>
    obtain ⟨gone, h1, h2, h3, h4, h5⟩ := ih
    cases x with
    | none =>
      refine ⟨gone, h1, ?_, h3, ?_, by simp [sweep, h5]⟩
      · simpa [sweep, slotObjs] using h2
      · simpa [sweep, slotObjs] using h4
    | some x =>
      obtain ⟨t, at_⟩ := x
      unfold sweep
      simp only
      split
      · rename_i hc
        refine ⟨(t, at_) :: gone, by simp [h1], ?_, ?_, ?_, by simp [h5]⟩
        · simpa [slotObjs] using h2
        · intro x hx
          rcases List.mem_cons.mp hx with h | h
          · subst h
            simpa using hc
          · exact h3 x h
        · simpa [slotObjs] using h4
      · rename_i hc
        refine ⟨gone, h1, ?_, h3, ?_, by simp [h5]⟩
        · have e1 : ∀ l, slotObjs (some (t, at_) :: l) = (t, at_) :: slotObjs l := fun _ => rfl
          rw [e1, e1]
          exact (List.perm_middle).trans (h2.cons _)
        · intro x hx
          have hx' : x ∈ (t, at_) :: slotObjs (sweep c sec now rest).1 := hx
          rcases List.mem_cons.mp hx' with h | h
          · subst h
            simp only [Bool.or_eq_true, decide_eq_true_eq, not_or, Bool.not_eq_true] at hc
            exact ⟨hc.1, by simp only; omega⟩
          · exact h4 x h

/-- The state after handing over `cl`. -/
structure Inv (n : Nat) (sec : Int) (cl : List (Nat × Int)) (s : Sc) : Prop where
  len : s.objects.length = n
  sec : s.sec = sec
  count : s.claimed = s.scavenged + (slotObjs s.objects).length
  all : (s.deleted.map (·.1) ++ (slotObjs s.objects).map (·.1) ++ s.excess).Perm (cl.map (·.1))
  slots : ∀ x ∈ slotObjs s.objects, x ∈ cl

theorem init_inv (sec : Int) (n : Nat) : Inv n sec [] (init sec n) := by
  have h : slotObjs (List.replicate n (none : Option (Nat × Int))) = [] := by
    simp [slotObjs, List.filterMap_replicate]
  refine ⟨by simp [init], rfl, ?_, ?_, ?_⟩
  · simp [init, h]
  · simp [init, h]
  · simp [init, h]

theorem claim_inv {n : Nat} {sec : Int} {cl : List (Nat × Int)} {s : Sc} (h : Inv n sec cl s)
    (t : Nat) (now : Int) : Inv n sec (cl ++ [(t, now)]) (claim s t now) := by
  obtain ⟨h1, h2, h3, h4, h5⟩ := h
  unfold claim
  cases hp : place t now s.objects with
  | some o =>
    obtain ⟨p1, p2⟩ := place_some hp
    refine ⟨by simp only; omega, h2, ?_, ?_, ?_⟩
    · simp only
      rw [p1.length_eq]
      simp; omega
    · simp only [List.map_append, List.map_cons, List.map_nil]
      have a : ((slotObjs o).map (·.1)).Perm (t :: (slotObjs s.objects).map (·.1)) := by
        simpa using p1.map (·.1)
      have b : (s.deleted.map (·.1) ++ (slotObjs o).map (·.1) ++ s.excess).Perm
          (t :: (s.deleted.map (·.1) ++ (slotObjs s.objects).map (·.1) ++ s.excess)) := by
        refine (List.Perm.append_right _ (List.Perm.append_left _ a)).trans ?_
        rw [List.append_assoc, List.append_assoc]
        exact List.perm_middle
      exact b.trans ((h4.cons t).trans (List.perm_append_singleton _ _).symm)
    · intro x hx
      rcases List.mem_cons.mp (p1.mem_iff.mp hx) with h | h
      · simp [h]
      · simp [h5 x h]
  | none =>
    refine ⟨h1, h2, h3, ?_, ?_⟩
    · simp only [pushExcess, List.map_append, List.map_cons, List.map_nil]
      rw [← List.append_assoc]
      exact h4.append_right _
    · intro x hx
      simp [h5 x hx]

theorem clearExcess_inv {n : Nat} {sec : Int} {cl : List (Nat × Int)} {s : Sc}
    (h : Inv n sec cl s) (now : Int) (a : Option Int) : Inv n sec cl (clearExcess s now a) := by
  obtain ⟨h1, h2, h3, h4, h5⟩ := h
  refine ⟨h1, h2, h3, ?_, h5⟩
  simp only [clearExcess, List.map_append, List.map_map, List.append_nil]
  have : (s.excess.map ((·.1) ∘ fun t => (t, a))) = s.excess := by
    simp [Function.comp_def]
  rw [this]
  refine List.Perm.trans ?_ h4
  rw [List.append_assoc, List.append_assoc]
  exact List.Perm.append_left _ List.perm_append_comm

theorem sweepAll_inv {n : Nat} {sec : Int} {cl : List (Nat × Int)} {s : Sc}
    (h : Inv n sec cl s) (c : Bool) (now : Int) : Inv n sec cl (sweepAll s c now).1 ∧
      (∀ x ∈ slotObjs (sweepAll s c now).1.objects, c = false ∧ now ≤ x.2 + sec) ∧
      (sweepAll s c now).1.excess = s.excess ∧
      ∃ gone : List (Nat × Int), (∀ x ∈ gone, x ∈ cl ∧ (c = true ∨ x.2 + sec < now)) ∧
        (sweepAll s c now).1.deleted = s.deleted ++ gone.map (fun x => (x.1, stamp c now)) := by
  obtain ⟨h1, h2, h3, h4, h5⟩ := h
  obtain ⟨gone, g1, g2, g3, g4, g5⟩ := sweep_spec c s.sec now s.objects
  unfold sweepAll
  simp only
  refine ⟨⟨by simp only; omega, h2, ?_, ?_, ?_⟩, ?_, trivial, gone, ?_, ?_⟩
  · simp only
    have := g2.length_eq
    rw [g1]
    simp at this ⊢
    omega
  · simp only [List.map_append, List.map_map, g1]
    refine List.Perm.trans ?_ h4
    have hg := g2.map (·.1)
    simp only [List.map_append] at hg
    have e : (gone.map (((·.1) : Nat × Option Int → Nat) ∘ (fun t => (t, stamp c now)) ∘ ((·.1) : Nat × Int → Nat)))
        = gone.map (·.1) := by simp [Function.comp_def]
    rw [e]
    refine List.Perm.append_right _ ?_
    rw [List.append_assoc]
    exact List.Perm.append_left _ hg
  · intro x hx
    exact h5 x (g2.mem_iff.mp (List.mem_append_right _ hx))
  · rw [← h2]; exact g4
  · intro x hx
    exact ⟨h5 x (g2.mem_iff.mp (List.mem_append_left _ hx)), by rw [← h2]; exact g3 x hx⟩
  · rw [g1]; simp [Function.comp_def]

theorem scavenge_inv {n : Nat} {sec : Int} {cl : List (Nat × Int)} {s : Sc}
    (h : Inv n sec cl s) (c : Bool) (now : Int) : Inv n sec cl (scavenge s c now) := by
  unfold scavenge
  split
  · exact h
  · have := (sweepAll_inv h c now).1
    simp only
    split
    · exact clearExcess_inv this _ _
    · exact this

theorem claims_snoc (ops : List Op) (op : Op) : claims (ops ++ [op]) = claims ops ++ claims [op] := by
  simp [claims]

theorem run_inv (sec : Int) (n : Nat) (ops : List Op) :
    Inv n sec (claims ops) (run (init sec n) ops) := by
  induction ops using List.reverseRecOn with
  | nil => exact init_inv sec n
  | append_singleton ops op ih =>
    rw [claims_snoc]
    simp only [run, List.foldl_append, List.foldl_cons, List.foldl_nil]
    cases op with
    | claim t now => exact claim_inv ih t now
    | scavenge c now =>
      have : claims [Op.scavenge c now] = [] := rfl
      rw [this, List.append_nil]
      exact scavenge_inv ih c now

theorem destroy_perm {n : Nat} {sec : Int} {cl : List (Nat × Int)} {s : Sc} (h : Inv n sec cl s) :
    ((destroy s).deleted.map (·.1)).Perm (cl.map (·.1)) := by
  obtain ⟨h1, h2, h3, h4, h5⟩ := h
  have e : ∀ l : List Nat, l.map (((·.1) : Nat × Option Int → Nat) ∘ fun t => (t, none)) = l := by
    intro l; simp [Function.comp_def]
  have e2 : s.objects.filterMap (fun o => o.map (·.1)) = (slotObjs s.objects).map (·.1) := by
    simp only [slotObjs, List.map_filterMap, id]
  unfold destroy clearExcess
  split
  · simp only [emptySlots, List.map_append, List.map_map, e, e2]
    exact h4
  · have : slotObjs s.objects = [] := List.length_eq_zero_iff.mp (by omega)
    rw [this] at h4
    simp only [List.map_append, List.map_map, e]
    simpa using h4

theorem excess_nil (sec : Int) (n : Nat) (ops : List Op) (hf : NeverFull sec n ops) :
    (run (init sec n) ops).excess = [] := by
  induction ops using List.reverseRecOn with
  | nil => rfl
  | append_singleton ops op ih =>
    have hf' : NeverFull sec n ops := by
      intro pre t now post he
      exact hf pre t now (post ++ [op]) (by rw [he]; simp)
    have ih1 := ih hf'
    have hinv := run_inv sec n ops
    have hstep : run (init sec n) (ops ++ [op]) = step (run (init sec n) ops) op := by
      simp [run]
    rw [hstep]
    cases op with
    | claim t0 now0 =>
      have hlt := hf ops t0 now0 [] rfl
      simp only [step, claim]
      cases hp : place t0 now0 (run (init sec n) ops).objects with
      | some o => exact ih1
      | none =>
        exfalso
        have h1 := place_none hp
        have h2 := hinv.all.length_eq
        have h3 := hinv.len
        rw [ih1] at h2
        simp at h2
        omega
    | scavenge c now0 =>
      simp only [step, scavenge]
      split
      · exact ih1
      · have s3 := (sweepAll_inv hinv c now0).2.2.1
        rw [ih1] at s3
        split
        · rfl
        · exact s3

end Verif.Scavenger
