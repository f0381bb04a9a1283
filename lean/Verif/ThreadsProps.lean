import Verif.Threads
import Mathlib.Tactic.NormNum
import Mathlib.Tactic.Ring

/-!
# Properties of the mutex and the condition (C146-C148)
-/

namespace Verif.Threads

/-! ## C146 -/

/-- **C146**, as claimed: `wait(us)` waits, if nobody signals, until `us` microseconds after the time at which it was called. -/
def C146_statement : Prop := ∀ sec usec us : Nat, usec < 1000000 → 0 < us → waitsUntil (deadline sec usec us) = some ((sec * 1000000 + usec + us) * 1000)

/-- With the 50000 microseconds of StretcherProcess.cpp:77, when 950000 microseconds of a second are over: the microseconds are 1000000 exactly, which is not carried over, and the time is refused. -/
theorem C146_violated : ¬ C146_statement := by
  intro h
  have e := h 5 950000 50000 (by norm_num) (by norm_num)
  rw [show deadline 5 950000 50000 = (5, 1000000000) from rfl] at e
  cases e

theorem carry_sum : ∀ (f sec usec : Nat), (carry f sec usec).1 * 1000000 + (carry f sec usec).2 = sec * 1000000 + usec := by
  intro f
  induction f with
  | zero => intro sec usec; rfl
  | succ f ih =>
    intro sec usec
    unfold carry
    by_cases h : usec > 1000000
    · rw [if_pos h, ih]
      omega
    · rw [if_neg h]

theorem carry_le : ∀ (f sec usec : Nat), usec ≤ f → (carry f sec usec).2 ≤ 1000000 := by
  intro f
  induction f with
  | zero => intro sec usec h; show usec ≤ _; omega
  | succ f ih =>
    intro sec usec h
    unfold carry
    by_cases h1 : usec > 1000000
    · rw [if_pos h1]
      exact ih _ _ (by omega)
    · rw [if_neg h1]
      show usec ≤ _
      omega

theorem carry_pos : ∀ (f sec usec : Nat), 0 < usec → 0 < (carry f sec usec).2 := by
  intro f
  induction f with
  | zero => intro sec usec h; exact h
  | succ f ih =>
    intro sec usec h
    unfold carry
    by_cases h1 : usec > 1000000
    · rw [if_pos h1]
      exact ih _ _ (by omega)
    · rw [if_neg h1]
      exact h

/-- **C146 (partial)**: it does unless the time at which the wait should end is a whole number of seconds, and then it does not wait at all.  Missing: those times, for which it is false. -/
theorem C146_partial (sec usec us : Nat) (hus : 0 < us) :
    waitsUntil (deadline sec usec us) = if (usec + us) % 1000000 = 0 then none else some ((sec * 1000000 + usec + us) * 1000) := by
  have h1 := carry_sum (usec + us) sec (usec + us)
  have h2 := carry_le (usec + us) sec (usec + us) (le_refl _)
  have h3 := carry_pos (usec + us) sec (usec + us) (by omega)
  unfold deadline waitsUntil
  simp only
  generalize carry (usec + us) sec (usec + us) = r at *
  by_cases h : (usec + us) % 1000000 = 0
  · rw [if_pos h, if_neg (by omega)]
  · rw [if_neg h, if_pos (by omega)]
    have e : r.1 * 1000000000 + r.2 * 1000 = (sec * 1000000 + usec + us) * 1000 := by
      rw [Nat.add_assoc (sec * 1000000), ← h1]
      ring
    rw [e]

example : deadline 5 999900 500 = (6, 400000) ∧ deadline 5 0 3000001 = (8, 1000) := by decide +kernel

/-! ## C147 -/

/-- Whether a thread holds the mutex, by what was observed (the latest first): `lock` has returned, or `trylock` with true, and no `unlock` that it called has returned (without a message) since. -/
def holds : List Event → Nat → Bool
  | [], _ => false
  | .locked t :: l, u => if t = u then true else holds l u
  | .tried t b :: l, u => if t = u ∧ b = true then true else holds l u
  | .unlocked t :: l, u => if t = u then false else holds l u
  | _ :: l, u => holds l u

/-- The latest event of a thread. -/
def latest : List Event → Nat → Option Event
  | [], _ => none
  | e :: l, u => if e.who = u then some e else latest l u

/-- It has got the mutex, and the call in which it got it has not returned yet. -/
def MPc.got : MPc → Bool
  | .lockBy | .lockMark | .tryBy | .tryMark => true
  | _ => false

/-- What holds of a thread at every time: `os`, `by'` and `locked` are of the mutex, the others of the thread. -/
structure Fit (os : Option Nat) (by' : Nat) (locked : Bool) (t : Nat) (h : Bool) (p : MPc) (last : Option Event) : Prop where
  own : os = some t ↔ h = true ∨ p.got = true
  fresh : p.got = true → h = false
  name : h = true → by' = t
  named : p = .lockMark ∨ p = .tryMark → by' = t
  other : p = .lockOwner ∨ p = .unOwner → h = false → by' ≠ t
  un : p = .unClear ∨ p = .unFree → h = true
  mark : h = true → p ≠ .unFree → locked = true
  marked : locked = true → os = some t → h = true ∧ p ≠ .unFree
  said : p = .lockWait → h = true → last = some (.deadlock t)

/-- What holds at every time. -/
structure Good (s : MState) : Prop where
  fit : ∀ t, Fit s.os s.lockedBy s.locked t (holds s.seen t) (s.pc t) (latest s.seen t)
  taken : s.locked = true → s.os ≠ none
  bad : s.bad = false

theorem good_start : Good .start := by
  refine ⟨fun t => ⟨?_, ?_, ?_, ?_, ?_, ?_, ?_, ?_, ?_⟩, ?_, rfl⟩ <;> simp [MState.start, holds, MPc.got]

/-- A thread moves within its calls, and nothing shared is changed. -/
theorem good_go {s : MState} (hg : Good s) {t : Nat} {p : MPc} (hf : Fit s.os s.lockedBy s.locked t (holds s.seen t) p (latest s.seen t)) : Good (s.go t p) := by
  refine ⟨fun u => ?_, hg.taken, hg.bad⟩
  show Fit s.os s.lockedBy s.locked u (holds s.seen u) (Function.update s.pc t p u) (latest s.seen u)
  by_cases h : u = t
  · subst h
    rw [Function.update_self]
    exact hf
  · rw [Function.update_of_ne h]
    exact hg.fit u

theorem locked_mark {s : MState} (hg : Good s) (h : s.locked = true) : ∃ u, s.os = some u ∧ holds s.seen u = true ∧ s.pc u ≠ .unFree ∧ s.lockedBy = u := by
  cases ho : s.os with
  | none => exact absurd ho (hg.taken h)
  | some u =>
    have := (hg.fit u).marked h ho
    exact ⟨u, rfl, this.1, this.2, (hg.fit u).name this.1⟩

/-- Anything shared changes: what has to be shown for the thread that moves and for the others. -/
theorem good_of {s s' : MState} {t : Nat} {p : MPc} (hp : s'.pc = Function.update s.pc t p)
    (ht : Fit s'.os s'.lockedBy s'.locked t (holds s'.seen t) p (latest s'.seen t))
    (hu : ∀ u, u ≠ t → Fit s'.os s'.lockedBy s'.locked u (holds s'.seen u) (s.pc u) (latest s'.seen u))
    (hk : s'.locked = true → s'.os ≠ none) (hb : s'.bad = false) : Good s' := by
  refine ⟨fun u => ?_, hk, hb⟩
  rw [hp]
  by_cases h : u = t
  · subst h
    rw [Function.update_self]
    exact ht
  · rw [Function.update_of_ne h]
    exact hu u h

theorem good_step {s : MState} (hg : Good s) (t : Nat) (c : Call) : Good (s.step t c) := by
  have ht := hg.fit t
  unfold MState.step
  generalize hp : s.pc t = p at ht
  cases p with
  | idle =>
    cases c <;> exact good_go hg ⟨by simpa [MPc.got] using ht.own, by simp [MPc.got], ht.name, by simp, by simp, by simp, fun h _ => ht.mark h (by simp), fun h1 h2 => ⟨(ht.marked h1 h2).1, by simp⟩, by simp⟩
  | lockTest =>
    simp only
    by_cases hl : s.locked = true
    · rw [if_pos hl]
      obtain ⟨u, ho, hh, hu, hby⟩ := locked_mark hg hl
      refine good_go hg ⟨by simpa [MPc.got] using ht.own, by simp [MPc.got], ht.name, by simp, fun _ hx => ?_, by simp, fun h _ => ht.mark h (by simp), fun h1 h2 => ⟨(ht.marked h1 h2).1, by simp⟩, by simp⟩
      rintro e
      rw [hby] at e
      rw [e, hx] at hh
      cases hh
    · rw [if_neg hl]
      refine good_go hg ⟨by simpa [MPc.got] using ht.own, by simp [MPc.got], ht.name, by simp, by simp, by simp, fun h _ => ht.mark h (by simp), fun h1 h2 => ⟨(ht.marked h1 h2).1, by simp⟩, fun _ h => ?_⟩
      exact absurd (ht.mark h (by simp)) hl
  | lockOwner =>
    simp only
    by_cases hl : s.lockedBy = t
    · rw [if_pos hl]
      have hh : holds s.seen t = true := by
        cases hx : holds s.seen t with
        | true => rfl
        | false => exact absurd hl (ht.other (Or.inl rfl) hx)
      refine good_of (s := s) rfl ?_ (fun u hu => ?_) hg.taken hg.bad
      · refine ⟨by simpa [MPc.got, holds, MState.note, MState.go] using ht.own, by simp [MPc.got], ht.name, by simp, by simp, by simp, fun h _ => ht.mark h (by simp), fun h1 h2 => ⟨(ht.marked h1 h2).1, by simp⟩, fun _ _ => ?_⟩
        show (if t = t then some _ else _) = _
        rw [if_pos rfl]
      · show Fit s.os s.lockedBy s.locked u (holds s.seen u) (s.pc u) (if t = u then _ else latest s.seen u)
        rw [if_neg (Ne.symm hu)]
        exact hg.fit u
    · rw [if_neg hl]
      refine good_go hg ⟨by simpa [MPc.got] using ht.own, by simp [MPc.got], ht.name, by simp, by simp, by simp, fun h _ => ht.mark h (by simp), fun h1 h2 => ⟨(ht.marked h1 h2).1, by simp⟩, fun _ h => ?_⟩
      exact absurd (ht.name h) hl
  | lockWait =>
    simp only
    by_cases ho : s.os = none
    · rw [if_pos ho]
      have hl : s.locked = false := by
        cases hx : s.locked with
        | false => rfl
        | true => exact absurd ho (hg.taken hx)
      have hh : ∀ u, holds s.seen u = false ∧ (s.pc u).got = false := fun u => by
        have := (hg.fit u).own
        rw [ho] at this
        simp at this
        exact this
      refine good_of (s := s) rfl ?_ (fun u hu => ?_) (by simp [MState.go]) hg.bad
      · show Fit (some t) s.lockedBy s.locked t (holds s.seen t) .lockBy _
        rw [(hh t).1, hl]
        constructor <;> simp [MPc.got]
      · show Fit (some t) s.lockedBy s.locked u (holds s.seen u) (s.pc u) _
        have hf := hg.fit u
        rw [(hh u).1, hl] at hf ⊢
        refine ⟨by simp [(hh u).2, Ne.symm hu], hf.fresh, by simp, hf.named, hf.other, hf.un, by simp, by simp, by simp⟩
    · rw [if_neg ho]
      exact hg
  | lockBy =>
    simp only
    have hos : s.os = some t := ht.own.mpr (Or.inr rfl)
    refine good_of (s := s) rfl ?_ (fun u hu => ?_) hg.taken hg.bad
    · have hh := ht.fresh rfl
      show Fit s.os t s.locked t (holds s.seen t) .lockMark _
      rw [hh] at ht ⊢
      refine ⟨by simp [MPc.got, hos], by simp, by simp, by simp, by simp, by simp, by simp, fun h1 h2 => absurd (ht.marked h1 h2).1 (by simp), by simp⟩
    · show Fit s.os t s.locked u (holds s.seen u) (s.pc u) _
      have hf := hg.fit u
      have hno : holds s.seen u = false ∧ (s.pc u).got = false := by
        have := hf.own
        rw [hos] at this
        simpa [Ne.symm hu] using this
      rw [hno.1] at hf ⊢
      refine ⟨hf.own, hf.fresh, by simp, fun h => ?_, fun _ _ => Ne.symm hu, hf.un, by simp, hf.marked, by simp⟩
      rcases h with h | h <;> rw [h] at hno <;> simp [MPc.got] at hno
  | lockMark =>
    simp only
    have hos : s.os = some t := ht.own.mpr (Or.inr rfl)
    refine good_of (s := s) rfl ?_ (fun u hu => ?_) (by simp [MState.go, MState.note, hos]) hg.bad
    · have hn := ht.named (Or.inl rfl)
      show Fit s.os s.lockedBy true t (if t = t then true else _) .idle _
      rw [if_pos rfl]
      refine ⟨by simp [hos], by simp [MPc.got], fun _ => hn, by simp, by simp, by simp, by simp, by simp, by simp⟩
    · show Fit s.os s.lockedBy true u (if t = u then true else holds s.seen u) (s.pc u) (if t = u then _ else latest s.seen u)
      rw [if_neg (Ne.symm hu), if_neg (Ne.symm hu)]
      have hf := hg.fit u
      refine ⟨hf.own, hf.fresh, hf.name, hf.named, hf.other, hf.un, fun _ _ => rfl, fun _ h => ?_, hf.said⟩
      rw [hos] at h
      exact absurd (Option.some.inj h).symm hu
  | unTest =>
    simp only
    by_cases hl : s.locked = true
    · rw [if_pos hl]
      obtain ⟨u, ho, hh, hu, hby⟩ := locked_mark hg hl
      refine good_go hg ⟨by simpa [MPc.got] using ht.own, by simp [MPc.got], ht.name, by simp, fun _ hx => ?_, by simp, fun h _ => ht.mark h (by simp), fun h1 h2 => ⟨(ht.marked h1 h2).1, by simp⟩, by simp⟩
      rintro e
      rw [hby] at e
      rw [e, hx] at hh
      cases hh
    · rw [if_neg hl]
      refine good_of (s := s) rfl ?_ (fun u hu => ?_) hg.taken hg.bad
      · exact ⟨by simpa [MPc.got, holds, MState.note, MState.go] using ht.own, by simp [MPc.got], ht.name, by simp, by simp, by simp, fun h _ => ht.mark h (by simp), fun h1 h2 => ⟨(ht.marked h1 h2).1, by simp⟩, by simp⟩
      · show Fit s.os s.lockedBy s.locked u (holds s.seen u) (s.pc u) (if t = u then _ else latest s.seen u)
        rw [if_neg (Ne.symm hu)]
        exact hg.fit u
  | unOwner =>
    simp only
    by_cases hl : s.lockedBy = t
    · rw [if_pos hl]
      have hh : holds s.seen t = true := by
        cases hx : holds s.seen t with
        | true => rfl
        | false => exact absurd hl (ht.other (Or.inr rfl) hx)
      exact good_go hg ⟨by simpa [MPc.got] using ht.own, by simp [MPc.got], ht.name, by simp, by simp, fun _ => hh, fun h _ => ht.mark h (by simp), fun h1 h2 => ⟨(ht.marked h1 h2).1, by simp⟩, by simp⟩
    · rw [if_neg hl]
      refine good_of (s := s) rfl ?_ (fun u hu => ?_) hg.taken hg.bad
      · exact ⟨by simpa [MPc.got, holds, MState.note, MState.go] using ht.own, by simp [MPc.got], ht.name, by simp, by simp, by simp, fun h _ => ht.mark h (by simp), fun h1 h2 => ⟨(ht.marked h1 h2).1, by simp⟩, by simp⟩
      · show Fit s.os s.lockedBy s.locked u (holds s.seen u) (s.pc u) (if t = u then _ else latest s.seen u)
        rw [if_neg (Ne.symm hu)]
        exact hg.fit u
  | unClear =>
    simp only
    have hh := ht.un (Or.inl rfl)
    have hos : s.os = some t := ht.own.mpr (Or.inl hh)
    refine good_of (s := s) rfl ?_ (fun u hu => ?_) (by simp [MState.go]) hg.bad
    · exact ⟨by simpa [MPc.got, MState.go] using ht.own, by simp [MPc.got], ht.name, by simp, by simp, fun _ => hh, by simp, by simp [MState.go], by simp⟩
    · have hf := hg.fit u
      have hno : holds s.seen u = false := by
        have := hf.own
        rw [hos] at this
        simp [Ne.symm hu] at this
        exact this.1
      show Fit s.os s.lockedBy false u (holds s.seen u) (s.pc u) _
      rw [hno] at hf ⊢
      exact ⟨hf.own, hf.fresh, hf.name, hf.named, hf.other, hf.un, by simp, by simp, hf.said⟩
  | unFree =>
    simp only
    have hh := ht.un (Or.inr rfl)
    have hos : s.os = some t := ht.own.mpr (Or.inl hh)
    have hl : s.locked = false := by
      cases hx : s.locked with
      | false => rfl
      | true => exact absurd rfl (ht.marked hx hos).2
    refine good_of (s := s) rfl ?_ (fun u hu => ?_) (by simp [MState.go, MState.note, hl]) (by simp [MState.go, MState.note, hos, hg.bad])
    · show Fit none s.lockedBy s.locked t (if t = t then false else _) .idle _
      rw [if_pos rfl, hl]
      constructor <;> simp [MPc.got]
    · have hf := hg.fit u
      have hno : holds s.seen u = false ∧ (s.pc u).got = false := by
        have := hf.own
        rw [hos] at this
        simpa [Ne.symm hu] using this
      show Fit none s.lockedBy s.locked u (if t = u then false else holds s.seen u) (s.pc u) (if t = u then _ else latest s.seen u)
      rw [if_neg (Ne.symm hu), if_neg (Ne.symm hu)]
      rw [hno.1] at hf ⊢
      exact ⟨by simp [hno.2], hf.fresh, hf.name, hf.named, hf.other, hf.un, hf.mark, by simp, hf.said⟩
  | tryWait =>
    simp only
    by_cases ho : s.os = none
    · rw [if_pos ho]
      have hl : s.locked = false := by
        cases hx : s.locked with
        | false => rfl
        | true => exact absurd ho (hg.taken hx)
      have hh : ∀ u, holds s.seen u = false ∧ (s.pc u).got = false := fun u => by
        have := (hg.fit u).own
        rw [ho] at this
        simp at this
        exact this
      refine good_of (s := s) rfl ?_ (fun u hu => ?_) (by simp [MState.go]) hg.bad
      · show Fit (some t) s.lockedBy s.locked t (holds s.seen t) .tryBy _
        rw [(hh t).1, hl]
        constructor <;> simp [MPc.got]
      · show Fit (some t) s.lockedBy s.locked u (holds s.seen u) (s.pc u) _
        have hf := hg.fit u
        rw [(hh u).1, hl] at hf ⊢
        refine ⟨by simp [(hh u).2, Ne.symm hu], hf.fresh, by simp, hf.named, hf.other, hf.un, by simp, by simp, by simp⟩
    · rw [if_neg ho]
      refine good_of (s := s) rfl ?_ (fun u hu => ?_) hg.taken hg.bad
      · show Fit s.os s.lockedBy s.locked t (if t = t ∧ false = true then true else holds s.seen t) .idle _
        rw [if_neg (by simp)]
        exact ⟨by simpa [MPc.got] using ht.own, by simp [MPc.got], ht.name, by simp, by simp, by simp, fun h _ => ht.mark h (by simp), fun h1 h2 => ⟨(ht.marked h1 h2).1, by simp⟩, by simp⟩
      · show Fit s.os s.lockedBy s.locked u (if t = u ∧ false = true then true else holds s.seen u) (s.pc u) (if t = u then _ else latest s.seen u)
        rw [if_neg (Ne.symm hu), if_neg (by simp)]
        exact hg.fit u
  | tryBy =>
    simp only
    have hos : s.os = some t := ht.own.mpr (Or.inr rfl)
    refine good_of (s := s) rfl ?_ (fun u hu => ?_) hg.taken hg.bad
    · have hh := ht.fresh rfl
      show Fit s.os t s.locked t (holds s.seen t) .tryMark _
      rw [hh] at ht ⊢
      refine ⟨by simp [MPc.got, hos], by simp, by simp, by simp, by simp, by simp, by simp, fun h1 h2 => absurd (ht.marked h1 h2).1 (by simp), by simp⟩
    · show Fit s.os t s.locked u (holds s.seen u) (s.pc u) _
      have hf := hg.fit u
      have hno : holds s.seen u = false ∧ (s.pc u).got = false := by
        have := hf.own
        rw [hos] at this
        simpa [Ne.symm hu] using this
      rw [hno.1] at hf ⊢
      refine ⟨hf.own, hf.fresh, by simp, fun h => ?_, fun _ _ => Ne.symm hu, hf.un, by simp, hf.marked, by simp⟩
      rcases h with h | h <;> rw [h] at hno <;> simp [MPc.got] at hno
  | tryMark =>
    simp only
    have hos : s.os = some t := ht.own.mpr (Or.inr rfl)
    refine good_of (s := s) rfl ?_ (fun u hu => ?_) (by simp [MState.go, MState.note, hos]) hg.bad
    · have hn := ht.named (Or.inr rfl)
      show Fit s.os s.lockedBy true t (if t = t ∧ true = true then true else _) .idle _
      rw [if_pos ⟨rfl, rfl⟩]
      refine ⟨by simp [hos], by simp [MPc.got], fun _ => hn, by simp, by simp, by simp, by simp, by simp, by simp⟩
    · show Fit s.os s.lockedBy true u (if t = u ∧ true = true then true else holds s.seen u) (s.pc u) (if t = u then _ else latest s.seen u)
      rw [if_neg (Ne.symm hu), if_neg (fun h => hu h.1.symm)]
      have hf := hg.fit u
      refine ⟨hf.own, hf.fresh, hf.name, hf.named, hf.other, hf.un, fun _ _ => rfl, fun _ h => ?_, hf.said⟩
      rw [hos] at h
      exact absurd (Option.some.inj h).symm hu

theorem good {s : MState} (h : s.Reach) : Good s := by
  induction h with
  | start => exact good_start
  | step t c _ ih => exact good_step ih t c

/-- What an event tells, when `l` was observed before and a thread is in a call at that time if `busy`. -/
def Event.Right (l : List Event) (busy : Nat → Prop) : Event → Prop
  | .locked _ => ∀ u, holds l u = false
  | .tried _ true => ∀ u, holds l u = false
  | .tried t false => ∃ u, holds l u = true ∨ u ≠ t ∧ busy u
  | .unlocked t => holds l t = true
  | .deadlock t => holds l t = true
  | .notLocked t => holds l t = false
  | .notOwned t => holds l t = false

/-- **C147**: whatever calls any number of threads make, in whatever order they take turns: two threads never hold the mutex; no thread releases it but the one that holds it; and all that is returned and reported is right.
`lock` and a successful `trylock` return only when nobody holds it; `trylock` fails only if somebody holds it or another thread is in a call; `unlock` releases it if the caller holds it and complains if the caller does not; and
a deadlock is reported to a thread exactly if it holds the mutex that it locks. -/
theorem C147 {s : MState} (hs : s.Reach) :
    (∀ t u, holds s.seen t = true → holds s.seen u = true → t = u) ∧ s.bad = false ∧
      (∀ t c e, (s.step t c).seen = e :: s.seen → e.who = t ∧ e.Right s.seen fun u => s.pc u ≠ .idle) ∧
      ∀ t, s.pc t = .lockWait → holds s.seen t = true → latest s.seen t = some (.deadlock t) := by
  have hg := good hs
  refine ⟨fun t u h1 h2 => ?_, hg.bad, fun t c e he => ?_, fun t h1 h2 => (hg.fit t).said h1 h2⟩
  · have e1 := (hg.fit t).own.mpr (Or.inl h1)
    rw [(hg.fit u).own.mpr (Or.inl h2)] at e1
    exact (Option.some.inj e1).symm
  · have ht := hg.fit t
    have nil : ∀ {l : List Event}, l = e :: l → False := fun h => by simpa using congrArg List.length h
    have alone : s.os = some t → (s.pc t).got = true → ∀ u, holds s.seen u = false := by
      intro ho hgot u
      by_cases hu : u = t
      · rw [hu]
        exact ht.fresh hgot
      · cases hx : holds s.seen u with
        | false => rfl
        | true =>
          have := (hg.fit u).own.mpr (Or.inl hx)
          rw [ho] at this
          exact absurd (Option.some.inj this).symm hu
    unfold MState.step at he
    generalize hp : s.pc t = p at ht he alone
    cases p with
    | idle => cases c <;> exact (nil he).elim
    | lockTest =>
      simp only at he
      split at he <;> exact (nil he).elim
    | lockOwner =>
      simp only at he
      by_cases hl : s.lockedBy = t
      · rw [if_pos hl] at he
        obtain rfl : Event.deadlock t = e := (List.cons.inj he).1
        refine ⟨rfl, ?_⟩
        show holds s.seen t = true
        cases hx : holds s.seen t with
        | true => rfl
        | false => exact absurd hl (ht.other (Or.inl rfl) hx)
      · rw [if_neg hl] at he
        exact (nil he).elim
    | lockWait =>
      simp only at he
      split at he <;> exact (nil he).elim
    | lockBy => exact (nil he).elim
    | lockMark =>
      obtain rfl : Event.locked t = e := (List.cons.inj he).1
      exact ⟨rfl, alone (ht.own.mpr (Or.inr rfl)) rfl⟩
    | unTest =>
      simp only at he
      by_cases hl : s.locked = true
      · rw [if_pos hl] at he
        exact (nil he).elim
      · rw [if_neg hl] at he
        obtain rfl : Event.notLocked t = e := (List.cons.inj he).1
        refine ⟨rfl, ?_⟩
        show holds s.seen t = false
        cases hx : holds s.seen t with
        | false => rfl
        | true => exact absurd (ht.mark hx (by simp)) hl
    | unOwner =>
      simp only at he
      by_cases hl : s.lockedBy = t
      · rw [if_pos hl] at he
        exact (nil he).elim
      · rw [if_neg hl] at he
        obtain rfl : Event.notOwned t = e := (List.cons.inj he).1
        refine ⟨rfl, ?_⟩
        show holds s.seen t = false
        cases hx : holds s.seen t with
        | false => rfl
        | true => exact absurd (ht.name hx) hl
    | unClear => exact (nil he).elim
    | unFree =>
      obtain rfl : Event.unlocked t = e := (List.cons.inj he).1
      exact ⟨rfl, ht.un (Or.inr rfl)⟩
    | tryWait =>
      simp only at he
      by_cases ho : s.os = none
      · rw [if_pos ho] at he
        exact (nil he).elim
      · rw [if_neg ho] at he
        obtain rfl : Event.tried t false = e := (List.cons.inj he).1
        refine ⟨rfl, ?_⟩
        obtain ⟨u, hu⟩ := Option.ne_none_iff_exists'.mp ho
        refine ⟨u, ?_⟩
        rcases (hg.fit u).own.mp hu with h | h
        · exact Or.inl h
        · refine Or.inr ⟨fun e => ?_, fun e => ?_⟩
          · rw [e, hp] at h
            cases h
          · rw [e] at h
            cases h
    | tryBy => exact (nil he).elim
    | tryMark =>
      obtain rfl : Event.tried t true = e := (List.cons.inj he).1
      exact ⟨rfl, alone (ht.own.mpr (Or.inr rfl)) rfl⟩

/-- Steps of threads one after the other. -/
def MState.run (s : MState) : List (Nat × Call) → MState
  | [] => s
  | (t, c) :: l => (s.step t c).run l

theorem MState.run_reach : ∀ (l : List (Nat × Call)) {s : MState}, s.Reach → (s.run l).Reach
  | [], _, h => h
  | (t, c) :: l, _, h => MState.run_reach l (.step t c h)

/-- The thread 1 locks; 2 tries to, and unlocks what it does not have; 1 locks again, which is reported. -/
example : (MState.start.run (List.replicate 5 (1, .lock) ++ List.replicate 2 (2, .trylock) ++ List.replicate 3 (2, .unlock) ++ List.replicate 4 (1, .lock))).seen =
    [.deadlock 1, .notOwned 2, .tried 2 false, .locked 1] := by decide +kernel

/-! ## C148 -/

/-- Whether a thread has the mutex of the condition, by where it is. -/
def CPc.has : CPc → Bool
  | .within | .lockMark | .waitMark | .unTest | .unClear | .unFree => true
  | _ => false

/-- Whether it has marked the condition as locked, and not yet as unlocked. -/
def CPc.marked : CPc → Bool
  | .within | .unTest | .unClear => true
  | _ => false

theorem go_self (s : CState) (t : Nat) (p : CPc) : (s.go t p).pc t = p := Function.update_self _ _ _

/-- What holds of a condition at every time. -/
structure Kept (s : CState) : Prop where
  own : ∀ t, s.os = some t ↔ (s.pc t).has = true
  mark : ∀ t, (s.pc t).marked = true → s.locked = true
  heeded : s.ignored = false
  bad : s.bad = false

theorem kept_start : Kept .start := ⟨fun t => by simp [CState.start, CPc.has], fun t => by simp [CState.start, CPc.marked], rfl, rfl⟩

/-- A thread moves on, and the mutex stays with whom it is. -/
theorem kept_move {s : CState} (hk : Kept s) {t : Nat} {p : CPc} {l : Bool} (hh : p.has = (s.pc t).has) (hm : p.marked = true → l = true)
    (hl : l = s.locked ∨ (s.pc t).has = true) : Kept ({ s with locked := l }.go t p) := by
  refine ⟨fun u => ?_, fun u => ?_, hk.heeded, hk.bad⟩
  · show s.os = some u ↔ (Function.update s.pc t p u).has = true
    by_cases h : u = t
    · subst h
      rw [Function.update_self, hh]
      exact hk.own u
    · rw [Function.update_of_ne h]
      exact hk.own u
  · show (Function.update s.pc t p u).marked = true → l = true
    by_cases h : u = t
    · subst h
      rw [Function.update_self]
      exact hm
    · rw [Function.update_of_ne h]
      intro hu
      rcases hl with rfl | hl
      · exact hk.mark u hu
      · have h1 := (hk.own t).mpr hl
        have h2 : s.os = some u := (hk.own u).mpr (by revert hu; cases s.pc u <;> simp [CPc.marked, CPc.has])
        rw [h1] at h2
        exact absurd (Option.some.inj h2).symm h

/-- It takes the mutex, which is free. -/
theorem kept_take {s : CState} (hk : Kept s) {t : Nat} {p : CPc} (ho : s.os = none) (hp : p.has = true) (hm : p.marked = false) : Kept ({ s with os := some t }.go t p) := by
  have hn : ∀ u, (s.pc u).has = false := fun u => by
    cases hx : (s.pc u).has with
    | false => rfl
    | true =>
      have := (hk.own u).mpr hx
      rw [ho] at this
      cases this
  refine ⟨fun u => ?_, fun u => ?_, hk.heeded, hk.bad⟩
  · show some t = some u ↔ (Function.update s.pc t p u).has = true
    by_cases h : u = t
    · subst h
      rw [Function.update_self]
      exact ⟨fun _ => hp, fun _ => rfl⟩
    · rw [Function.update_of_ne h, hn u]
      exact ⟨fun e => absurd (Option.some.inj e).symm h, fun e => by cases e⟩
  · show (Function.update s.pc t p u).marked = true → s.locked = true
    by_cases h : u = t
    · subst h
      rw [Function.update_self, hm]
      intro e
      cases e
    · rw [Function.update_of_ne h]
      exact hk.mark u

/-- It gives it back. -/
theorem kept_free {s : CState} (hk : Kept s) {t : Nat} {p : CPc} (ht : (s.pc t).has = true) (hp : p.has = false) (hm : p.marked = false) :
    Kept ({ s with os := none, bad := s.bad || decide (s.os ≠ some t) }.go t p) := by
  have ho := (hk.own t).mpr ht
  refine ⟨fun u => ?_, fun u => ?_, hk.heeded, ?_⟩
  · show none = some u ↔ (Function.update s.pc t p u).has = true
    by_cases h : u = t
    · subst h
      rw [Function.update_self, hp]
      simp
    · rw [Function.update_of_ne h]
      refine ⟨fun e => (Option.some_ne_none _ e.symm).elim, fun e => ?_⟩
      have := (hk.own u).mpr e
      rw [ho] at this
      exact absurd (Option.some.inj this).symm h
  · show (Function.update s.pc t p u).marked = true → s.locked = true
    by_cases h : u = t
    · subst h
      rw [Function.update_self, hm]
      intro e
      cases e
    · rw [Function.update_of_ne h]
      exact hk.mark u
  · show (s.bad || decide (s.os ≠ some t)) = false
    rw [hk.bad, ho]
    simp

theorem kept_wake {s : CState} (hk : Kept s) (w : Nat) : Kept (s.wake w) := by
  unfold CState.wake
  by_cases h : s.pc w = .waiting
  · rw [if_pos h]
    exact kept_move (l := s.locked) hk (by rw [h]; rfl) (by simp [CPc.marked]) (Or.inl rfl)
  · rw [if_neg h]
    exact hk

theorem kept_step {s : CState} (hk : Kept s) (t : Nat) (a : CAct) : Kept (s.step t a) := by
  unfold CState.step
  generalize hp : s.pc t = p
  have still : ∀ {p' : CPc}, p'.has = p.has → (p'.marked = true → s.locked = true) → Kept (s.go t p') := fun h1 h2 => kept_move (l := s.locked) hk (by rw [h1, hp]) h2 (Or.inl rfl)
  cases p with
  | out =>
    cases a with
    | lock => exact still rfl (by simp [CPc.marked])
    | signal w => exact kept_wake hk w
    | unlock => exact hk
    | wait => exact hk
    | go => exact hk
  | within =>
    cases a with
    | lock => exact hk
    | signal w => exact kept_wake hk w
    | unlock => exact still rfl fun _ => hk.mark t (by rw [hp]; rfl)
    | wait => exact kept_free hk (by rw [hp]; rfl) rfl rfl
    | go => exact hk
  | locking =>
    simp only
    by_cases ho : s.os = none
    · rw [if_pos ho]
      exact kept_take hk ho rfl rfl
    · rw [if_neg ho]
      exact hk
  | lockMark => exact kept_move hk (by rw [hp]; rfl) (fun _ => rfl) (Or.inr (by rw [hp]; rfl))
  | waiting => exact still rfl (by simp [CPc.marked])
  | woken =>
    simp only
    by_cases ho : s.os = none
    · rw [if_pos ho]
      exact kept_take hk ho rfl rfl
    · rw [if_neg ho]
      exact hk
  | waitMark => exact kept_move hk (by rw [hp]; rfl) (fun _ => rfl) (Or.inr (by rw [hp]; rfl))
  | unTest =>
    simp only
    have hl := hk.mark t (by rw [hp]; rfl)
    rw [if_pos hl]
    exact still rfl fun _ => hl
  | unClear => exact kept_move hk (by rw [hp]; rfl) (by simp [CPc.marked]) (Or.inr (by rw [hp]; rfl))
  | unFree => exact kept_free hk (by rw [hp]; rfl) rfl rfl

theorem kept {s : CState} (h : s.Reach) : Kept s := by
  induction h with
  | start => exact kept_start
  | step t a _ ih => exact kept_step ih t a

/-- **C148**: whatever any number of threads do that keep to the comment in Thread.h: no two of them are ever between `lock` (or a `wait` that has returned) and `unlock` (or the next `wait`); when `wait` returns, the thread has
the lock again; no `unlock` is without effect; and no thread ever releases what it does not have. -/
theorem C148_exclusive {s : CState} (hs : s.Reach) : (∀ t u, s.pc t = .within → s.pc u = .within → t = u) ∧ (∀ t, s.pc t = .within → s.os = some t) ∧ s.ignored = false ∧ s.bad = false := by
  have hk := kept hs
  have ho : ∀ t, s.pc t = .within → s.os = some t := fun t h => (hk.own t).mpr (by rw [h]; rfl)
  refine ⟨fun t u h1 h2 => ?_, ho, hk.heeded, hk.bad⟩
  have := ho t h1
  rw [ho u h2] at this
  exact (Option.some.inj this).symm

/-- The thread 1 has locked, waited, been woken and has the lock again, after the thread 2 has locked, signalled and unlocked. -/
example : ([(1, .lock), (1, .go), (1, .go), (1, .wait), (2, .lock), (2, .go), (2, .go), (2, .signal 1), (2, .unlock), (2, .go), (2, .go), (2, .go), (1, .go), (1, .go)].foldl (fun s x => s.step x.1 x.2) CState.start).pc 1 = .within := by
  decide +kernel

/-- What holds of the users at every time. -/
structure Served (s : Users) : Prop where
  kept : Kept s.c
  found : s.stage 0 = .nothing → s.c.pc 0 = .within
  asleep : s.stage 0 = .nothing ∨ s.c.pc 0 = .waiting → s.ready = true → ∃ t, t ≠ 0 ∧ s.stage t = .provided

theorem step_pc {s : CState} {t u : Nat} {a : CAct} (h : u ≠ t) (ha : ∀ w, a = .signal w → w ≠ u) : (s.step t a).pc u = s.pc u := by
  have hgo : ∀ (s' : CState) (p : CPc), (s'.go t p).pc u = s'.pc u := fun s' p => Function.update_of_ne h _ _
  have hw : ∀ w, a = .signal w → (s.wake w).pc u = s.pc u := by
    intro w hx
    unfold CState.wake
    split
    · exact Function.update_of_ne (Ne.symm (ha w hx)) _ _
    · rfl
  unfold CState.step
  split
  · cases a <;> first | exact hgo _ _ | rfl | exact hw _ rfl
  · cases a <;> first | exact hgo _ _ | rfl | exact hw _ rfl
  all_goals first | exact hgo _ _ | (split <;> first | exact hgo _ _ | rfl)

theorem step_go_waiting {s : CState} {t : Nat} (h : (s.step t .go).pc t = .waiting) : False := by
  have hgo : ∀ (s' : CState) (p : CPc), (s'.go t p).pc t = p := fun s' p => Function.update_self _ _ _
  unfold CState.step at h
  split at h
  all_goals rename_i hp
  all_goals first
    | (simp only at h; rw [hp] at h; cases h)
    | (rw [hgo] at h; cases h)
    | (split at h <;> first | (rw [hgo] at h; cases h) | (rw [hp] at h; cases h))

theorem step_go_within {s : CState} {t : Nat} (h : s.pc t = .within) : s.step t .go = s := by
  unfold CState.step
  rw [h]

theorem served_step {s : Users} (hv : Served s) (t : Nat) (d : Do) : Served (s.step t d) := by
  unfold Users.step
  by_cases h0 : t = 0
  · subst h0
    rw [if_pos rfl]
    unfold Users.waiter
    have up0 : ∀ (g : Stage), Function.update s.stage 0 g 0 = g := fun g => Function.update_self _ _ _
    have upn : ∀ (g : Stage) (t : Nat), t ≠ 0 → Function.update s.stage 0 g t = s.stage t := fun g t h => Function.update_of_ne h _ _
    cases d with
    | go =>
      refine ⟨kept_step hv.kept 0 .go, fun h => ?_, fun h hr => ?_⟩
      · have := hv.found h
        show (s.c.step 0 .go).pc 0 = _
        rw [step_go_within this]
        exact this
      · rcases h with h | h
        · exact hv.asleep (Or.inl h) hr
        · exact (step_go_waiting h).elim
    | lock =>
      simp only
      split
      · rename_i ho
        refine ⟨kept_step hv.kept 0 .lock, fun h => ?_, fun h hr => ?_⟩
        · have := hv.found h
          rw [ho] at this
          cases this
        · rcases h with h | h
          · exact hv.asleep (Or.inl h) hr
          · replace h : (s.c.step 0 .lock).pc 0 = .waiting := h
            unfold CState.step at h
            rw [ho] at h
            simp only at h
            rw [go_self] at h
            cases h
      · exact hv
    | look =>
      simp only
      split
      · rename_i ho
        refine ⟨hv.kept, fun _ => ho, fun h hr => ?_⟩
        rcases h with h | h
        · replace h : Function.update s.stage 0 (if s.ready then Stage.idle else .nothing) 0 = .nothing := h
          replace hr : s.ready = true := hr
          rw [up0, hr] at h
          cases h
        · replace h : s.c.pc 0 = .waiting := h
          rw [ho] at h
          cases h
      · exact hv
    | wait =>
      simp only
      split
      · rename_i ho
        refine ⟨kept_step hv.kept 0 .wait, fun h => ?_, fun _ hr => ?_⟩
        · replace h : Function.update s.stage 0 Stage.idle 0 = .nothing := h
          rw [up0] at h
          cases h
        · obtain ⟨t, h1, h2⟩ := hv.asleep (Or.inl ho.2) hr
          refine ⟨t, h1, ?_⟩
          show Function.update s.stage 0 _ t = _
          rw [upn _ t h1]
          exact h2
      · exact hv
    | take =>
      simp only
      split
      · exact ⟨hv.kept, hv.found, fun _ hr => by cases hr⟩
      · exact hv
    | unlock =>
      simp only
      split
      · rename_i ho
        refine ⟨kept_step hv.kept 0 .unlock, fun h => ?_, fun h _ => ?_⟩
        · replace h : Function.update s.stage 0 Stage.idle 0 = .nothing := h
          rw [up0] at h
          cases h
        · rcases h with h | h
          · replace h : Function.update s.stage 0 Stage.idle 0 = .nothing := h
            rw [up0] at h
            cases h
          · replace h : (s.c.step 0 .unlock).pc 0 = .waiting := h
            unfold CState.step at h
            rw [ho] at h
            simp only at h
            rw [go_self] at h
            cases h
      · exact hv
    | provide => exact hv
    | signal => exact hv
  · rw [if_neg h0]
    unfold Users.provider
    have up0 : ∀ (g : Stage), Function.update s.stage t g 0 = s.stage 0 := fun g => Function.update_of_ne (Ne.symm h0) _ _
    have upt : ∀ (g : Stage), Function.update s.stage t g t = g := fun g => Function.update_self _ _ _
    cases d with
    | go =>
      have e : (s.c.step t .go).pc 0 = s.c.pc 0 := step_pc (Ne.symm h0) (by simp)
      refine ⟨kept_step hv.kept t .go, fun h => ?_, fun h hr => ?_⟩
      · show (s.c.step t .go).pc 0 = _
        rw [e]
        exact hv.found h
      · rcases h with h | h
        · exact hv.asleep (Or.inl h) hr
        · replace h : (s.c.step t .go).pc 0 = .waiting := h
          rw [e] at h
          exact hv.asleep (Or.inr h) hr
    | provide =>
      simp only
      split
      · refine ⟨hv.kept, fun h => ?_, fun _ _ => ⟨t, h0, upt _⟩⟩
        replace h : Function.update s.stage t _ 0 = .nothing := h
        rw [up0] at h
        exact hv.found h
      · exact hv
    | lock =>
      simp only
      split
      · have e : (s.c.step t .lock).pc 0 = s.c.pc 0 := step_pc (Ne.symm h0) (by simp)
        refine ⟨kept_step hv.kept t .lock, fun h => ?_, fun h hr => ?_⟩
        · show (s.c.step t .lock).pc 0 = _
          rw [e]
          exact hv.found h
        · rcases h with h | h
          · exact hv.asleep (Or.inl h) hr
          · replace h : (s.c.step t .lock).pc 0 = .waiting := h
            rw [e] at h
            exact hv.asleep (Or.inr h) hr
      · exact hv
    | signal =>
      simp only
      split
      · rename_i ho
        have hn : s.c.pc 0 ≠ .within := fun h => by
          have h1 := (hv.kept.own 0).mpr (by rw [h]; rfl)
          rw [(hv.kept.own t).mpr (by rw [ho.1]; rfl)] at h1
          exact h0 (Option.some.inj h1)
        have hs0 : s.stage 0 ≠ .nothing := fun h => hn (hv.found h)
        refine ⟨kept_step hv.kept t (.signal 0), fun h => ?_, fun h _ => ?_⟩
        · replace h : Function.update s.stage t _ 0 = .nothing := h
          rw [up0] at h
          exact absurd h hs0
        · exfalso
          rcases h with h | h
          · replace h : Function.update s.stage t _ 0 = .nothing := h
            rw [up0] at h
            exact hs0 h
          · replace h : (s.c.step t (.signal 0)).pc 0 = .waiting := h
            unfold CState.step at h
            rw [ho.1] at h
            simp only at h
            unfold CState.wake at h
            split at h
            · rw [go_self] at h
              cases h
            · contradiction
      · exact hv
    | unlock =>
      simp only
      split
      · rename_i ho
        have e : (s.c.step t .unlock).pc 0 = s.c.pc 0 := step_pc (Ne.symm h0) (by simp)
        refine ⟨kept_step hv.kept t .unlock, fun h => ?_, fun h hr => ?_⟩
        · replace h : Function.update s.stage t _ 0 = .nothing := h
          rw [up0] at h
          show (s.c.step t .unlock).pc 0 = _
          rw [e]
          exact hv.found h
        · have hx : s.stage 0 = .nothing ∨ s.c.pc 0 = .waiting := by
            rcases h with h | h
            · replace h : Function.update s.stage t _ 0 = .nothing := h
              rw [up0] at h
              exact Or.inl h
            · replace h : (s.c.step t .unlock).pc 0 = .waiting := h
              rw [e] at h
              exact Or.inr h
          obtain ⟨u, h1, h2⟩ := hv.asleep hx hr
          refine ⟨u, h1, ?_⟩
          show Function.update s.stage t _ u = _
          rw [Function.update_of_ne (fun hu => by rw [hu, ho.2] at h2; cases h2)]
          exact h2
      · exact hv
    | look => exact hv
    | wait => exact hv
    | take => exact hv

theorem served {s : Users} (h : s.Reach) : Served s := by
  induction h with
  | start => exact ⟨kept_start, by simp [Users.start], by simp [Users.start]⟩
  | step t d _ ih => exact served_step ih t d

/-- **C148**: no signal is lost.  If a thread looks, with the condition locked, whether there is something, and waits if there is not; and the others first provide, and then lock, signal and unlock; then at no time is there
something and the one waits, unless another has provided it and is yet to signal. -/
theorem C148 {s : Users} (hs : s.Reach) (hr : s.ready = true) (hw : s.c.pc 0 = .waiting) : ∃ t, t ≠ 0 ∧ s.stage t = .provided :=
  (served hs).asleep (Or.inr hw) hr

/-- Steps of users one after the other. -/
def Users.run (s : Users) : List (Nat × Do) → Users
  | [] => s
  | (t, d) :: l => (s.step t d).run l

theorem Users.run_reach : ∀ (l : List (Nat × Do)) {s : Users}, s.Reach → (s.run l).Reach
  | [], _, h => h
  | (t, d) :: l, _, h => Users.run_reach l (.step t d h)

/-- The thread 0 finds nothing and waits, and the thread 1 has provided: the hypotheses are met; and when 1 has locked, signalled and unlocked, 0 is awake, and goes on to return from `wait`. -/
example : (Users.start.run [(0, .lock), (0, .go), (0, .go), (0, .look), (1, .provide), (0, .wait)]).ready = true ∧
    (Users.start.run [(0, .lock), (0, .go), (0, .go), (0, .look), (1, .provide), (0, .wait)]).c.pc 0 = .waiting ∧
    (Users.start.run [(0, .lock), (0, .go), (0, .go), (0, .look), (1, .provide), (0, .wait), (1, .lock), (1, .go), (1, .go), (1, .signal), (1, .unlock), (1, .go), (1, .go), (1, .go)]).c.pc 0 = .woken ∧
    (Users.start.run [(0, .lock), (0, .go), (0, .go), (0, .look), (1, .provide), (0, .wait), (1, .lock), (1, .go), (1, .go), (1, .signal), (1, .unlock), (1, .go), (1, .go), (1, .go), (0, .go), (0, .go)]).c.pc 0 = .within := by
  decide +kernel

end Verif.Threads
