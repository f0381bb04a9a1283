import Verif.CApiLive
import Mathlib.Data.List.Forall2
/-!
# The C interface of the live shifter (C159)
-/

namespace Verif.CApiLive

variable {D F L : Type}

/-! ### What is claimed -/

/-- The C++ call that a C call stands for: the one of the same name with the same arguments. -/
inductive Means : CCall D F → Call D F → Prop where
  | reset : Means .reset .reset
  | setPitchScale r : Means (.setPitchScale r) (.setPitchScale r)
  | getPitchScale : Means .getPitchScale .getPitchScale
  | setFormantScale r : Means (.setFormantScale r) (.setFormantScale r)
  | getFormantScale : Means .getFormantScale .getFormantScale
  | getStartDelay : Means .getStartDelay .getStartDelay
  | setFormantOption o : Means (.setFormantOption o) (.setFormantOption o)
  | getBlockSize : Means .getBlockSize .getBlockSize
  | shift input : Means (.shift input) (.shift input)
  | getChannelCount : Means .getChannelCount .getChannelCount
  | setDebugLevel l : Means (.setDebugLevel l) (.setDebugLevel l)

/-- The reply in C is the reply in C++: numbers are the same, if they are below 2^32, and otherwise modulo 2^32. -/
def Gives : Reply D F → CReply D F → Prop
  | .void, .void => True
  | .size n, .size n' => n'.toNat = n.toNat % 2 ^ 32
  | .double x, .double y => x = y
  | .shifted a, .shifted a' => a = a'
  | _, _ => False

/-- The replies of a shifter to a list of calls. -/
def replies (V : Shifter D F L) : List (Call D F) → L → List (Reply D F)
  | [], _ => []
  | k :: ks, s => (V.call k s).2 :: replies V ks (V.call k s).1

/-- The same numbers. -/
structure SameConf (c : CConf) (c' : Conf) : Prop where
  sampleRate : c'.sampleRate.toNat = c.sampleRate.toNat
  channels : c'.channels.toNat = c.channels.toNat
  options : c'.options = c.options

/-- States are used only after they were made and before they are deleted; `live` tells which of those made so far are not deleted. -/
def Used : List Bool → List (Op D F) → Prop
  | _, [] => True
  | live, .new _ :: os => Used (live ++ [true]) os
  | live, .call h _ :: os => live[h]? = some true ∧ Used live os
  | live, .delete h :: os => live[h]? = some true ∧ Used (live.set h false) os

/-- What the states were made with. -/
def news : List (Op D F) → List CConf
  | [] => []
  | .new c :: os => c :: news os
  | _ :: os => news os

/-- The state `h` is deleted. -/
def Deleted (h : Nat) (os : List (Op D F)) : Prop := Op.delete h ∈ os

/-- The calls for the state `h`. -/
def callsOf (h : Nat) : List (Op D F) → List (CCall D F)
  | [] => []
  | .call h' k :: os => if h' = h then k :: callsOf h os else callsOf h os
  | _ :: os => callsOf h os

/-- The replies from the state `h`. -/
def repliesOf (h : Nat) (rs : List (Nat × CReply D F)) : List (CReply D F) :=
  rs.filterMap fun r => if r.1 = h then some r.2 else none

/-! ### Proof -/

theorem toNat_wide (n : U32) : (n.setWidth 64).toNat = n.toNat := by
  rw [BitVec.toNat_setWidth]
  exact Nat.mod_eq_of_lt (Nat.lt_of_lt_of_le n.isLt (by decide))

theorem gives (r : Reply D F) : Gives r r.toC := by
  cases r with
  | void => trivial
  | size n => exact BitVec.toNat_setWidth 32 n
  | double x => rfl
  | shifted a => rfl

variable (V : Shifter D F L)

theorem means (k : CCall D F) : ∃ k', Means k k' ∧ k.call V = V.call k' := by
  cases k with
  | reset => exact ⟨_, .reset, rfl⟩
  | setPitchScale r => exact ⟨_, .setPitchScale r, rfl⟩
  | getPitchScale => exact ⟨_, .getPitchScale, rfl⟩
  | setFormantScale r => exact ⟨_, .setFormantScale r, rfl⟩
  | getFormantScale => exact ⟨_, .getFormantScale, rfl⟩
  | getStartDelay => exact ⟨_, .getStartDelay, rfl⟩
  | setFormantOption o => exact ⟨_, .setFormantOption o, rfl⟩
  | getBlockSize => exact ⟨_, .getBlockSize, rfl⟩
  | shift input => exact ⟨_, .shift input, rfl⟩
  | getChannelCount => exact ⟨_, .getChannelCount, rfl⟩
  | setDebugLevel l => exact ⟨_, .setDebugLevel l, rfl⟩

/-- What is to be shown of one place of the heap, with the calls and the replies that follow. -/
def Right (x : Option L) (cs : List (CCall D F)) (rs : List (CReply D F)) : Prop :=
  match x with
  | none => cs = [] ∧ rs = []
  | some s => ∃ ks, List.Forall₂ Means cs ks ∧ List.Forall₂ Gives (replies V ks s) rs

theorem repliesOf_cons (h h' : Nat) (r : CReply D F) (rs : List (Nat × CReply D F)) :
    repliesOf h ((h', r) :: rs) = if h' = h then r :: repliesOf h rs else repliesOf h rs := by
  unfold repliesOf
  rw [List.filterMap_cons]
  split <;> split <;> simp_all

/-- The step and what follows, with the heap as `live` says: `m.map isSome = live`. -/
theorem run_right : ∀ (os : List (Op D F)) (m : Heap L), Used (m.map Option.isSome) os →
    ∃ m' rs, run V os m = some (m', rs) ∧
      (∀ (h : Nat) x, m[h]? = some x → Right V x (callsOf h os) (repliesOf h rs)) ∧
      (∀ (j : Nat) c, (news os)[j]? = some c → Right V (some (V.new c.conf)) (callsOf (m.length + j) os) (repliesOf (m.length + j) rs)) ∧
      m'.length = m.length + (news os).length ∧
      (∀ (h : Nat), m'[h]?.join = none ↔ m'.length ≤ h ∨ m[h]? = some none ∨ Deleted h os)
  | [], m, _ => by
    refine ⟨m, [], rfl, fun h x _ => ?_, fun j c hc => (by cases hc), rfl, fun h => ?_⟩
    · cases x with
      | none => exact ⟨rfl, rfl⟩
      | some s => exact ⟨[], .nil, .nil⟩
    · rw [show Deleted h ([] : List (Op D F)) ↔ False from by simp [Deleted]]
      cases e : m[h]? with
      | none => simpa using List.getElem?_eq_none_iff.mp e
      | some x =>
        have := (List.getElem?_eq_some_iff.mp e).1
        cases x
        · simp
        · simp; omega
  | .new c :: os, m, hu => by
    have hu' : Used ((m ++ [some (V.new c.conf)]).map Option.isSome) os := by
      rw [List.map_append]
      exact hu
    obtain ⟨m', rs, h1, h2, h3, h4, h5⟩ := run_right os (m ++ [some (V.new c.conf)]) hu'
    have hlen : (m ++ [some (V.new c.conf)]).length = m.length + 1 := by simp
    refine ⟨m', rs, ?_, fun h x hx => ?_, fun j d hd => ?_, ?_, fun h => ?_⟩
    · show (run V os (m ++ [some (V.new c.conf)])).map (fun q => (q.1, ([] : List (Nat × CReply D F)) ++ q.2)) = _
      rw [h1]; rfl
    · refine h2 h x ?_
      have : h < m.length := (List.getElem?_eq_some_iff.mp hx).1
      rw [List.getElem?_append_left this]; exact hx
    · cases j with
      | zero =>
        simp only [news, List.getElem?_cons_zero, Option.some.injEq] at hd
        subst hd
        exact h2 (m.length + 0) _ (by simp)
      | succ j =>
        have := h3 j d (by simpa only [news, List.getElem?_cons_succ] using hd)
        rw [hlen] at this
        rw [show m.length + (j + 1) = m.length + 1 + j by omega]
        exact this
    · rw [h4, hlen]
      simp only [news, List.length_cons]
      omega
    · rw [h5 h]
      have hd : Deleted h (.new c :: os) ↔ Deleted h os := by simp [Deleted]
      rw [hd]
      rcases Nat.lt_trichotomy h m.length with q | q | q
      · rw [List.getElem?_append_left q]
      · have e1 : (m ++ [some (V.new c.conf)])[h]? = some (some (V.new c.conf)) := by rw [q]; simp
        have e2 : m[h]? = none := List.getElem?_eq_none (by omega)
        rw [e1, e2]
        simp
      · have e1 : (m ++ [some (V.new c.conf)])[h]? = none := List.getElem?_eq_none (by omega)
        have e2 : m[h]? = none := List.getElem?_eq_none (by omega)
        rw [e1, e2]
  | .call h k :: os, m, ⟨hlive, hu⟩ => by
    obtain ⟨x, hi, hx⟩ := Option.map_eq_some_iff.mp (List.getElem?_map (f := Option.isSome) ▸ hlive)
    obtain ⟨s, rfl⟩ := Option.isSome_iff_exists.mp hx
    obtain ⟨k', hm, hk'⟩ := means V k
    have hlt : h < m.length := (List.getElem?_eq_some_iff.mp hi).1
    generalize hs' : (V.call k' s).1 = s'
    generalize hr : (V.call k' s).2 = r
    have hu' : Used ((m.set h (some s')).map Option.isSome) os := by
      have : (m.set h (some s')).map Option.isSome = m.map Option.isSome := by
        apply List.ext_getElem?
        intro g
        rw [List.getElem?_map, List.getElem?_map]
        by_cases hgh : h = g
        · subst hgh
          rw [List.getElem?_set_self hlt, hi]; rfl
        · rw [List.getElem?_set_ne hgh]
      rw [this]
      exact hu
    obtain ⟨m', rs, h1, h2, h3, h4, h5⟩ := run_right os (m.set h (some s')) hu'
    have hstep : step V (.call h k) m = some (m.set h (some s'), some (h, r.toC)) := by
      show (m[h]?).join.map _ = _
      rw [hi]
      show some (m.set h (some (k.call V s).1), some (h, (k.call V s).2.toC)) = _
      rw [hk', hs', hr]
    refine ⟨m', (h, r.toC) :: rs, ?_, fun g x hx => ?_, fun j c hc => ?_, ?_, fun g => ?_⟩
    · show (step V (.call h k) m).bind _ = _
      rw [hstep]
      show (run V os (m.set h (some s'))).map (fun q => (q.1, [(h, r.toC)] ++ q.2)) = _
      rw [h1]; rfl
    · rw [repliesOf_cons]
      by_cases hgh : h = g
      · subst hgh
        rw [hi] at hx; cases hx
        obtain ⟨ks, f1, f2⟩ := h2 h _ (List.getElem?_set_self hlt)
        simp only [callsOf, if_true]
        refine ⟨k' :: ks, .cons hm f1, ?_⟩
        unfold replies
        rw [hs', hr]
        exact .cons (gives r) f2
      · simp only [callsOf, if_neg hgh]
        exact h2 g x (by rw [List.getElem?_set_ne hgh]; exact hx)
    · have := h3 j c hc
      rw [List.length_set] at this
      have hne : h ≠ m.length + j := by omega
      rw [repliesOf_cons, if_neg hne]
      simp only [callsOf, if_neg hne]
      exact this
    · rw [h4, List.length_set]; rfl
    · rw [h5 g]
      have hd : Deleted g (.call h k :: os) ↔ Deleted g os := by simp [Deleted]
      rw [hd]
      by_cases hgh : h = g
      · subst hgh
        rw [List.getElem?_set_self hlt, hi]
        simp
      · rw [List.getElem?_set_ne hgh]
  | .delete h :: os, m, ⟨hlive, hu⟩ => by
    obtain ⟨x, hi, hx⟩ := Option.map_eq_some_iff.mp (List.getElem?_map (f := Option.isSome) ▸ hlive)
    obtain ⟨s, rfl⟩ := Option.isSome_iff_exists.mp hx
    have hlt : h < m.length := (List.getElem?_eq_some_iff.mp hi).1
    have hu' : Used ((m.set h none).map Option.isSome) os := by
      rw [List.map_set]
      exact hu
    obtain ⟨m', rs, h1, h2, h3, h4, h5⟩ := run_right os (m.set h none) hu'
    have hstep : step V (.delete h : Op D F) m = some (m.set h none, none) := by
      show (m[h]?).join.map _ = _
      rw [hi]; rfl
    refine ⟨m', rs, ?_, fun g x hx => ?_, fun j c hc => ?_, ?_, fun g => ?_⟩
    · show (step V (.delete h) m).bind _ = _
      rw [hstep]
      show (run V os (m.set h none)).map (fun q => (q.1, ([] : List (Nat × CReply D F)) ++ q.2)) = _
      rw [h1]; rfl
    · simp only [callsOf]
      by_cases hgh : h = g
      · subst hgh
        rw [hi] at hx; cases hx
        obtain ⟨f1, f2⟩ := h2 h _ (List.getElem?_set_self hlt)
        rw [f1, f2]
        exact ⟨[], .nil, .nil⟩
      · exact h2 g x (by rw [List.getElem?_set_ne hgh]; exact hx)
    · have := h3 j c hc
      rw [List.length_set] at this
      simp only [callsOf]
      exact this
    · rw [h4, List.length_set]; rfl
    · rw [h5 g]
      by_cases hgh : h = g
      · subst hgh
        rw [List.getElem?_set_self hlt]
        simp [Deleted]
      · have hd : Deleted g (.delete h :: os) ↔ Deleted g os := by
          simp only [Deleted, List.mem_cons, Op.delete.injEq]
          constructor
          · rintro (e | e)
            · exact absurd e.symm hgh
            · exact e
          · exact Or.inr
        rw [hd, List.getElem?_set_ne hgh]

/-- **C159.**  Any program that uses the functions for live shifters properly (states only after they are made and before they are deleted) runs to its end; each shifter that
it makes gives the replies that a `R3LiveShifter` made with the same numbers gives by itself to the calls of the same names with the same arguments, whatever else the program
does with other shifters meanwhile; and in the end those shifters exist that were made and not deleted, and no others. -/
theorem C159 (os : List (Op D F)) (hu : Used [] os) :
    ∃ m rs, run V os [] = some (m, rs) ∧
      (∀ (h : Nat) c, (news os)[h]? = some c → ∃ c' ks, SameConf c c' ∧ List.Forall₂ Means (callsOf h os) ks ∧
        List.Forall₂ Gives (replies V ks (V.new c')) (repliesOf h rs)) ∧
      ∀ (h : Nat), (∃ s, m[h]? = some (some s)) ↔ h < (news os).length ∧ Op.delete h ∉ os := by
  obtain ⟨m, rs, h1, _, h3, h4, h5⟩ := run_right V os [] hu
  refine ⟨m, rs, h1, fun h c hc => ?_, fun h => ?_⟩
  · have hr := h3 h c hc
    rw [List.length_nil, Nat.zero_add] at hr
    obtain ⟨ks, f1, f2⟩ := hr
    exact ⟨c.conf, ks, ⟨toNat_wide _, toNat_wide _, rfl⟩, f1, f2⟩
  · have := h5 h
    rw [List.length_nil, Nat.zero_add] at h4
    rw [h4] at this
    have e : (∃ s, m[h]? = some (some s)) ↔ ¬ m[h]?.join = none := by
      cases m[h]? with
      | none => simp
      | some x => cases x <;> simp
    rw [e, this]
    simp [Deleted]

/-! ### A case -/

/-- A shifter that counts what was shifted and reports a delay above 2^32. -/
def Ex.counting : Shifter Nat Nat (Nat × Conf) where
  new c := (0, c)
  call
    | .shift input, (n, c) => ((n + 1, c), .shifted (input.map fun l => l.map (· + n)))
    | .getChannelCount, (n, c) => ((n, c), .size c.channels)
    | .getStartDelay, (n, c) => ((n, c), .size 0x100000007#64)
    | .getPitchScale, (n, c) => ((n, c), .double n)
    | .getFormantScale, (n, c) => ((n, c), .double 0)
    | .getBlockSize, (n, c) => ((n, c), .size 512#64)
    | .reset, (_, c) => ((0, c), .void)
    | _, s => (s, .void)

/-- Two shifters in turn, one of them deleted. -/
def Ex.ops : List (Op Nat Nat) :=
  [.new ⟨44100, 1, 0⟩, .call 0 (.shift [[5]]), .new ⟨48000, 2, 1⟩, .call 0 (.shift [[5]]), .call 1 .getChannelCount, .call 1 .getStartDelay, .delete 0, .call 1 .getPitchScale]

example : Used [] Ex.ops := by simp [Ex.ops, Used]

example : (run Ex.counting Ex.ops []).map (fun p => (p.1.map Option.isSome, p.2)) =
    some ([false, true], [(0, .shifted [[5]]), (0, .shifted [[6]]), (1, .size 2), (1, .size 7), (1, .double 0)]) := rfl

end Verif.CApiLive
