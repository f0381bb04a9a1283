import Verif.JavaApi
import Verif.CApiProps
import Mathlib.Data.Nat.Find
/-!
# C158: Java objects do what the C++ objects do

Stated of whole Java programs that make, use and dispose of any number of objects of both classes, in any order.
-/
namespace Verif.JavaApi
open Verif.CApi (U32 U64 Call Reply Conf Engines Impl Name Holds engine alone together)

variable {D F S2 S3 L : Type}

/-! ### What is claimed -/

/-- The C++ call that a call in Java stands for: the one of the same name with the same numbers. -/
inductive Means : AnyCall D F → Call D F → Prop where
  | reset : Means (.stretcher .reset) .reset
  | setTimeRatio r : Means (.stretcher (.setTimeRatio r)) (.setTimeRatio r)
  | setPitchScale r : Means (.stretcher (.setPitchScale r)) (.setPitchScale r)
  | getChannelCount : Means (.stretcher .getChannelCount) .getChannelCount
  | getTimeRatio : Means (.stretcher .getTimeRatio) .getTimeRatio
  | getPitchScale : Means (.stretcher .getPitchScale) .getPitchScale
  | getPreferredStartPad : Means (.stretcher .getPreferredStartPad) .getPreferredStartPad
  | getStartDelay : Means (.stretcher .getStartDelay) .getStartDelay
  | getLatency : Means (.stretcher .getLatency) .getLatency
  | setTransientsOption o : Means (.stretcher (.setTransientsOption o)) (.setTransientsOption o)
  | setDetectorOption o : Means (.stretcher (.setDetectorOption o)) (.setDetectorOption o)
  | setPhaseOption o : Means (.stretcher (.setPhaseOption o)) (.setPhaseOption o)
  | setFormantOption o : Means (.stretcher (.setFormantOption o)) (.setFormantOption o)
  | setPitchOption o : Means (.stretcher (.setPitchOption o)) (.setPitchOption o)
  | setExpectedInputDuration n : Means (.stretcher (.setExpectedInputDuration n)) (.setExpectedInputDuration n)
  | setMaxProcessSize (n : U32) (n' : U64) : n'.toInt = n.toInt → Means (.stretcher (.setMaxProcessSize n)) (.setMaxProcessSize n')
  | getProcessSizeLimit : Means (.stretcher .getProcessSizeLimit) .getProcessSizeLimit
  | getSamplesRequired : Means (.stretcher .getSamplesRequired) .getSamplesRequired
  /-- The map sends the frame `f` to `t` if the arrays have `f` and `t` at a place after which `f` does not come again. -/
  | setKeyFrameMap (from_ to_ : List U64) (m : List (U64 × U64)) : m.Pairwise (fun a b => a.1.toNat < b.1.toNat) →
      (∀ f t, (f, t) ∈ m ↔ ∃ j : Nat, from_[j]? = some f ∧ to_[j]? = some t ∧ ∀ l : Nat, j < l → l < to_.length → from_[l]? ≠ some f) →
      Means (.stretcher (.setKeyFrameMap from_ to_)) (.setKeyFrameMap m)
  | study input (n : U32) (n' : U64) b : n'.toInt = n.toInt → Means (.stretcher (.study input n b)) (.study input n' b)
  | process input (n : U32) (n' : U64) b : n'.toInt = n.toInt → Means (.stretcher (.process input n b)) (.process input n' b)
  | available : Means (.stretcher .available) .available
  | retrieve (n : U32) (n' : U64) : n'.toInt = n.toInt → Means (.stretcher (.retrieve n)) (.retrieve n')

/-- The same for the live shifter. -/
inductive LMeans : AnyCall D F → LCall D F → Prop where
  | mk k : LMeans (.live k) k

/-- A count below 2^31 is the same in Java. -/
def SameCount (n : U64) (i : U32) : Prop := n.toNat < 2 ^ 31 → i.toInt = n.toNat

/-- The reply in Java is the reply in C++.  (No method has a reply of the kinds in the last lines.) -/
def Gives : Reply D F → JReply D F → Prop
  | .void, .void => True
  | .int i, .int j => i = j
  | .size n, .int i => SameCount n i
  | .double x, .double y => x = y
  | .retrieved n a, .retrieved n' a' => SameCount n n' ∧ a = a'
  | .float _, .void => True
  | .ints _, .void => True
  | .floats _, .void => True
  | _, _ => False

/-- The same for the live shifter. -/
def LGives : LReply D F → JReply D F → Prop
  | .void, .void => True
  | .size n, .int i => SameCount n i
  | .double x, .double y => x = y
  | .shifted a, .shifted a' => a = a'
  | _, _ => False

/-- The replies of a live shifter to a list of calls. -/
def liveReplies (V : Live D F L) : List (LCall D F) → L → List (LReply D F)
  | [], _ => []
  | k :: ks, l => (V.call k l).2 :: liveReplies V ks (V.call k l).1

/-- Which class: `true` for the stretcher. -/
def JConf.cls : JConf D → Bool
  | .stretcher .. => true
  | .live .. => false

/-- Which class a method is of. -/
def AnyCall.cls : AnyCall D F → Bool
  | .stretcher _ => true
  | .live _ => false

/-- Objects are used only after they were made and before they are disposed of, with methods of their class; they may be disposed of more than once.  `live` has for each object made so far its class, unless disposed of. -/
def Used : List (Option Bool) → List (Op D F) → Prop
  | _, [] => True
  | live, .new c :: os => Used (live ++ [some c.cls]) os
  | live, .call h k :: os => live[h]? = some (some k.cls) ∧ Used live os
  | live, .dispose h :: os => h < live.length ∧ Used (live.set h none) os

/-- What the objects were made with. -/
def news : List (Op D F) → List (JConf D)
  | [] => []
  | .new c :: os => c :: news os
  | _ :: os => news os

/-- The calls for the object `h`. -/
def callsOf (h : Nat) : List (Op D F) → List (AnyCall D F)
  | [] => []
  | .call h' k :: os => if h' = h then k :: callsOf h os else callsOf h os
  | _ :: os => callsOf h os

/-- The replies from the object `h`. -/
def repliesOf (h : Nat) (rs : List (Nat × JReply D F)) : List (JReply D F) :=
  rs.filterMap fun r => if r.1 = h then some r.2 else none

/-- The replies that an object made with `c` gives to the calls `cs` are right: as a C++ object made with the same numbers and used alone gives to the calls they stand for. -/
def Faithful (E : Engines D F S2 S3) (V : Live D F L) (c : JConf D) (cs : List (AnyCall D F)) (rs : List (JReply D F)) : Prop :=
  match c with
  | .stretcher rate channels options r p =>
    ∃ (c' : Conf D) (ks : List (Call D F)), c'.sampleRate.toInt = rate.toInt ∧ c'.channels.toInt = channels.toInt ∧ c'.options = options ∧ c'.timeRatio = r ∧ c'.pitchScale = p ∧
      List.Forall₂ Means cs ks ∧ List.Forall₂ Gives (alone E c' ks) rs
  | .live rate channels options =>
    ∃ (c' : LConf) (ks : List (LCall D F)), c'.sampleRate.toInt = rate.toInt ∧ c'.channels.toInt = channels.toInt ∧ c'.options = options ∧
      List.Forall₂ LMeans cs ks ∧ List.Forall₂ LGives (liveReplies V ks (V.new c')) rs

/-- An allocator gives addresses that are not null and not in use, as long as memory is not full. -/
def Allocator (alloc : Memory S2 S3 L → Nat) : Prop := ∀ m, (∃ b, ∀ a ≥ b, m a = none) → alloc m ≠ 0 ∧ m (alloc m) = none

/-! ### Proofs -/

theorem wide (n : U32) : (n.signExtend 64).toInt = n.toInt := BitVec.toInt_signExtend_of_le (by decide)

theorem sameCount (n : U64) : SameCount n (n.setWidth 32) := by
  intro h
  have : (n.setWidth 32).toNat = n.toNat := by rw [BitVec.toNat_setWidth]; omega
  rw [BitVec.toInt_eq_toNat_of_lt (by omega), this]

theorem keyMap_spec : ∀ (from_ to_ : List U64) (m : List (U64 × U64)), CApi.Sorted m → CApi.Sorted (keyMap from_ to_ m) ∧
    ∀ f t, (f, t) ∈ keyMap from_ to_ m ↔
      (∃ j : Nat, from_[j]? = some f ∧ to_[j]? = some t ∧ ∀ l : Nat, j < l → l < to_.length → from_[l]? ≠ some f) ∨
      ((f, t) ∈ m ∧ ∀ l : Nat, l < to_.length → from_[l]? ≠ some f)
  | [], to_, m, hm => by
    refine ⟨by simpa [keyMap] using hm, fun f t => ?_⟩
    simp [keyMap]
  | a :: from_, [], m, hm => by
    refine ⟨by simpa [keyMap] using hm, fun f t => ?_⟩
    simp [keyMap]
  | a :: from_, b :: to_, m, hm => by
    obtain ⟨h1, h2⟩ := keyMap_spec from_ to_ (CApi.insert a b m) (CApi.sorted_insert a b m hm)
    refine ⟨h1, fun f t => ?_⟩
    rw [show keyMap (a :: from_) (b :: to_) m = keyMap from_ to_ (CApi.insert a b m) from rfl, h2 f t, CApi.mem_insert a b m hm]
    constructor
    · rintro (⟨j, e1, e2, e3⟩ | ⟨e1 | ⟨e1, e2⟩, e3⟩)
      · refine .inl ⟨j + 1, by simpa using e1, by simpa using e2, fun l h3 h4 => ?_⟩
        obtain ⟨l, rfl⟩ : ∃ l', l = l' + 1 := ⟨l - 1, by omega⟩
        simpa using e3 l (by omega) (by simpa using h4)
      · simp only [Prod.mk.injEq] at e1
        refine .inl ⟨0, by simp [e1.1], by simp [e1.2], fun l h3 h4 => ?_⟩
        obtain ⟨l, rfl⟩ : ∃ l', l = l' + 1 := ⟨l - 1, by omega⟩
        simpa using e3 l (by simpa using h4)
      · refine .inr ⟨e2, fun l h4 => ?_⟩
        cases l with
        | zero => simpa using fun e : a = f => e1 e.symm
        | succ l => simpa using e3 l (by simpa using h4)
    · rintro (⟨j, e1, e2, e3⟩ | ⟨e1, e2⟩)
      · cases j with
        | zero =>
          simp only [List.getElem?_cons_zero, Option.some.injEq] at e1 e2
          exact .inr ⟨.inl (by rw [e1, e2]), fun l h4 => by simpa using e3 (l + 1) (by omega) (by simpa using h4)⟩
        | succ j =>
          refine .inl ⟨j, by simpa using e1, by simpa using e2, fun l h3 h4 => ?_⟩
          simpa using e3 (l + 1) (by omega) (by simpa using h4)
      · refine .inr ⟨.inr ⟨fun e => ?_, e1⟩, fun l h4 => by simpa using e2 (l + 1) (by simpa using h4)⟩
        exact e2 0 (by simp) (by simpa using (show f = a from e).symm)

theorem means (k : JCall D F) : Means (.stretcher k) k.call := by
  cases k with
  | setMaxProcessSize n => exact .setMaxProcessSize _ _ (wide n)
  | study input n b => exact .study _ _ _ _ (wide n)
  | process input n b => exact .process _ _ _ _ (wide n)
  | retrieve n => exact .retrieve _ _ (wide n)
  | setKeyFrameMap from_ to_ =>
    obtain ⟨h1, h2⟩ := keyMap_spec from_ to_ [] List.Pairwise.nil
    exact .setKeyFrameMap _ _ _ h1 fun f t => (h2 f t).trans (by simp)
  | _ => constructor

theorem gives (r : Reply D F) : Gives r (toJ r) := by
  cases r with
  | size n => exact sameCount n
  | retrieved n a => exact ⟨sameCount n, rfl⟩
  | int i => exact rfl
  | double x => exact rfl
  | _ => trivial

theorem lgives (r : LReply D F) : LGives r (liveToJ r) := by
  cases r with
  | size n => exact sameCount n
  | double x => exact rfl
  | shifted a => exact rfl
  | void => trivial

variable (E : Engines D F S2 S3) (V : Live D F L) (alloc : Memory S2 S3 L → Nat)

/-- What is to be shown of one C++ object, with the calls and the replies that follow. -/
def Right (x : Option (Object S2 S3 L)) (cs : List (AnyCall D F)) (rs : List (JReply D F)) : Prop :=
  match x with
  | none => cs = [] ∧ rs = []
  | some (.stretcher i) => ∃ ks, List.Forall₂ Means cs ks ∧ List.Forall₂ Gives (engine E i ks) rs
  | some (.live l) => ∃ ks, List.Forall₂ LMeans cs ks ∧ List.Forall₂ LGives (liveReplies V ks l) rs

/-- The object is a live shifter, or a stretcher with one engine. -/
def Object.Ok : Object S2 S3 L → Prop
  | .stretcher i => Holds i
  | .live _ => True

/-- Its class. -/
def Object.cls : Object S2 S3 L → Bool
  | .stretcher _ => true
  | .live _ => false

theorem right_nil (x : Option (Object S2 S3 L)) : Right E V x [] [] := by
  cases x with
  | none => exact ⟨rfl, rfl⟩
  | some x =>
    cases x with
    | stretcher i =>
      refine ⟨[], .nil, ?_⟩
      have : engine E i ([] : List (Call D F)) = [] := by
        unfold engine; split <;> rfl
      rw [this]; exact .nil
    | live l => exact ⟨[], .nil, .nil⟩

theorem object_call (x : Object S2 S3 L) (k : AnyCall D F) (hx : x.Ok) (hk : x.cls = k.cls) :
    ∃ x' r, x.call E V k = some (x', r) ∧ x'.Ok ∧ x'.cls = k.cls ∧ ∀ cs rs, Right E V (some x') cs rs → Right E V (some x) (k :: cs) (r :: rs) := by
  cases x with
  | stretcher i =>
    cases k with
    | live k => exact absurd hk (by simp [Object.cls, AnyCall.cls])
    | stretcher k =>
      obtain ⟨i', r, h1, h2, h3⟩ := CApi.call_holds E i hx k.call
      refine ⟨.stretcher i', toJ r, by simp only [Object.call, h1, Option.map_some], h2, rfl, ?_⟩
      rintro cs rs ⟨ks, f1, f2⟩
      refine ⟨k.call :: ks, .cons (means k) f1, ?_⟩
      rw [h3]
      exact .cons (gives r) f2
  | live l =>
    cases k with
    | stretcher k => exact absurd hk (by simp [Object.cls, AnyCall.cls])
    | live k =>
      refine ⟨.live (V.call k l).1, liveToJ (V.call k l).2, rfl, trivial, rfl, ?_⟩
      rintro cs rs ⟨ks, f1, f2⟩
      exact ⟨k :: ks, .cons (.mk k) f1, .cons (lgives _) f2⟩

theorem new_ok (c : JConf D) : (c.object E V).Ok ∧ (c.object E V).cls = c.cls := by
  cases c with
  | stretcher rate channels options r p => exact ⟨(CApi.new_holds E _).1, rfl⟩
  | live rate channels options => exact ⟨trivial, rfl⟩

/-- Objects are as `live` says; each of those not disposed of has a C++ object for itself, and there are no others. -/
structure Agrees (live : List (Option Bool)) (s : State S2 S3 L) : Prop where
  length : s.handles.length = live.length
  dead : ∀ h : Nat, live[h]? = some none → s.handles[h]? = some 0
  alive : ∀ (h : Nat) b, live[h]? = some (some b) → ∃ a x, s.handles[h]? = some a ∧ a ≠ 0 ∧ s.memory a = some x ∧ x.Ok ∧ x.cls = b
  apart : ∀ (h g : Nat) a, s.handles[h]? = some a → s.handles[g]? = some a → a ≠ 0 → h = g
  owned : ∀ a x, s.memory a = some x → a ≠ 0 ∧ ∃ h : Nat, s.handles[h]? = some a

theorem repliesOf_cons (h h' : Nat) (r : JReply D F) (rs : List (Nat × JReply D F)) :
    repliesOf h ((h', r) :: rs) = if h' = h then r :: repliesOf h rs else repliesOf h rs := by
  unfold repliesOf
  rw [List.filterMap_cons]
  split <;> split <;> simp_all

theorem le_sum : ∀ (l : List Nat) {a : Nat}, a ∈ l → a ≤ l.sum
  | b :: l, a, h => by
    rw [List.sum_cons]
    rcases List.mem_cons.mp h with h | h
    · omega
    · have := le_sum l h; omega

/-- What is behind a handle. -/
def State.behind (s : State S2 S3 L) (a : Nat) : Option (Object S2 S3 L) := if a = 0 then none else s.memory a

variable {alloc}

theorem run_right (hal : Allocator alloc) : ∀ (os : List (Op D F)) (live : List (Option Bool)) (s : State S2 S3 L), Agrees live s → Used live os →
    ∃ s' rs, run E V alloc os s = some (s', rs) ∧
      (∀ (h : Nat) a, s.handles[h]? = some a → Right E V (s.behind a) (callsOf h os) (repliesOf h rs)) ∧
      (∀ (j : Nat) c, (news os)[j]? = some c → Right E V (some (c.object E V)) (callsOf (s.handles.length + j) os) (repliesOf (s.handles.length + j) rs)) ∧
      s'.handles.length = s.handles.length + (news os).length ∧
      (∀ h : Nat, live[h]? = some none ∨ Op.dispose h ∈ os → s'.handles[h]? = some 0) ∧
      ∀ a x, s'.memory a = some x → a ≠ 0 ∧ ∃ h : Nat, s'.handles[h]? = some a
  | [], live, s, ha, _ => by
    refine ⟨s, [], rfl, fun h a _ => right_nil E V _, fun j c hc => (by cases hc), rfl, fun h hh => ?_, ha.owned⟩
    rcases hh with hh | hh
    · exact ha.dead h hh
    · cases hh
  | .new c :: os, live, s, ha, hu => by
    have hl := ha.length
    obtain ⟨p1, p2⟩ := hal s.memory ⟨s.handles.sum + 1, fun a hb => by
      cases hx : s.memory a with
      | none => rfl
      | some x =>
        obtain ⟨_, h, hh⟩ := ha.owned a x hx
        have := le_sum s.handles (List.mem_of_getElem? hh)
        omega⟩
    have old : ∀ (h : Nat) a, s.handles[h]? = some a → (s.handles ++ [alloc s.memory])[h]? = some a := fun h a e => by
      rw [List.getElem?_append_left (List.getElem?_eq_some_iff.mp e).1]; exact e
    have new' : (s.handles ++ [alloc s.memory])[s.handles.length]? = some (alloc s.memory) := by simp
    have split' : ∀ (h : Nat) a, (s.handles ++ [alloc s.memory])[h]? = some a → s.handles[h]? = some a ∨ (h = s.handles.length ∧ a = alloc s.memory) := fun h a e => by
      rcases Nat.lt_trichotomy h s.handles.length with hlt | heq | hgt
      · rw [List.getElem?_append_left hlt] at e; exact .inl e
      · subst heq; rw [new'] at e; exact .inr ⟨rfl, (Option.some.inj e).symm⟩
      · rw [List.getElem?_eq_none (by simp; omega)] at e; cases e
    have nothere : ∀ (h a : Nat), s.handles[h]? = some a → a ≠ 0 → a ≠ alloc s.memory := by
      intro h a e1 e2 e3
      have hlt : h < live.length := by rw [← hl]; exact (List.getElem?_eq_some_iff.mp e1).1
      cases hx : live[h]? with
      | none => rw [List.getElem?_eq_none_iff] at hx; omega
      | some o =>
        cases o with
        | none => rw [ha.dead h hx] at e1; exact e2 (Option.some.inj e1).symm
        | some b =>
          obtain ⟨a', x, f1, f2, f3, _⟩ := ha.alive h b hx
          rw [e1] at f1
          cases f1
          rw [e3, p2] at f3
          cases f3
    obtain ⟨s', rs, h1, h2, h3, h4, h5, h6⟩ := run_right hal os (live ++ [some c.cls]) ⟨write s.memory (alloc s.memory) (some (c.object E V)), s.handles ++ [alloc s.memory]⟩
      { length := by simp [hl]
        dead := fun h hh => by
          rcases Nat.lt_trichotomy h live.length with hlt | heq | hgt
          · rw [List.getElem?_append_left hlt] at hh
            exact old h 0 (ha.dead h hh)
          · subst heq; simp at hh
          · rw [List.getElem?_eq_none (by simp; omega)] at hh; cases hh
        alive := fun h b hh => by
          rcases Nat.lt_trichotomy h live.length with hlt | heq | hgt
          · rw [List.getElem?_append_left hlt] at hh
            obtain ⟨a, x, f1, f2, f3, f4, f5⟩ := ha.alive h b hh
            exact ⟨a, x, old h a f1, f2, by simp only [write, if_neg (nothere h a f1 f2)]; exact f3, f4, f5⟩
          · subst heq
            simp only [List.getElem?_concat_length, Option.some.injEq] at hh
            subst hh
            exact ⟨_, c.object E V, by rw [← hl]; exact new', p1, by simp [write], (new_ok E V c).1, (new_ok E V c).2⟩
          · rw [List.getElem?_eq_none (by simp; omega)] at hh; cases hh
        apart := fun h g a e1 e2 e3 => by
          rcases split' h a e1 with f1 | ⟨f1, f1'⟩ <;> rcases split' g a e2 with f2 | ⟨f2, f2'⟩
          · exact ha.apart h g a f1 f2 e3
          · exact absurd f2' (nothere h a f1 e3)
          · exact absurd f1' (nothere g a f2 e3)
          · rw [f1, f2]
        owned := fun a x e => by
          by_cases hae : a = alloc s.memory
          · subst hae; exact ⟨p1, _, new'⟩
          · simp only [write, if_neg hae] at e
            obtain ⟨f1, h, f2⟩ := ha.owned a x e
            exact ⟨f1, h, old h a f2⟩ } hu
    refine ⟨s', rs, ?_, fun h a hx => ?_, fun j d hd => ?_, ?_, fun h hh => h5 h ?_, h6⟩
    · simp only [run, step, Option.bind_some, h1, Option.map_some]; rfl
    · have := h2 h a (old h a hx)
      unfold State.behind at this ⊢
      by_cases h0 : a = 0
      · simpa only [if_pos h0, callsOf] using this
      · simpa only [if_neg h0, write, if_neg (nothere h a hx h0), callsOf] using this
    · cases j with
      | zero =>
        simp only [news, List.getElem?_cons_zero, Option.some.injEq] at hd
        subst hd
        have := h2 s.handles.length _ new'
        simpa only [State.behind, if_neg p1, write, if_true, Nat.add_zero, callsOf] using this
      | succ j =>
        have := h3 j d (by simpa only [news, List.getElem?_cons_succ] using hd)
        simp only [List.length_append, List.length_singleton] at this
        rw [show s.handles.length + (j + 1) = s.handles.length + 1 + j by omega]
        exact this
    · rw [h4]
      show (s.handles ++ [alloc s.memory]).length + (news os).length = s.handles.length + (c :: news os).length
      simp only [List.length_append, List.length_cons, List.length_nil]; omega
    · rcases hh with hh | hh
      · exact .inl (by rw [List.getElem?_append_left (List.getElem?_eq_some_iff.mp hh).1]; exact hh)
      · exact .inr (by simpa using hh)
  | .call h k :: os, live, s, ha, ⟨hlive, hu⟩ => by
    obtain ⟨a, x, e1, e2, e3, e4, e5⟩ := ha.alive h _ hlive
    obtain ⟨x', r, c1, c2, c3, c4⟩ := object_call E V x k e4 e5
    obtain ⟨s', rs, h1, h2, h3, h4, h5, h6⟩ := run_right hal os live ⟨write s.memory a (some x'), s.handles⟩
      { length := ha.length
        dead := ha.dead
        alive := fun g b hg => by
          obtain ⟨a', y, f1, f2, f3, f4, f5⟩ := ha.alive g b hg
          by_cases hgh : g = h
          · subst hgh
            rw [e1] at f1; cases f1
            rw [hlive] at hg; cases hg
            exact ⟨a, x', e1, e2, by simp [write], c2, c3⟩
          · have : a' ≠ a := fun e => hgh (ha.apart g h a (by rw [f1, e]) e1 e2)
            exact ⟨a', y, f1, f2, by simp only [write, if_neg this]; exact f3, f4, f5⟩
        apart := ha.apart
        owned := fun b y e => by
          by_cases hb : b = a
          · subst hb; exact ⟨e2, h, e1⟩
          · simp only [write, if_neg hb] at e
            exact ha.owned b y e } hu
    refine ⟨s', (h, r) :: rs, ?_, fun g b hx => ?_, fun j c hc => ?_, h4, fun g hg => h5 g ?_, h6⟩
    · simp only [run, step, e1, Option.bind_some, if_neg e2, e3, c1, Option.map_some, h1]; rfl
    · rw [repliesOf_cons]
      by_cases hgh : h = g
      · subst hgh
        rw [e1] at hx; cases hx
        have := h2 h a e1
        simp only [State.behind, if_neg e2, write, if_true] at this
        simp only [callsOf, if_true, State.behind, if_neg e2, e3]
        exact c4 _ _ this
      · simp only [callsOf, if_neg hgh]
        have := h2 g b hx
        unfold State.behind at this ⊢
        by_cases h0 : b = 0
        · simpa only [if_pos h0] using this
        · have hb : b ≠ a := fun e => hgh (ha.apart h g a e1 (by rw [hx, e]) e2)
          simpa only [if_neg h0, write, if_neg hb] using this
    · have hlt : h < s.handles.length := (List.getElem?_eq_some_iff.mp e1).1
      have hne : h ≠ s.handles.length + j := by omega
      rw [repliesOf_cons, if_neg hne]
      simp only [callsOf, if_neg hne]
      exact h3 j c hc
    · rcases hg with hg | hg
      · exact .inl hg
      · exact .inr (by simpa using hg)
  | .dispose h :: os, live, s, ha, ⟨hlt, hu⟩ => by
    have hl := ha.length
    have hlt' : h < s.handles.length := by omega
    -- the state after it, whether or not the handle was null
    have key : ∀ t : State S2 S3 L, t.handles = s.handles.set h 0 → (∀ g b : Nat, g ≠ h → s.handles[g]? = some b → b ≠ 0 → t.memory b = s.memory b) → (∀ b y, t.memory b = some y → s.memory b = some y ∧ s.handles[h]? ≠ some b) →
        step E V alloc (.dispose h) s = some (t, none) → ∃ s' rs, run E V alloc (.dispose h :: os) s = some (s', rs) ∧
        (∀ (g : Nat) a, s.handles[g]? = some a → Right E V (s.behind a) (callsOf g (.dispose h :: os)) (repliesOf g rs)) ∧
        (∀ (j : Nat) c, (news (.dispose h :: os))[j]? = some c → Right E V (some (c.object E V)) (callsOf (s.handles.length + j) (.dispose h :: os)) (repliesOf (s.handles.length + j) rs)) ∧
        s'.handles.length = s.handles.length + (news (.dispose h :: os)).length ∧
        (∀ g : Nat, live[g]? = some none ∨ Op.dispose g ∈ (Op.dispose h :: os : List (Op D F)) → s'.handles[g]? = some 0) ∧
        ∀ a x, s'.memory a = some x → a ≠ 0 ∧ ∃ g : Nat, s'.handles[g]? = some a := by
      intro t t1 t2 t3 t4
      obtain ⟨s', rs, h1, h2, h3, h4, h5, h6⟩ := run_right hal os (live.set h none) t
        { length := by rw [t1, List.length_set, List.length_set]; exact hl
          dead := fun g hg => by
            rw [t1]
            by_cases hgh : h = g
            · subst hgh; exact List.getElem?_set_self hlt'
            · rw [List.getElem?_set_ne hgh] at hg ⊢; exact ha.dead g hg
          alive := fun g b hg => by
            by_cases hgh : h = g
            · subst hgh; rw [List.getElem?_set_self hlt] at hg; cases hg
            · rw [List.getElem?_set_ne hgh] at hg
              obtain ⟨a, x, f1, f2, f3, f4, f5⟩ := ha.alive g b hg
              exact ⟨a, x, by rw [t1, List.getElem?_set_ne hgh]; exact f1, f2, by rw [t2 g a (Ne.symm hgh) f1 f2]; exact f3, f4, f5⟩
          apart := fun g g' a e1 e2 e3 => by
            rw [t1] at e1 e2
            have n1 : h ≠ g := by
              rintro rfl; rw [List.getElem?_set_self hlt'] at e1; exact e3 (Option.some.inj e1).symm
            have n2 : h ≠ g' := by
              rintro rfl; rw [List.getElem?_set_self hlt'] at e2; exact e3 (Option.some.inj e2).symm
            rw [List.getElem?_set_ne n1] at e1
            rw [List.getElem?_set_ne n2] at e2
            exact ha.apart g g' a e1 e2 e3
          owned := fun a x e => by
            obtain ⟨f1, f2⟩ := t3 a x e
            obtain ⟨g1, g, g2⟩ := ha.owned a x f1
            have : h ≠ g := by rintro rfl; exact f2 g2
            exact ⟨g1, g, by rw [t1, List.getElem?_set_ne this]; exact g2⟩ } hu
      refine ⟨s', rs, ?_, fun g a hx => ?_, fun j c hc => ?_, ?_, fun g hg => h5 g ?_, h6⟩
      · simp only [run, t4, Option.bind_some, h1, Option.map_some]; rfl
      · simp only [callsOf]
        by_cases hgh : h = g
        · subst hgh
          have := h2 h 0 (by rw [t1]; exact List.getElem?_set_self hlt')
          simp only [State.behind, if_true] at this
          obtain ⟨f1, f2⟩ := this
          rw [f1, f2]
          exact right_nil E V _
        · have := h2 g a (by rw [t1, List.getElem?_set_ne hgh]; exact hx)
          unfold State.behind at this ⊢
          by_cases h0 : a = 0
          · simpa only [if_pos h0] using this
          · simpa only [if_neg h0, t2 g a (Ne.symm hgh) hx h0] using this
      · have := h3 j c hc
        rw [t1, List.length_set] at this
        exact this
      · rw [h4, t1, List.length_set]; rfl
      · rcases hg with hg | hg
        · by_cases hgh : h = g
          · subst hgh; exact .inl (List.getElem?_set_self hlt)
          · exact .inl (by rw [List.getElem?_set_ne hgh]; exact hg)
        · rcases List.mem_cons.mp hg with hg | hg
          · cases hg; exact .inl (List.getElem?_set_self hlt)
          · exact .inr hg
    obtain ⟨a, hh⟩ : ∃ a, s.handles[h]? = some a := ⟨_, List.getElem?_eq_getElem hlt'⟩
    by_cases h0 : a = 0
    · subst h0
      refine key ⟨s.memory, s.handles.set h 0⟩ rfl (fun _ _ _ _ _ => rfl) (fun b y e => ⟨e, ?_⟩) ?_
      · intro e'
        rw [hh] at e'
        exact (ha.owned b y e).1 (Option.some.inj e').symm
      · simp only [step, hh, Option.bind_some, if_true]
    · obtain ⟨b, hb⟩ : ∃ b, live[h]? = some (some b) := by
        cases hx : live[h]? with
        | none => rw [List.getElem?_eq_none_iff] at hx; omega
        | some o =>
          cases o with
          | none => rw [ha.dead h hx] at hh; exact absurd (Option.some.inj hh).symm h0
          | some b => exact ⟨b, rfl⟩
      obtain ⟨a', x, f1, f2, f3, f4, f5⟩ := ha.alive h b hb
      rw [hh] at f1; cases f1
      refine key ⟨write s.memory a none, s.handles.set h 0⟩ rfl (fun g b hg e1 e2 => ?_) (fun b y e => ?_) ?_
      · have : b ≠ a := fun e => hg (ha.apart g h a (by rw [e1, e]) hh h0)
        simp only [write, if_neg this]
      · by_cases hb : b = a
        · subst hb; simp [write] at e
        · simp only [write, if_neg hb] at e
          exact ⟨e, fun e' => hb (by rw [hh] at e'; exact (Option.some.inj e').symm)⟩
      · simp only [step, hh, Option.bind_some, if_neg h0, f3, Option.map_some]

/-- **C158.**  Any Java program that uses its objects properly (it may dispose of them more than once) runs without a null pointer and without a use of what was deleted, however native memory is allocated; each of its objects gives
the replies that a C++ object made with the same numbers gives when used alone; and when all objects were disposed of, nothing is left in native memory. -/
theorem C158 (hal : Allocator alloc) (os : List (Op D F)) (hu : Used [] os) :
    ∃ s rs, run E V alloc os .start = some (s, rs) ∧
      (∀ (h : Nat) c, (news os)[h]? = some c → Faithful E V c (callsOf h os) (repliesOf h rs)) ∧
      ((∀ h < (news os).length, Op.dispose h ∈ os) → ∀ a, s.memory a = none) := by
  obtain ⟨s, rs, h1, _, h3, h4, h5, h6⟩ := run_right E V hal os [] .start
    ⟨rfl, fun h hh => (by cases hh), fun h b hh => (by cases hh), fun h g a e => (by cases e), fun a x e => (by cases e)⟩ hu
  refine ⟨s, rs, h1, fun h c hc => ?_, fun hd a => ?_⟩
  · have hr := h3 h c hc
    simp only [State.start, List.length_nil, Nat.zero_add] at hr
    cases c with
    | stretcher rate channels options r p =>
      obtain ⟨ks, f1, f2⟩ := hr
      refine ⟨⟨rate.signExtend 64, channels.signExtend 64, options, r, p⟩, ks, wide _, wide _, rfl, rfl, rfl, f1, ?_⟩
      rw [← (CApi.new_holds E _).2]; exact f2
    | live rate channels options =>
      obtain ⟨ks, f1, f2⟩ := hr
      exact ⟨⟨rate.signExtend 64, channels.signExtend 64, options⟩, ks, wide _, wide _, rfl, f1, f2⟩
  · cases hx : s.memory a with
    | none => rfl
    | some x =>
      obtain ⟨g1, h, g2⟩ := h6 a x hx
      have hlt : h < s.handles.length := (List.getElem?_eq_some_iff.mp g2).1
      rw [h4] at hlt
      simp only [State.start, List.length_nil, Nat.zero_add] at hlt
      rw [h5 h (.inr (hd h hlt))] at g2
      exact absurd (Option.some.inj g2).symm g1

/-- **C158, options.**  Options named in a Java program and put together with `|` are the options of the same names of C++; those of the live shifter are the same in Java, in C and in C++; the preset for percussive sound is
what its parts are. -/
theorem C158_options (ns : List Name) : together java ns = together Name.cpp ns ∧ (∀ n : LName, n.java = n.cpp ∧ n.c = n.cpp) ∧ javaPercussive = together java [.WindowShort, .PhaseIndependent] := by
  have hs : java = Name.cpp := funext fun n => by cases n <;> rfl
  exact ⟨by rw [hs], fun n => by cases n <;> exact ⟨rfl, rfl⟩, by decide⟩

/-- There are allocators, one that gives addresses anew among them. -/
example : ∃ alloc : Memory Nat Nat Nat → Nat, Allocator alloc ∧ alloc (fun _ => none) = 1 := by
  classical
  refine ⟨fun m => if h : ∃ a, a ≠ 0 ∧ m a = none then Nat.find h else 0, fun m ⟨b, hb⟩ => ?_, ?_⟩
  · have h : ∃ a, a ≠ 0 ∧ m a = none := ⟨b + 1, by omega, hb _ (by omega)⟩
    show (dite _ _ _) ≠ 0 ∧ m (dite _ _ _) = none
    rw [dif_pos h]
    exact Nat.find_spec h
  · have h : ∃ a, a ≠ 0 ∧ (fun _ => none : Memory Nat Nat Nat) a = none := ⟨1, by omega, rfl⟩
    show dite _ _ _ = 1
    rw [dif_pos h, Nat.find_eq_iff]
    exact ⟨⟨by omega, rfl⟩, fun n hn => by simp; omega⟩

/-- A program with a stretcher and a live shifter, the first disposed of twice before another is made. -/
example : Used (D := Nat) (F := Int) []
    [.new (.stretcher 44100 2 (java .EngineFiner) 2 1), .new (.live 48000 1 0), .call 0 (.stretcher (.setKeyFrameMap [100, 200, 100] [150, 300, 160])), .call 1 (.live (.shift [[1, 2, 3]])), .dispose 0, .dispose 0,
     .new (.stretcher 48000 1 0 1 1), .call 2 (.stretcher (.process [[1]] 1 true)), .dispose 1, .dispose 2] ∧ keyMap [100, 200, 100] [150, 300, 160] [] = [(100, 160), (200, 300)] := by
  refine ⟨?_, by decide⟩
  simp [Used, JConf.cls, AnyCall.cls]

end Verif.JavaApi
