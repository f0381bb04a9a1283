import Verif.CApi
import Mathlib.Data.List.Forall2

/-!
# C154: the C interface does what the C++ interface does, with the engine chosen

Stated of whole programs that make, use and delete any number of stretchers by way of the C interface, in any order.
-/

namespace Verif.CApi

variable {D F S2 S3 : Type}

/-! ### What is claimed -/

/-- The C++ call that a C call stands for: the one of the same name with the same numbers. -/
inductive Means : CCall D F → Call D F → Prop where
  | reset : Means .reset .reset
  | getEngineVersion : Means .getEngineVersion .getEngineVersion
  | setTimeRatio r : Means (.setTimeRatio r) (.setTimeRatio r)
  | setPitchScale r : Means (.setPitchScale r) (.setPitchScale r)
  | getTimeRatio : Means .getTimeRatio .getTimeRatio
  | getPitchScale : Means .getPitchScale .getPitchScale
  | setFormantScale r : Means (.setFormantScale r) (.setFormantScale r)
  | getFormantScale : Means .getFormantScale .getFormantScale
  | getPreferredStartPad : Means .getPreferredStartPad .getPreferredStartPad
  | getStartDelay : Means .getStartDelay .getStartDelay
  | getLatency : Means .getLatency .getLatency
  | setTransientsOption o : Means (.setTransientsOption o) (.setTransientsOption o)
  | setDetectorOption o : Means (.setDetectorOption o) (.setDetectorOption o)
  | setPhaseOption o : Means (.setPhaseOption o) (.setPhaseOption o)
  | setFormantOption o : Means (.setFormantOption o) (.setFormantOption o)
  | setPitchOption o : Means (.setPitchOption o) (.setPitchOption o)
  | setExpectedInputDuration (n : U32) (n' : U64) : n'.toNat = n.toNat → Means (.setExpectedInputDuration n) (.setExpectedInputDuration n')
  | getSamplesRequired : Means .getSamplesRequired .getSamplesRequired
  | setMaxProcessSize (n : U32) (n' : U64) : n'.toNat = n.toNat → Means (.setMaxProcessSize n) (.setMaxProcessSize n')
  | getProcessSizeLimit : Means .getProcessSizeLimit .getProcessSizeLimit
  /-- The map sends the frame `f` to `t` if the arrays have `f` and `t` at a place after which `f` does not come again. -/
  | setKeyFrameMap (count : U32) (from_ to_ : List U32) (m : List (U64 × U64)) :
      m.Pairwise (fun a b => a.1.toNat < b.1.toNat) →
      (∀ f t : Nat, (∃ p ∈ m, p.1.toNat = f ∧ p.2.toNat = t) ↔
        ∃ j < count.toNat, (from_[j]?).map BitVec.toNat = some f ∧ (to_[j]?).map BitVec.toNat = some t ∧
          ∀ l, j < l → l < count.toNat → (from_[l]?).map BitVec.toNat ≠ some f) →
      Means (.setKeyFrameMap count from_ to_) (.setKeyFrameMap m)
  | study input (n : U32) (n' : U64) (f : U32) (b : Bool) : n'.toNat = n.toNat → (b = true ↔ f.toNat ≠ 0) → Means (.study input n f) (.study input n' b)
  | process input (n : U32) (n' : U64) (f : U32) (b : Bool) : n'.toNat = n.toNat → (b = true ↔ f.toNat ≠ 0) → Means (.process input n f) (.process input n' b)
  | available : Means .available .available
  | retrieve (n : U32) (n' : U64) : n'.toNat = n.toNat → Means (.retrieve n) (.retrieve n')
  | getChannelCount : Means .getChannelCount .getChannelCount
  | calculateStretch : Means .calculateStretch .calculateStretch
  | setDebugLevel l : Means (.setDebugLevel l) (.setDebugLevel l)

/-- The reply in C is the reply in C++: numbers are the same, if they are below 2^32, and otherwise modulo 2^32.  (No C function has a reply of the kinds in the last lines.) -/
def Gives : Reply D F → CReply D F → Prop
  | .void, .void => True
  | .int i, .int j => i = j
  | .size n, .size n' => n'.toNat = n.toNat % 2 ^ 32
  | .double x, .double y => x = y
  | .retrieved n a, .retrieved n' a' => n'.toNat = n.toNat % 2 ^ 32 ∧ a = a'
  | .float _, .void => True
  | .ints _, .void => True
  | .floats _, .void => True
  | _, _ => False

/-- The faster engine by itself: the formant scale is always 0 ("automatic"); `getLatency` is `getStartDelay`; all else is for the engine. -/
def faster (E : Engines D F S2 S3) (k : Call D F) (s : S2) : S2 × Reply D F :=
  match k with
  | .getEngineVersion => (s, .int 2#32)
  | .setFormantScale _ => (s, .void)
  | .getFormantScale => (s, .double E.zeroD)
  | .getLatency => E.call2 .getStartDelay s
  | k => E.call2 k s

/-- The finer engine by itself: what is for the faster engine only is without effect, and gives 0 or nothing. -/
def finer (E : Engines D F S2 S3) (k : Call D F) (s : S3) : S3 × Reply D F :=
  match k with
  | .getEngineVersion => (s, .int 3#32)
  | .getLatency => E.call3 .getStartDelay s
  | .setTransientsOption _ => (s, .void)
  | .setDetectorOption _ => (s, .void)
  | .setPhaseOption _ => (s, .void)
  | .getFrequencyCutoff _ => (s, .float E.zeroF)
  | .setFrequencyCutoff _ _ => (s, .void)
  | .getInputIncrement => (s, .size 0#64)
  | .getOutputIncrements => (s, .ints [])
  | .getPhaseResetCurve => (s, .floats [])
  | .getExactTimePoints => (s, .ints [])
  | .calculateStretch => (s, .void)
  | k => E.call3 k s

/-- The replies to a list of calls. -/
def replies {S : Type} (f : Call D F → S → S × Reply D F) : List (Call D F) → S → List (Reply D F)
  | [], _ => []
  | k :: ks, s => (f k s).2 :: replies f ks (f k s).1

/-- The replies of a stretcher that is made with `c` and then used alone: of the finer engine if bit 29 of the options is set, of the faster one if not. -/
def alone (E : Engines D F S2 S3) (c : Conf D) (ks : List (Call D F)) : List (Reply D F) :=
  if c.options.getLsbD 29 then replies (finer E) ks (E.new3 c) else replies (faster E) ks (E.new2 c)

/-- The same numbers. -/
structure SameConf (c : CConf D) (c' : Conf D) : Prop where
  sampleRate : c'.sampleRate.toNat = c.sampleRate.toNat
  channels : c'.channels.toNat = c.channels.toNat
  options : c'.options = c.options
  timeRatio : c'.timeRatio = c.timeRatio
  pitchScale : c'.pitchScale = c.pitchScale

/-- The arrays have the length that was given. -/
def CCall.Fits : CCall D F → Prop
  | .setKeyFrameMap count from_ to_ => count.toNat ≤ from_.length ∧ count.toNat ≤ to_.length
  | _ => True

/-- States are used only after they were made and before they are deleted; `live` tells which of those made so far are not deleted. -/
def Used : List Bool → List (Op D F) → Prop
  | _, [] => True
  | live, .new _ :: os => Used (live ++ [true]) os
  | live, .call h k :: os => live[h]? = some true ∧ k.Fits ∧ Used live os
  | live, .delete h :: os => live[h]? = some true ∧ Used (live.set h false) os

/-- What the states were made with. -/
def news : List (Op D F) → List (CConf D)
  | [] => []
  | .new c :: os => c :: news os
  | _ :: os => news os

/-- The calls for the state `h`. -/
def callsOf (h : Nat) : List (Op D F) → List (CCall D F)
  | [] => []
  | .call h' k :: os => if h' = h then k :: callsOf h os else callsOf h os
  | _ :: os => callsOf h os

/-- The replies from the state `h`. -/
def repliesOf (h : Nat) (rs : List (Nat × CReply D F)) : List (CReply D F) :=
  rs.filterMap fun r => if r.1 = h then some r.2 else none

/-! ### Proofs -/

/-- The order of a `std::map`. -/
abbrev Sorted (m : List (U64 × U64)) : Prop := m.Pairwise fun a b => a.1.toNat < b.1.toNat

theorem mem_insert (k v : U64) : ∀ m : List (U64 × U64), Sorted m → ∀ p, p ∈ insert k v m ↔ p = (k, v) ∨ (p.1 ≠ k ∧ p ∈ m)
  | [], _, p => by simp [insert]
  | (a, b) :: m, hm, p => by
    have hm' := List.pairwise_cons.mp hm
    unfold insert
    split
    · next hlt =>
      constructor
      · intro h
        rcases List.mem_cons.mp h with h | h
        · exact .inl h
        · refine .inr ⟨?_, h⟩
          intro he
          rw [← he] at hlt
          rcases List.mem_cons.mp h with h | h
          · rw [h] at hlt; exact absurd hlt (Nat.lt_irrefl _)
          · exact absurd (Nat.lt_trans hlt (hm'.1 _ h)) (Nat.lt_irrefl _)
      · rintro (h | h)
        · rw [h]; exact List.mem_cons_self
        · exact List.mem_cons_of_mem _ h.2
    · split
      · next hlt heq =>
        subst heq
        constructor
        · intro h
          rcases List.mem_cons.mp h with h | h
          · exact .inl h
          · refine .inr ⟨?_, List.mem_cons_of_mem _ h⟩
            rintro he
            have := hm'.1 _ h
            rw [he] at this
            exact absurd this (by simp)
        · rintro (h | ⟨h1, h⟩)
          · rw [h]; exact List.mem_cons_self
          · rcases List.mem_cons.mp h with h | h
            · rw [h] at h1; exact absurd rfl h1
            · exact List.mem_cons_of_mem _ h
      · next hlt hne =>
        rw [List.mem_cons, mem_insert k v m hm'.2 p, List.mem_cons]
        constructor
        · rintro (h | h | h)
          · refine .inr ⟨?_, .inl h⟩
            rw [h]; exact fun e => hne e.symm
          · exact .inl h
          · exact .inr ⟨h.1, .inr h.2⟩
        · rintro (h | ⟨h1, h | h⟩)
          · exact .inr (.inl h)
          · exact .inl h
          · exact .inr (.inr ⟨h1, h⟩)

theorem sorted_insert (k v : U64) : ∀ m : List (U64 × U64), Sorted m → Sorted (insert k v m)
  | [], _ => by simp [insert]
  | (a, b) :: m, hm => by
    have hm' := List.pairwise_cons.mp hm
    unfold insert
    split
    · next hlt =>
      refine List.pairwise_cons.mpr ⟨fun p hp => ?_, hm⟩
      rcases List.mem_cons.mp hp with h | h
      · rw [h]; exact hlt
      · exact Nat.lt_trans hlt (hm'.1 _ h)
    · split
      · next hlt heq =>
        subst heq
        exact List.pairwise_cons.mpr ⟨fun p hp => hm'.1 p hp, hm'.2⟩
      · next hlt hne =>
        refine List.pairwise_cons.mpr ⟨fun p hp => ?_, sorted_insert k v m hm'.2⟩
        rcases (mem_insert k v m hm'.2 p).mp hp with h | h
        · rw [h]
          have : k.toNat ≠ a.toNat := fun e => hne (BitVec.eq_of_toNat_eq e)
          show a.toNat < k.toNat
          omega
        · exact hm'.1 _ h.2

theorem toNat_wide (n : U32) : (n.setWidth 64).toNat = n.toNat := by
  rw [BitVec.toNat_setWidth]
  exact Nat.mod_eq_of_lt (Nat.lt_trans n.isLt (by decide))

theorem keyFrames_spec (from_ to_ : List U32) : ∀ (n i : Nat) (m : List (U64 × U64)), Sorted m → i + n ≤ from_.length → i + n ≤ to_.length →
    ∃ m', keyFrames from_ to_ n i m = some m' ∧ Sorted m' ∧
      ∀ f t : Nat, (∃ p ∈ m', p.1.toNat = f ∧ p.2.toNat = t) ↔
        (∃ j, i ≤ j ∧ j < i + n ∧ (from_[j]?).map BitVec.toNat = some f ∧ (to_[j]?).map BitVec.toNat = some t ∧
          ∀ l, j < l → l < i + n → (from_[l]?).map BitVec.toNat ≠ some f) ∨
        ((∃ p ∈ m, p.1.toNat = f ∧ p.2.toNat = t) ∧ ∀ l, i ≤ l → l < i + n → (from_[l]?).map BitVec.toNat ≠ some f)
  | 0, i, m, hm, _, _ => by
    refine ⟨m, rfl, hm, fun f t => ⟨fun h => .inr ⟨h, fun l h1 h2 => by omega⟩, ?_⟩⟩
    rintro (⟨j, h1, h2, _⟩ | h)
    · omega
    · exact h.1
  | n + 1, i, m, hm, hf, ht => by
    have hfi : from_[i]? = some (from_[i]'(by omega)) := List.getElem?_eq_getElem _
    have hti : to_[i]? = some (to_[i]'(by omega)) := List.getElem?_eq_getElem _
    generalize from_[i]'(by omega) = a at hfi
    generalize to_[i]'(by omega) = b at hti
    obtain ⟨m', h1, h2, h3⟩ := keyFrames_spec from_ to_ n (i + 1) (insert (a.setWidth 64) (b.setWidth 64) m) (sorted_insert _ _ _ hm) (by omega) (by omega)
    refine ⟨m', ?_, h2, fun f t => (h3 f t).trans ?_⟩
    · show (from_[i]?.bind fun f => to_[i]?.bind fun t => keyFrames from_ to_ n (i + 1) (insert (f.setWidth 64) (t.setWidth 64) m)) = some m'
      rw [hfi, hti]; exact h1
    have hins : (∃ p ∈ insert (a.setWidth 64) (b.setWidth 64) m, p.1.toNat = f ∧ p.2.toNat = t) ↔
        (a.toNat = f ∧ b.toNat = t) ∨ (a.toNat ≠ f ∧ ∃ p ∈ m, p.1.toNat = f ∧ p.2.toNat = t) := by
      constructor
      · rintro ⟨p, hp, e1, e2⟩
        rcases (mem_insert _ _ _ hm p).mp hp with h | h
        · rw [h] at e1 e2
          rw [toNat_wide] at e1 e2
          exact .inl ⟨e1, e2⟩
        · refine .inr ⟨fun e => h.1 (BitVec.eq_of_toNat_eq ?_), p, h.2, e1, e2⟩
          rw [toNat_wide]; omega
      · rintro (⟨e1, e2⟩ | ⟨e, p, hp, e1, e2⟩)
        · refine ⟨(a.setWidth 64, b.setWidth 64), (mem_insert _ _ _ hm _).mpr (.inl rfl), ?_, ?_⟩
          · show (a.setWidth 64).toNat = f
            rw [toNat_wide]; exact e1
          · show (b.setWidth 64).toNat = t
            rw [toNat_wide]; exact e2
        · refine ⟨p, (mem_insert _ _ _ hm _).mpr (.inr ⟨fun h => e ?_, hp⟩), e1, e2⟩
          rw [h, toNat_wide] at e1
          exact e1
    rw [hins]
    have hai : ∀ f : Nat, (from_[i]?).map BitVec.toNat = some f ↔ a.toNat = f := fun f => by rw [hfi]; simp
    have hbi : ∀ t : Nat, (to_[i]?).map BitVec.toNat = some t ↔ b.toNat = t := fun t => by rw [hti]; simp
    constructor
    · rintro (⟨j, e1, e2, e3, e4, e5⟩ | ⟨⟨e1, e2⟩ | ⟨e, e1⟩, e3⟩)
      · exact .inl ⟨j, by omega, by omega, e3, e4, fun l h1 h2 => e5 l h1 (by omega)⟩
      · exact .inl ⟨i, Nat.le_refl _, by omega, (hai f).mpr e1, (hbi t).mpr e2, fun l h1 h2 => e3 l (by omega) (by omega)⟩
      · refine .inr ⟨e1, fun l h1 h2 => ?_⟩
        by_cases hl : l = i
        · rw [hl, Ne, hai]; exact e
        · exact e3 l (by omega) (by omega)
    · rintro (⟨j, e1, e2, e3, e4, e5⟩ | ⟨e1, e2⟩)
      · by_cases hj : j = i
        · rw [hj] at e3 e4 e5
          exact .inr ⟨.inl ⟨(hai f).mp e3, (hbi t).mp e4⟩, fun l h1 h2 => e5 l (by omega) (by omega)⟩
        · exact .inl ⟨j, by omega, by omega, e3, e4, fun l h1 h2 => e5 l h1 (by omega)⟩
      · exact .inr ⟨.inr ⟨fun h => e2 i (Nat.le_refl _) (by omega) ((hai f).mpr h), e1⟩, fun l h1 h2 => e2 l (by omega) (by omega)⟩

theorem bne_zero (f : U32) : (f != 0#32) = true ↔ f.toNat ≠ 0 := by
  rw [bne_iff_ne, Ne, Ne, not_iff_not]
  constructor
  · intro h; rw [h]; rfl
  · intro h; exact BitVec.eq_of_toNat_eq h

/-- Each C call makes the C++ call that it stands for. -/
theorem means (k : CCall D F) (hk : k.Fits) : ∃ k', k.call = some k' ∧ Means k k' := by
  cases k with
  | setKeyFrameMap count from_ to_ =>
    obtain ⟨m, h1, h2, h3⟩ := keyFrames_spec from_ to_ count.toNat 0 [] List.Pairwise.nil (by have := hk.1; omega) (by have := hk.2; omega)
    refine ⟨.setKeyFrameMap m, by simp only [CCall.call, h1]; rfl, .setKeyFrameMap _ _ _ _ h2 fun f t => (h3 f t).trans ?_⟩
    constructor
    · rintro (⟨j, _, e2, e3, e4, e5⟩ | ⟨⟨p, hp, _⟩, _⟩)
      · exact ⟨j, by omega, e3, e4, fun l h1 h2 => e5 l h1 (by omega)⟩
      · cases hp
    · rintro ⟨j, e2, e3, e4, e5⟩
      exact .inl ⟨j, by omega, by omega, e3, e4, fun l h1 h2 => e5 l h1 (by omega)⟩
  | setExpectedInputDuration n => exact ⟨_, rfl, .setExpectedInputDuration _ _ (toNat_wide n)⟩
  | setMaxProcessSize n => exact ⟨_, rfl, .setMaxProcessSize _ _ (toNat_wide n)⟩
  | study input n f => exact ⟨_, rfl, .study _ _ _ _ _ (toNat_wide n) (bne_zero f)⟩
  | process input n f => exact ⟨_, rfl, .process _ _ _ _ _ (toNat_wide n) (bne_zero f)⟩
  | retrieve n => exact ⟨_, rfl, .retrieve _ _ (toNat_wide n)⟩
  | _ => exact ⟨_, rfl, by constructor⟩

theorem gives (r : Reply D F) : Gives r r.toC := by
  cases r with
  | size n => exact BitVec.toNat_setWidth 32 n
  | retrieved n a => exact ⟨BitVec.toNat_setWidth 32 n, rfl⟩
  | int i => exact rfl
  | double x => exact rfl
  | _ => trivial

variable (E : Engines D F S2 S3)

/-- What an object with one engine does with calls is what the engine does by itself. -/
inductive Holds : Impl S2 S3 → Prop where
  | faster (s : S2) : Holds ⟨some s, none⟩
  | finer (s : S3) : Holds ⟨none, some s⟩

/-- The replies of the engine that there is. -/
def engine (i : Impl S2 S3) (ks : List (Call D F)) : List (Reply D F) :=
  match i.r2, i.r3 with
  | some s, _ => replies (faster E) ks s
  | none, some s => replies (finer E) ks s
  | none, none => []

theorem call_holds (i : Impl S2 S3) (hi : Holds i) (k : Call D F) :
    ∃ i' r, i.call E k = some (i', r) ∧ Holds i' ∧ ∀ ks, engine E i (k :: ks) = r :: engine E i' ks := by
  cases hi with
  | faster s =>
    refine ⟨⟨some (faster E k s).1, none⟩, (faster E k s).2, ?_, .faster _, fun ks => rfl⟩
    cases k <;> rfl
  | finer s =>
    refine ⟨⟨none, some (finer E k s).1⟩, (finer E k s).2, ?_, .finer _, fun ks => rfl⟩
    cases k <;> rfl

theorem finer_bit (o : U32) : (o &&& engineFiner = 0#32) ↔ o.getLsbD 29 = false := by
  constructor
  · intro h
    have := congrArg (fun x : U32 => x.getLsbD 29) h
    simpa [engineFiner] using this
  · intro h
    apply BitVec.eq_of_getLsbD_eq
    intro i hi
    rw [BitVec.getLsbD_and, BitVec.getLsbD_zero]
    by_cases h29 : i = 29
    · rw [h29, h]; rfl
    · have : engineFiner.getLsbD i = false := by
        have : ∀ i < 32, i ≠ 29 → engineFiner.getLsbD i = false := by decide
        exact this i hi h29
      rw [this, Bool.and_false]

theorem new_holds (c : Conf D) : Holds (Impl.new E c) ∧ ∀ ks, engine E (Impl.new E c) ks = alone E c ks := by
  unfold Impl.new alone
  by_cases h : c.options &&& engineFiner = 0#32
  · rw [if_pos h, if_neg (not_not.mpr h), (finer_bit _).mp h]
    exact ⟨.faster _, fun ks => rfl⟩
  · have h29 : c.options.getLsbD 29 = true := by
      rw [← Bool.not_eq_false]; exact fun e => h ((finer_bit _).mpr e)
    rw [if_neg h, if_pos h, h29]
    exact ⟨.finer _, fun ks => rfl⟩

/-- What is to be shown of one place of the heap, with the calls and the replies that follow. -/
def Right (x : Option (Impl S2 S3)) (cs : List (CCall D F)) (rs : List (CReply D F)) : Prop :=
  match x with
  | none => cs = [] ∧ rs = []
  | some i => ∃ ks, List.Forall₂ Means cs ks ∧ List.Forall₂ Gives (engine E i ks) rs

/-- The heap is as `live` says, and what is there has one engine. -/
structure Agrees (live : List Bool) (m : Heap S2 S3) : Prop where
  length : m.length = live.length
  dead : ∀ h : Nat, live[h]? = some false → m[h]? = some none
  alive : ∀ h : Nat, live[h]? = some true → ∃ i, m[h]? = some (some i) ∧ Holds i

theorem repliesOf_cons (h h' : Nat) (r : CReply D F) (rs : List (Nat × CReply D F)) :
    repliesOf h ((h', r) :: rs) = if h' = h then r :: repliesOf h rs else repliesOf h rs := by
  unfold repliesOf
  rw [List.filterMap_cons]
  split <;> split <;> simp_all

theorem run_right : ∀ (os : List (Op D F)) (live : List Bool) (m : Heap S2 S3), Agrees live m → Used live os →
    ∃ m' rs, run E os m = some (m', rs) ∧
      (∀ (h : Nat) x, m[h]? = some x → Right E x (callsOf h os) (repliesOf h rs)) ∧
      (∀ (j : Nat) c, (news os)[j]? = some c → Right E (some (Impl.new E c.conf)) (callsOf (m.length + j) os) (repliesOf (m.length + j) rs))
  | [], live, m, _, _ => by
    refine ⟨m, [], rfl, fun h x _ => ?_, fun j c hc => by cases hc⟩
    cases x with
    | none => exact ⟨rfl, rfl⟩
    | some i =>
      refine ⟨[], .nil, ?_⟩
      have : engine E i ([] : List (Call D F)) = [] := by
        unfold engine; split <;> rfl
      rw [this]; exact .nil
  | .new c :: os, live, m, ha, hu => by
    have hl := ha.length
    obtain ⟨m', rs, h1, h2, h3⟩ := run_right os (live ++ [true]) (m ++ [some (Impl.new E c.conf)])
      { length := by simp [hl]
        dead := fun h hh => by
          rcases Nat.lt_trichotomy h live.length with hlt | heq | hgt
          · rw [List.getElem?_append_left hlt] at hh
            rw [List.getElem?_append_left (by omega)]
            exact ha.dead h hh
          · subst heq; simp at hh
          · rw [List.getElem?_eq_none (by simp; omega)] at hh; cases hh
        alive := fun h hh => by
          rcases Nat.lt_trichotomy h live.length with hlt | heq | hgt
          · rw [List.getElem?_append_left hlt] at hh
            rw [List.getElem?_append_left (by omega)]
            exact ha.alive h hh
          · exact ⟨_, by rw [heq, ← hl]; simp, (new_holds E c.conf).1⟩
          · rw [List.getElem?_eq_none (by simp; omega)] at hh; cases hh } hu
    refine ⟨m', rs, ?_, fun h x hx => ?_, fun j d hd => ?_⟩
    · show ((step E (.new c) m).bind fun p => (run E os p.1).bind fun q => some (q.1, p.2.toList ++ q.2)) = _
      show ((run E os (m ++ [some (Impl.new E c.conf)])).bind fun q => some (q.1, ([] : List (Nat × CReply D F)) ++ q.2)) = _
      rw [h1]; rfl
    · refine h2 h x ?_
      have : h < m.length := (List.getElem?_eq_some_iff.mp hx).1
      rw [List.getElem?_append_left this]; exact hx
    · cases j with
      | zero =>
        simp only [news, List.getElem?_cons_zero, Option.some.injEq] at hd
        subst hd
        exact h2 (m.length + 0) _ (by simp)
      | succ j =>
        have := h3 j d (by simpa only [news, List.getElem?_cons_succ] using hd)
        rw [List.length_append, List.length_singleton] at this
        rw [show m.length + (j + 1) = m.length + 1 + j by omega]
        exact this
  | .call h k :: os, live, m, ha, ⟨hlive, hk, hu⟩ => by
    obtain ⟨i, hi, hh⟩ := ha.alive h hlive
    obtain ⟨k', hk', hm⟩ := means k hk
    obtain ⟨i', r, hc, hh', he⟩ := call_holds E i hh k'
    have hlt : h < m.length := (List.getElem?_eq_some_iff.mp hi).1
    obtain ⟨m', rs, h1, h2, h3⟩ := run_right os live (m.set h (some i'))
      { length := by rw [List.length_set]; exact ha.length
        dead := fun g hg => by
          have : h ≠ g := by rintro rfl; rw [hlive] at hg; cases hg
          rw [List.getElem?_set_ne this]; exact ha.dead g hg
        alive := fun g hg => by
          by_cases hgh : h = g
          · subst hgh; exact ⟨i', List.getElem?_set_self hlt, hh'⟩
          · rw [List.getElem?_set_ne hgh]; exact ha.alive g hg } hu
    have hstep : step E (.call h k) m = some (m.set h (some i'), some (h, r.toC)) := by
      show ((m[h]?).join.bind fun i => k.call.bind fun k => (i.call E k).bind fun p => some (m.set h (some p.1), some (h, p.2.toC))) = _
      rw [hi, hk']
      show ((i.call E k').bind fun p => some (m.set h (some p.1), some (h, p.2.toC))) = _
      rw [hc]; rfl
    refine ⟨m', (h, r.toC) :: rs, ?_, fun g x hx => ?_, fun j c hc => ?_⟩
    · show ((step E (.call h k) m).bind fun p => (run E os p.1).bind fun q => some (q.1, p.2.toList ++ q.2)) = _
      rw [hstep]
      show ((run E os (m.set h (some i'))).bind fun q => some (q.1, [(h, r.toC)] ++ q.2)) = _
      rw [h1]; rfl
    · rw [repliesOf_cons]
      by_cases hgh : h = g
      · subst hgh
        rw [hi] at hx; cases hx
        obtain ⟨ks, f1, f2⟩ := h2 h _ (List.getElem?_set_self hlt)
        simp only [callsOf, if_true]
        refine ⟨k' :: ks, .cons hm f1, ?_⟩
        rw [he]; exact .cons (gives r) f2
      · simp only [callsOf, if_neg hgh]
        exact h2 g x (by rw [List.getElem?_set_ne hgh]; exact hx)
    · have := h3 j c hc
      rw [List.length_set] at this
      have hne : h ≠ m.length + j := by omega
      rw [repliesOf_cons, if_neg hne]
      simp only [callsOf, if_neg hne]
      exact this
  | .delete h :: os, live, m, ha, ⟨hlive, hu⟩ => by
    obtain ⟨i, hi, hh⟩ := ha.alive h hlive
    have hlt : h < m.length := (List.getElem?_eq_some_iff.mp hi).1
    have hlt' : h < live.length := (List.getElem?_eq_some_iff.mp hlive).1
    obtain ⟨m', rs, h1, h2, h3⟩ := run_right os (live.set h false) (m.set h none)
      { length := by rw [List.length_set, List.length_set]; exact ha.length
        dead := fun g hg => by
          by_cases hgh : h = g
          · subst hgh; exact List.getElem?_set_self hlt
          · rw [List.getElem?_set_ne hgh] at hg ⊢; exact ha.dead g hg
        alive := fun g hg => by
          by_cases hgh : h = g
          · subst hgh; rw [List.getElem?_set_self hlt'] at hg; cases hg
          · rw [List.getElem?_set_ne hgh] at hg ⊢; exact ha.alive g hg } hu
    refine ⟨m', rs, ?_, fun g x hx => ?_, fun j c hc => ?_⟩
    · show ((step E (.delete h) m).bind fun p => (run E os p.1).bind fun q => some (q.1, p.2.toList ++ q.2)) = _
      have hstep : step E (.delete h : Op D F) m = some (m.set h none, none) := by
        show ((m[h]?).join.bind fun _ => some (m.set h none, none)) = _
        rw [hi]; rfl
      rw [hstep]
      show ((run E os (m.set h none)).bind fun q => some (q.1, ([] : List (Nat × CReply D F)) ++ q.2)) = _
      rw [h1]; rfl
    · simp only [callsOf]
      by_cases hgh : h = g
      · subst hgh
        rw [hi] at hx; cases hx
        obtain ⟨f1, f2⟩ := h2 h _ (List.getElem?_set_self hlt)
        rw [f1, f2]
        refine ⟨[], .nil, ?_⟩
        have : engine E i ([] : List (Call D F)) = [] := by
          unfold engine; split <;> rfl
        rw [this]; exact .nil
      · exact h2 g x (by rw [List.getElem?_set_ne hgh]; exact hx)
    · have := h3 j c hc
      rw [List.length_set] at this
      simp only [callsOf]
      exact this

/-- **C154.**  Any program that uses the C interface properly runs without a null pointer or a read beyond an array, and each stretcher that it makes gives the replies that the
engine chosen by its options gives by itself to the C++ calls of the same names with the same numbers, whatever else the program does with other stretchers meanwhile. -/
theorem C154 (os : List (Op D F)) (hu : Used [] os) :
    ∃ m rs, run E os [] = some (m, rs) ∧
      ∀ (h : Nat) c, (news os)[h]? = some c → ∃ c' ks, SameConf c c' ∧ List.Forall₂ Means (callsOf h os) ks ∧
        List.Forall₂ Gives (alone E c' ks) (repliesOf h rs) := by
  obtain ⟨m, rs, h1, _, h3⟩ := run_right E os [] [] ⟨rfl, fun h hh => (by cases hh), fun h hh => (by cases hh)⟩ hu
  refine ⟨m, rs, h1, fun h c hc => ?_⟩
  have hr := h3 h c hc
  rw [List.length_nil, Nat.zero_add] at hr
  obtain ⟨ks, f1, f2⟩ := hr
  refine ⟨c.conf, ks, ⟨toNat_wide _, toNat_wide _, rfl, rfl, rfl⟩, f1, ?_⟩
  rw [← (new_holds E c.conf).2]; exact f2

/-! ### Options -/

/-- Options put together with `|`. -/
def together (f : Name → U32) : List Name → U32
  | [] => 0#32
  | n :: ns => f n ||| together f ns

/-- All names. -/
def Name.all : List Name :=
  [.ProcessOffline, .ProcessRealTime, .StretchElastic, .StretchPrecise, .TransientsCrisp, .TransientsMixed, .TransientsSmooth,
   .DetectorCompound, .DetectorPercussive, .DetectorSoft, .PhaseLaminar, .PhaseIndependent, .ThreadingAuto, .ThreadingNever, .ThreadingAlways,
   .WindowStandard, .WindowShort, .WindowLong, .SmoothingOff, .SmoothingOn, .FormantShifted, .FormantPreserved,
   .PitchHighSpeed, .PitchHighQuality, .PitchHighConsistency, .ChannelsApart, .ChannelsTogether, .EngineFaster, .EngineFiner]

theorem Name.mem_all (n : Name) : n ∈ all := by cases n <;> decide

theorem same_value (n : Name) : n.c = n.cpp := by cases n <;> rfl

theorem disjoint (n n' : Name) : n'.cpp = 0#32 ∨ n'.cpp &&& n.cpp = if n' = n then n.cpp else 0#32 := by
  have : ∀ n ∈ Name.all, ∀ n' ∈ Name.all, n'.cpp = 0#32 ∨ n'.cpp &&& n.cpp = if n' = n then n.cpp else 0#32 := by decide +kernel
  exact this n n.mem_all n' n'.mem_all

theorem and_together (n : Name) (hn : n.cpp ≠ 0#32) (ns : List Name) :
    together Name.cpp ns &&& n.cpp = if n ∈ ns then n.cpp else 0#32 := by
  induction ns with
  | nil => simp [together]
  | cons a ns ih =>
    have hd : (a.cpp ||| together Name.cpp ns) &&& n.cpp = (a.cpp &&& n.cpp) ||| (together Name.cpp ns &&& n.cpp) := by
      apply BitVec.eq_of_getLsbD_eq
      intro i _
      simp only [BitVec.getLsbD_and, BitVec.getLsbD_or]
      cases a.cpp.getLsbD i <;> cases (together Name.cpp ns).getLsbD i <;> cases n.cpp.getLsbD i <;> rfl
    show (a.cpp ||| together Name.cpp ns) &&& n.cpp = _
    rw [hd, ih]
    by_cases han : a = n
    · subst han
      rw [if_pos List.mem_cons_self]
      split <;> simp
    · have h0 : a.cpp &&& n.cpp = 0#32 := by
        rcases disjoint n a with h | h
        · rw [h]; simp
        · rw [h, if_neg han]
      rw [h0]
      have : (n ∈ a :: ns) ↔ n ∈ ns := by
        rw [List.mem_cons]; exact ⟨fun h => h.resolve_left fun e => han e.symm, .inr⟩
      simp only [this, BitVec.zero_or]

/-- **C154, options.**  Options named in a C program and put together with `|` are the options of the same names of C++, each of them that is not the default of its
group can be told from the others, and the engine is the finer one exactly if `RubberBandOptionEngineFiner` is among them. -/
theorem C154_options (ns : List Name) (c : CConf D) (hc : c.options = together Name.c ns) :
    together Name.c ns = together Name.cpp ns ∧
    (∀ n : Name, n.cpp ≠ 0#32 → (together Name.c ns &&& n.c ≠ 0#32 ↔ n ∈ ns)) ∧
    (run E [.new c, .call 0 .getEngineVersion] []).map Prod.snd = some [(0, .int (if Name.EngineFiner ∈ ns then 3#32 else 2#32))] := by
  have hs : Name.c = Name.cpp := funext same_value
  refine ⟨by rw [hs], fun n hn => ?_, ?_⟩
  · rw [hs, and_together n hn]
    by_cases h : n ∈ ns
    · rw [if_pos h]; exact ⟨fun _ => h, fun _ => hn⟩
    · rw [if_neg h]; exact ⟨fun e => absurd rfl e, fun e => absurd e h⟩
  · have ht := and_together .EngineFiner (by decide) ns
    rw [← hs, ← hc] at ht
    have ht' : c.conf.options &&& engineFiner = if Name.EngineFiner ∈ ns then Name.EngineFiner.c else 0#32 := ht
    have hv : (Impl.new E c.conf).r3.isSome = decide (Name.EngineFiner ∈ ns) := by
      unfold Impl.new
      rw [ht']
      by_cases h : Name.EngineFiner ∈ ns
      · rw [if_pos h, decide_eq_true h]; rfl
      · rw [if_neg h, decide_eq_false h]; rfl
    show some [(0, CReply.int (if (Impl.new E c.conf).r3.isSome then 3#32 else 2#32))] = _
    rw [hv]
    by_cases h : Name.EngineFiner ∈ ns
    · rw [if_pos h, decide_eq_true h]; rfl
    · rw [if_neg h, decide_eq_false h]; rfl

/-- A program with two stretchers, a key-frame map with a frame that comes twice, a use between, and deletion. -/
example : Used (D := Nat) (F := Int) []
    [.new ⟨44100, 2, Name.EngineFiner.c, 2, 1⟩, .new ⟨48000, 1, Name.ProcessRealTime.c, 1, 1⟩,
     .call 0 (.setKeyFrameMap 3 [100, 200, 100] [150, 300, 160, 7]), .call 1 (.process [[1, 2, 3]] 3 1), .call 0 (.process [[1], [2]] 1 0),
     .delete 0, .call 1 (.retrieve 3), .delete 1] := by
  simp [Used, CCall.Fits]

example : keyFrames [100, 200, 100] [150, 300, 160, 7] 3 0 [] = some [(100, 160), (200, 300)] := by decide

end Verif.CApi
