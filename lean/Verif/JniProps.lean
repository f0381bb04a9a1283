import Verif.Jni
import Verif.CliMapsProps
import Mathlib.Data.List.Nodup
/-!
# The Java interface: C136 to C140
-/
namespace Verif.Jni

variable {σ K : Type}

theorem pokes_append (h : Heap K) (a b : List (Write K)) : pokes h (a ++ b) = pokes (pokes h a) b := List.foldl_append ..

theorem poke_length (h : Heap K) (w : Write K) (a : Nat) : (poke h w a).length = (h a).length := by
  unfold poke
  split <;> simp

theorem pokes_length (ws : List (Write K)) : ∀ (h : Heap K) (a : Nat), (pokes h ws a).length = (h a).length := by
  induction ws with
  | nil => intro h a; rfl
  | cons w ws ih => intro h a; exact (ih (poke h w) a).trans (poke_length h w a)

/-- What is not written stays. -/
theorem pokes_get (ws : List (Write K)) (a i : Nat) (hw : ∀ w ∈ ws, w.array = a → w.index ≠ i) : ∀ h : Heap K, (pokes h ws a)[i]? = (h a)[i]? := by
  induction ws with
  | nil => intro h; rfl
  | cons w ws ih =>
    intro h
    refine (ih (fun x hx => hw x (List.mem_cons_of_mem _ hx)) (poke h w)).trans ?_
    unfold poke
    split
    · rename_i e
      rw [List.getElem?_set_ne (hw w (by simp) e.symm)]
    · rfl

theorem pokes_same (ws : List (Write K)) (a : Nat) (hw : ∀ w ∈ ws, w.array ≠ a) (h : Heap K) : pokes h ws a = h a := by
  apply List.ext_getElem?
  intro i
  exact pokes_get ws a i (fun w hm e => absurd e (hw w hm)) h

/-- The part of a list. -/
theorem part_get (l : List K) (offset n i : Nat) : ((l.drop offset).take n)[i]? = if i < n then l[offset + i]? else none := by
  rw [List.getElem?_take]
  split
  · rw [List.getElem?_drop]
  · rfl

theorem pokes_part (ws : List (Write K)) (a offset n : Nat) (hw : ∀ w ∈ ws, w.array = a → w.index < offset ∨ offset + n ≤ w.index) (h : Heap K) :
    ((pokes h ws a).drop offset).take n = ((h a).drop offset).take n := by
  apply List.ext_getElem?
  intro i
  rw [part_get, part_get]
  split
  · exact pokes_get ws a (offset + i) (fun w hm e => by have := hw w hm e; omega) h
  · rfl

theorem gets_heap (array : Nat → Nat) (other : Nat → List (Write K)) (c : Nat) (h : Heap K) : (gets array other c h).1 = pokes h ((List.range c).flatMap other) := by
  induction c with
  | zero => rfl
  | succ c ih =>
    show pokes (gets array other c h).1 (other c) = _
    rw [ih, List.range_succ, List.flatMap_append, pokes_append]
    simp

/-- The copy of an array is as it was when it was made. -/
theorem gets_got (array : Nat → Nat) (other : Nat → List (Write K)) (h : Heap K) : ∀ {c n : Nat}, c < n → (gets array other n h).2 c = pokes h ((List.range (c + 1)).flatMap other) (array c) := by
  intro c n
  induction n with
  | zero => intro hc; exact absurd hc (Nat.not_lt_zero _)
  | succ n ih =>
    intro hc
    show (if c = n then pokes (gets array other n h).1 (other n) (array n) else (gets array other n h).2 c) = _
    split
    · rename_i e
      rw [e, ← gets_heap array other (n + 1) h]
      rfl
    · exact ih (by omega)

theorem mem_range_flatMap {f : Nat → List (Write K)} {n : Nat} {w : Write K} (h : w ∈ (List.range n).flatMap f) : ∃ c < n, w ∈ f c := by
  obtain ⟨c, hc, hw⟩ := List.mem_flatMap.mp h
  exact ⟨c, List.mem_range.mp hc, hw⟩

/-- The writes of other threads leave this part of these arrays alone. -/
def Others.avoid (o : Others K) (array : Nat → Nat) (own channels offset n : Nat) : Prop := ∀ c < own, ∀ w ∈ o.all channels, w.array = array c → w.index < offset ∨ offset + n ≤ w.index

/-- **C136**: the stretcher is given the samples that are in the Java arrays, from the offset on, whether or not the virtual machine copies them and whatever other threads write to other parts of them meanwhile. -/
theorem C136 (copies : Nat → Bool) (call : σ → List (List K) → σ) {own channels offset n : Nat} (o : Others K) (array : Nat → Nat) (s : σ) (h : Heap K) (hc : own ≤ channels) (hl : ∀ c < own, offset + n ≤ (h (array c)).length)
    (ha : o.avoid array own channels offset n) :
    ∃ h', give copies call own o array channels offset n s h = some (call s ((List.range own).map fun c => ((h (array c)).drop offset).take n), h') := by
  have hall : ∀ w, (∃ c < channels, w ∈ o.get c) ∨ w ∈ o.call → w ∈ o.all channels := by
    rintro w (⟨c, hc, hw⟩ | hw)
    · exact List.mem_append_left _ (List.mem_flatMap.mpr ⟨c, List.mem_range.mpr hc, hw⟩)
    · exact List.mem_append_right _ (List.mem_append_left _ hw)
  have hb : ∀ c < own, ((if copies (array c) then (gets array o.get channels h).2 c else pokes (gets array o.get channels h).1 o.call (array c)).length = (h (array c)).length ∧
      ((if copies (array c) then (gets array o.get channels h).2 c else pokes (gets array o.get channels h).1 o.call (array c)).drop offset).take n = ((h (array c)).drop offset).take n) := by
    intro c hco
    split
    · rw [gets_got array o.get h (Nat.lt_of_lt_of_le hco hc)]
      refine ⟨pokes_length _ _ _, pokes_part _ _ _ _ (fun w hw e => ?_) h⟩
      obtain ⟨k, hk, hw⟩ := mem_range_flatMap hw
      exact ha c hco w (hall w (Or.inl ⟨k, by omega, hw⟩)) e
    · rw [gets_heap, ← pokes_append]
      refine ⟨pokes_length _ _ _, pokes_part _ _ _ _ (fun w hw e => ?_) h⟩
      rcases List.mem_append.mp hw with hw | hw
      · exact ha c hco w (hall w (Or.inl (mem_range_flatMap hw))) e
      · exact ha c hco w (hall w (Or.inr hw)) e
  unfold give
  simp only
  rw [if_pos ⟨hc, fun c hco => by rw [(hb c hco).1]; exact hl c hco⟩]
  rw [List.map_congr_left fun c hco => (hb c (List.mem_range.mp hco)).2]
  exact ⟨_, rfl⟩

/-! ## C137 -/

/-- **C137**: giving samples to the stretcher does not change the Java arrays: after the call, they are as the other threads have left them. -/
def C137_statement (K : Type) : Prop :=
  ∀ (σ : Type) (copies : Nat → Bool) (call : σ → List (List K) → σ) (own channels offset n : Nat) (o : Others K) (array : Nat → Nat) (s s' : σ) (h h' : Heap K), o.avoid array own channels offset n →
    give copies call own o array channels offset n s h = some (s', h') → h' = pokes h (o.all channels)

/-- What another thread writes to a part of the array that is not being given to the stretcher is lost, if the virtual machine copies arrays: the whole of the copy is written back. -/
theorem C137_violated : ¬ C137_statement Int := by
  intro hs
  have e := hs Unit (fun _ => true) (fun s _ => s) 1 1 0 1 { get := fun _ => [], call := [{ array := 0, index := 1, value := 7 }], release := fun _ => [] } (fun _ => 0) () () (fun _ => [1, 2]) _
    (by
      intro c hc w hw _
      simp [Others.all] at hw
      rw [hw]
      exact Or.inr (by decide)) rfl
  have e := congrFun e 0
  revert e
  decide

/-- An array that is not copied is only written by the other threads. -/
theorem releases_pinned (copies : Nat → Bool) (array : Nat → Nat) (got : Nat → List K) (other : Nat → List (Write K)) (a : Nat) (ha : copies a = false) (h : Heap K) :
    ∀ c, releases copies array got other c h a = pokes h ((List.range c).flatMap other) a := by
  have key : ∀ (ws : List (Write K)) (x y : Heap K), x a = y a → pokes x ws a = pokes y ws a := by
    intro ws
    induction ws with
    | nil => intro x y e; exact e
    | cons w ws ih =>
      intro x y e
      refine ih (poke x w) (poke y w) ?_
      unfold poke
      rw [e]
  intro c
  induction c with
  | zero => rfl
  | succ c ih =>
    show (if copies (array c) then store (pokes (releases copies array got other c h) (other c)) (array c) (got c) else pokes (releases copies array got other c h) (other c)) a = _
    have e : pokes (releases copies array got other c h) (other c) a = pokes h ((List.range (c + 1)).flatMap other) a := by
      rw [List.range_succ, List.flatMap_append, pokes_append]
      simp only [List.flatMap_cons, List.flatMap_nil, List.append_nil]
      exact key _ _ _ ih
    split
    · rename_i hcp
      unfold store
      rw [if_neg fun e => by rw [← e, ha] at hcp; cases hcp]
      exact e
    · exact e

/-- An array that other threads leave alone while it is released stays, if all its copies are equal to it. -/
theorem releases_same (copies : Nat → Bool) (array : Nat → Nat) (got : Nat → List K) (other : Nat → List (Write K)) (a : Nat) (h : Heap K) :
    ∀ c, (∀ k < c, ∀ w ∈ other k, w.array ≠ a) → (∀ k < c, array k = a → got k = h a) → releases copies array got other c h a = h a := by
  intro c
  induction c with
  | zero => intro _ _; rfl
  | succ c ih =>
    intro h1 h2
    have ih := ih (fun k hk => h1 k (by omega)) (fun k hk => h2 k (by omega))
    show (if copies (array c) then store (pokes (releases copies array got other c h) (other c)) (array c) (got c) else pokes (releases copies array got other c h) (other c)) a = _
    have e : pokes (releases copies array got other c h) (other c) a = h a := by rw [pokes_same _ _ (h1 c (by omega)), ih]
    split
    · unfold store
      split
      · rename_i ea
        exact h2 c (by omega) ea.symm
      · exact e
    · exact e

/-- **C137 (partial)**: an array that the virtual machine does not copy, or that other threads do not write to during the call, or that is none of the input, is as the other threads have left it.  Missing: arrays that are copied while
others write to them (`C137_violated`). -/
theorem C137_partial {copies : Nat → Bool} {call : σ → List (List K) → σ} {own channels offset n : Nat} {o : Others K} {array : Nat → Nat} {s s' : σ} {h h' : Heap K}
    (hg : give copies call own o array channels offset n s h = some (s', h')) (a : Nat) (ha : copies a = false ∨ (∀ w ∈ o.all channels, w.array ≠ a)) : h' a = pokes h (o.all channels) a := by
  unfold give at hg
  simp only at hg
  split at hg
  · obtain ⟨-, rfl⟩ := Prod.mk.inj (Option.some.inj hg)
    rw [gets_heap, ← pokes_append]
    rcases ha with ha | ha
    · rw [releases_pinned _ _ _ _ a ha, ← pokes_append]
      simp [Others.all]
    · have h1 : ∀ c < channels, ∀ w ∈ o.get c, w.array ≠ a := fun c hc w hw => ha w (List.mem_append_left _ (List.mem_flatMap.mpr ⟨c, List.mem_range.mpr hc, hw⟩))
      have h2 : ∀ w ∈ o.call, w.array ≠ a := fun w hw => ha w (List.mem_append_right _ (List.mem_append_left _ hw))
      have h3 : ∀ c < channels, ∀ w ∈ o.release c, w.array ≠ a := fun c hc w hw => ha w (List.mem_append_right _ (List.mem_append_right _ (List.mem_flatMap.mpr ⟨c, List.mem_range.mpr hc, hw⟩)))
      have e : pokes h ((List.range channels).flatMap o.get ++ o.call) a = h a := by
        refine pokes_same _ _ (fun w hw => ?_) h
        rcases List.mem_append.mp hw with hw | hw
        · obtain ⟨c, hc, hw⟩ := mem_range_flatMap hw; exact h1 c hc w hw
        · exact h2 w hw
      rw [releases_same _ _ _ _ a _ channels h3, e, pokes_same _ _ ha]
      intro k hk ek
      rw [gets_got _ _ _ hk, ek, e]
      refine pokes_same _ _ (fun w hw => ?_) h
      obtain ⟨c, hc, hw⟩ := mem_range_flatMap hw
      exact h1 c (by omega) w hw
  · cases hg

/-- **C137 (partial)**, in full if no other thread writes during the call. -/
theorem C137_alone_partial {copies : Nat → Bool} {call : σ → List (List K) → σ} {own channels offset n : Nat} {o : Others K} {array : Nat → Nat} {s s' : σ} {h h' : Heap K}
    (hg : give copies call own o array channels offset n s h = some (s', h')) (ha : o.all channels = []) : h' = h := by
  funext a
  rw [C137_partial hg a (Or.inr (by simp [ha])), ha]
  rfl

/-! ## C138 -/

theorem splice_get (l : List K) (offset : Nat) (x : List K) (hl : offset + x.length ≤ l.length) (i : Nat) : (splice l offset x)[i]? = if offset ≤ i ∧ i < offset + x.length then x[i - offset]? else l[i]? := by
  unfold splice
  have e : (l.take offset).length = offset := by rw [List.length_take]; omega
  by_cases h1 : i < offset
  · rw [List.append_assoc, List.getElem?_append_left (by omega), if_neg (by omega), List.getElem?_take_of_lt h1]
  · rw [List.append_assoc, List.getElem?_append_right (by omega), e]
    by_cases h2 : i < offset + x.length
    · rw [List.getElem?_append_left (by omega), if_pos (by omega)]
    · rw [List.getElem?_append_right (by omega), List.getElem?_drop, if_neg (by omega)]
      congr 1
      omega

theorem splice_length (l : List K) (offset : Nat) (x : List K) (hl : offset + x.length ≤ l.length) : (splice l offset x).length = l.length := by
  unfold splice
  simp
  omega

theorem pokes_get_congr (ws : List (Write K)) (a i : Nat) : ∀ x y : Heap K, (x a)[i]? = (y a)[i]? → (x a).length = (y a).length → (pokes x ws a)[i]? = (pokes y ws a)[i]? := by
  induction ws with
  | nil => intro x y e _; exact e
  | cons w ws ih =>
    intro x y e el
    refine ih (poke x w) (poke y w) ?_ ?_
    · unfold poke
      split
      · by_cases hi : w.index = i
        · subst hi
          rw [List.getElem?_set, List.getElem?_set, el, if_pos rfl, if_pos rfl]
        · rw [List.getElem?_set_ne hi, List.getElem?_set_ne hi, e]
      · exact e
    · rw [poke_length, poke_length, el]

/-- **C138**: what is retrieved is put into the Java arrays from the offset on, and nothing else in any array is changed, whatever other threads write elsewhere meanwhile. -/
theorem C138 (call : σ → Nat → σ × Nat × (Nat → List K)) (own : Nat) (other : Nat → List (Write K)) (array : Nat → Nat) (offset n : Nat) (s : σ) (h : Heap K) (hd : ∀ c < own, ∀ d < own, array c = array d → c = d)
    (hn : ∀ c, ((call s n).2.2 c).length = (call s n).2.1) (hl : ∀ c < own, offset + (call s n).2.1 ≤ (h (array c)).length)
    (ho : ∀ c < own, ∀ d < own, ∀ w ∈ other d, w.array = array c → w.index < offset ∨ offset + (call s n).2.1 ≤ w.index) :
    ∃ h', retrieve call own other array offset n s h = some ((call s n).1, (call s n).2.1, h') ∧
      (∀ c < own, ((h' (array c)).drop offset).take (call s n).2.1 = (call s n).2.2 c) ∧
      ∀ a i, (∀ c < own, a = array c → i < offset ∨ offset + (call s n).2.1 ≤ i) → (h' a)[i]? = (pokes h ((List.range own).flatMap other) a)[i]? := by
  unfold retrieve
  simp only
  generalize (call s n).2.1 = r at *
  generalize (call s n).2.2 = out at *
  have key : ∀ m, m ≤ own → ∃ h', regions array offset out other m h = some h' ∧ (∀ a, (h' a).length = (h a).length) ∧ (∀ c < m, ((h' (array c)).drop offset).take r = out c) ∧
      ∀ a i, (∀ c < own, a = array c → i < offset ∨ offset + r ≤ i) → (h' a)[i]? = (pokes h ((List.range m).flatMap other) a)[i]? := by
    intro m
    induction m with
    | zero => intro _; exact ⟨h, rfl, fun _ => rfl, fun c hc => absurd hc (Nat.not_lt_zero _), fun _ _ _ => rfl⟩
    | succ m ih =>
      intro hm
      obtain ⟨h1, e1, e2, e3, e4⟩ := ih (by omega)
      have hfit : offset + (out m).length ≤ (pokes h1 (other m) (array m)).length := by rw [pokes_length, e2, hn]; exact hl m (by omega)
      refine ⟨store (pokes h1 (other m)) (array m) (splice (pokes h1 (other m) (array m)) offset (out m)), ?_, ?_, ?_, ?_⟩
      · show (regions array offset out other m h >>= _) = _
        rw [e1]
        exact if_pos hfit
      · intro a
        unfold store
        split
        · rename_i ea
          rw [splice_length _ _ _ hfit, pokes_length, e2, ea]
        · rw [pokes_length, e2]
      · intro c hc
        unfold store
        split
        · rename_i ea
          have : c = m := hd c (by omega) m (by omega) ea
          subst this
          apply List.ext_getElem?
          intro i
          rw [part_get]
          split
          · rw [splice_get _ _ _ hfit, if_pos (by rw [hn]; omega)]
            congr 1
            omega
          · rw [List.getElem?_eq_none (by rw [hn]; omega)]
        · rw [pokes_part _ _ _ _ fun w hw e => ho c (by omega) m (by omega) w hw e]
          refine e3 c ?_
          rcases Nat.lt_succ_iff_lt_or_eq.mp hc with hc | rfl
          · exact hc
          · rename_i hne; exact absurd rfl hne
      · intro a i hi
        rw [List.range_succ, List.flatMap_append, pokes_append]
        simp only [List.flatMap_cons, List.flatMap_nil, List.append_nil]
        have e5 := pokes_get_congr (other m) a i h1 _ (e4 a i hi) (by rw [e2, pokes_length])
        rw [← e5]
        unfold store
        split
        · rename_i ea
          rw [splice_get _ _ _ hfit, if_neg (by rw [hn]; have := hi m (by omega) ea; omega), ea]
        · rfl
  obtain ⟨h', e1, _, e3, e4⟩ := key own (Nat.le_refl _)
  exact ⟨h', by rw [e1]; rfl, e3, e4⟩

/-! ## C139 -/

theorem writes_ne (copies : Nat → Bool) (outs : Nat → Nat) (outOffset : Nat) (out : Nat → List K) (h : Heap K) (a : Nat) : ∀ m, (∀ c < m, outs c ≠ a) → writes copies outs outOffset out m h a = h a := by
  intro m
  induction m with
  | zero => intro _; rfl
  | succ m ih =>
    intro hm
    show (if copies (outs m) then writes copies outs outOffset out m h else store (writes copies outs outOffset out m h) (outs m) _) a = _
    split
    · exact ih fun c hc => hm c (by omega)
    · unfold store
      rw [if_neg (Ne.symm (hm m (by omega)))]
      exact ih fun c hc => hm c (by omega)

theorem writes_copied (copies : Nat → Bool) (outs : Nat → Nat) (outOffset : Nat) (out : Nat → List K) (h : Heap K) (a : Nat) (ha : copies a = true) : ∀ m, writes copies outs outOffset out m h a = h a := by
  intro m
  induction m with
  | zero => rfl
  | succ m ih =>
    show (if copies (outs m) then writes copies outs outOffset out m h else store (writes copies outs outOffset out m h) (outs m) _) a = _
    split
    · exact ih
    · rename_i hc
      unfold store
      rw [if_neg fun e => hc (by rw [← e]; exact ha)]
      exact ih

theorem writes_out (copies : Nat → Bool) (outs : Nat → Nat) (outOffset : Nat) (out : Nat → List K) (h : Heap K) {channels : Nat} (hd : ∀ c < channels, ∀ d < channels, outs c = outs d → c = d) :
    ∀ m, m ≤ channels → ∀ c < m, copies (outs c) = false → writes copies outs outOffset out m h (outs c) = splice (h (outs c)) outOffset (out c) := by
  intro m
  induction m with
  | zero => intro _ c hc; exact absurd hc (Nat.not_lt_zero _)
  | succ m ih =>
    intro hm c hc hp
    show (if copies (outs m) then writes copies outs outOffset out m h else store (writes copies outs outOffset out m h) (outs m) _) (outs c) = _
    by_cases e : c = m
    · subst e
      rw [if_neg (by simp [hp])]
      unfold store
      rw [if_pos rfl, writes_ne _ _ _ _ _ _ c fun k hk e => by have := hd k (by omega) c (by omega) e; omega]
    · have hne : outs c ≠ outs m := fun ee => e (hd c (by omega) m (by omega) ee)
      split
      · exact ih (by omega) c (by omega) hp
      · unfold store
        rw [if_neg hne]
        exact ih (by omega) c (by omega) hp

theorem releaseBoth_pinned (copies : Nat → Bool) (ins outs : Nat → Nat) (gotIn gotOut : Nat → List K) (h : Heap K) (a : Nat) (ha : copies a = false) : ∀ m, releaseBoth copies ins outs gotIn gotOut m h a = h a := by
  intro m
  induction m with
  | zero => rfl
  | succ m ih =>
    have step : ∀ (x : Heap K) (b : Nat) (l : List K), (if copies b then store x b l else x) a = x a := by
      intro x b l
      split
      · rename_i hb
        unfold store
        rw [if_neg fun e => by rw [← e, ha] at hb; cases hb]
      · rfl
    exact (step _ _ _).trans ((step _ _ _).trans ih)

/-- The last release of an array is what stays. -/
theorem releaseBoth_copied (copies : Nat → Bool) (ins outs : Nat → Nat) (gotIn gotOut : Nat → List K) (h : Heap K) (a : Nat) (ha : copies a = true) : ∀ m,
    releaseBoth copies ins outs gotIn gotOut m h a = ((List.range m).flatMap fun c => (if ins c = a then [gotIn c] else []) ++ (if outs c = a then [gotOut c] else [])).getLastD (h a) := by
  intro m
  induction m with
  | zero => rfl
  | succ m ih =>
    have step : ∀ (x : Heap K) (b : Nat) (l : List K) (ls : List (List K)), x a = ls.getLastD (h a) → (if copies b then store x b l else x) a = (ls ++ if b = a then [l] else []).getLastD (h a) := by
      intro x b l ls e
      by_cases hb : b = a
      · subst hb
        rw [if_pos ha, if_pos rfl]
        unfold store
        rw [if_pos rfl]
        simp
      · rw [if_neg hb, List.append_nil, ← e]
        split
        · unfold store
          rw [if_neg (Ne.symm hb)]
        · rfl
    rw [List.range_succ, List.flatMap_append]
    simp only [List.flatMap_cons, List.flatMap_nil, List.append_nil]
    rw [← List.append_assoc]
    exact step _ _ _ _ (step _ _ _ _ ih)

/-- The output for each channel is in its array and nothing else is changed unless the output of some channel goes to the array of the input of a later one.  In place for each channel is fine, and so is one array for the input and
output of a channel. -/
theorem shift_output {copies : Nat → Bool} {call : σ → List (List K) → σ × (Nat → List K)} {n : Nat} {ins outs : Nat → Nat} {channels inOffset outOffset : Nat} {s s' : σ} {h h' : Heap K}
    (hd : ∀ c < channels, ∀ d < channels, outs c = outs d → c = d) (hlater : ∀ d < channels, ∀ c < d, outs c ≠ ins d) (hs : shift copies call n ins outs channels inOffset outOffset s h = some (s', h')) :
    (∀ c < channels, h' (outs c) = splice (h (outs c)) outOffset ((call s ((List.range channels).map fun c => ((h (ins c)).drop inOffset).take n)).2 c)) ∧ ∀ a, (∀ c < channels, a ≠ outs c) → h' a = h a := by
  unfold shift at hs
  split at hs
  · simp only at hs
    obtain ⟨-, rfl⟩ := Prod.mk.inj (Option.some.inj hs)
    generalize (call s ((List.range channels).map fun c => ((h (ins c)).drop inOffset).take n)).2 = out
    refine ⟨?_, ?_⟩
    · intro c hc
      cases hp : copies (outs c) with
      | false => rw [releaseBoth_pinned _ _ _ _ _ _ _ hp, writes_out _ _ _ _ _ hd channels (Nat.le_refl _) c hc hp]
      | true =>
        rw [releaseBoth_copied _ _ _ _ _ _ _ hp]
        have hsplit : List.range channels = List.range (c + 1) ++ (List.range (channels - (c + 1))).map (fun k => c + 1 + k) := by
          rw [← List.range_add]
          congr 1
          omega
        rw [hsplit, List.flatMap_append, List.range_succ, List.flatMap_append]
        have hz : (((List.range (channels - (c + 1))).map (fun k => c + 1 + k)).flatMap fun k => (if ins k = outs c then [h (ins k)] else []) ++ (if outs k = outs c then [splice (h (outs k)) outOffset (out k)] else [])) = [] := by
          rw [List.flatMap_eq_nil_iff]
          intro k hk
          obtain ⟨j, hj, rfl⟩ := List.mem_map.mp hk
          have hj := List.mem_range.mp hj
          rw [if_neg (Ne.symm (hlater (c + 1 + j) (by omega) c (by omega))), if_neg fun e => by have := hd _ (by omega) c hc e; omega]
          rfl
        rw [hz, List.append_nil]
        simp
    · intro a ha
      cases hp : copies a with
      | false => rw [releaseBoth_pinned _ _ _ _ _ _ _ hp, writes_ne _ _ _ _ _ _ channels fun c hc => Ne.symm (ha c hc)]
      | true =>
        rw [releaseBoth_copied _ _ _ _ _ _ _ hp, writes_copied _ _ _ _ _ _ hp]
        have : ∀ l : List (List K), (∀ x ∈ l, x = h a) → l.getLastD (h a) = h a := by
          intro l hl
          cases e : l.getLast? with
          | none => rw [List.getLastD_eq_getLast?, e]; rfl
          | some x => rw [List.getLastD_eq_getLast?, e]; exact hl x (List.mem_of_getLast? e)
        refine this _ fun x hx => ?_
        obtain ⟨c, hc, hx⟩ := List.mem_flatMap.mp hx
        have hc := List.mem_range.mp hc
        rw [if_neg (Ne.symm (ha c hc)), List.append_nil] at hx
        split at hx
        · rename_i e
          rw [← e]
          exact List.mem_singleton.mp hx
        · cases hx
  · cases hs

/-- **C139**: after a call of the live shifter with input and output in separate arrays, as the documentation asks (RubberBandLiveShifter.h:296-297), the output for each channel is in its array from the offset on, and nothing else in any
array is changed, whichever arrays the virtual machine copies.  The arrays for the input need not differ. -/
theorem C139 {copies : Nat → Bool} {call : σ → List (List K) → σ × (Nat → List K)} {n : Nat} {ins outs : Nat → Nat} {channels inOffset outOffset : Nat} {s s' : σ} {h h' : Heap K}
    (hd : ∀ c < channels, ∀ d < channels, outs c = outs d → c = d) (hsep : ∀ c < channels, ∀ d < channels, outs c ≠ ins d) (hs : shift copies call n ins outs channels inOffset outOffset s h = some (s', h')) :
    (∀ c < channels, h' (outs c) = splice (h (outs c)) outOffset ((call s ((List.range channels).map fun c => ((h (ins c)).drop inOffset).take n)).2 c)) ∧ ∀ a, (∀ c < channels, a ≠ outs c) → h' a = h a :=
  shift_output hd (fun d hdc c hc => hsep c (by omega) d hdc) hs

/-- Separate arrays are needed: if the output for a channel goes to another part of the array that is the input for a later one, it is lost when the input is copied back. -/
theorem C139_needs_separate : ∃ h' : Heap Int, shift (fun _ => true) (fun (s : Unit) _ => (s, fun _ => [0])) 1 (fun c => c) (fun c => 1 - c) 2 0 1 () (fun _ => [1, 2]) = some ((), h') ∧ h' 1 ≠ splice [1, 2] 1 [0] :=
  ⟨_, rfl, by decide⟩

/-! ## C140 -/

theorem fold_lookup (k : Nat) : ∀ (l : List (Int × Int)) (m : List (Nat × Nat)),
    (l.foldl (fun m p => CliMaps.put (CliMaps.toSize p.1) (CliMaps.toSize p.2) m) m).lookup k = (l.reverse.findSome? fun p => if CliMaps.toSize p.1 = k then some (CliMaps.toSize p.2) else none).or (m.lookup k) := by
  intro l
  induction l with
  | nil => intro m; rfl
  | cons p l ih =>
    intro m
    rw [List.foldl_cons, ih, CliMaps.put_lookup, List.reverse_cons, List.findSome?_append, Option.or_assoc]
    congr 1
    simp only [List.findSome?_cons, List.findSome?_nil]
    by_cases h : CliMaps.toSize p.1 = k
    · rw [if_pos h.symm, if_pos h]; rfl
    · rw [if_neg (Ne.symm h), if_neg h]; rfl

theorem fold_sorted : ∀ (l : List (Int × Int)) (m : List (Nat × Nat)), m.Pairwise (fun x y => x.1 < y.1) →
    (l.foldl (fun m p => CliMaps.put (CliMaps.toSize p.1) (CliMaps.toSize p.2) m) m).Pairwise fun x y => x.1 < y.1 := by
  intro l
  induction l with
  | nil => intro m h; exact h
  | cons p l ih => intro m h; exact ih _ (CliMaps.put_sorted _ _ _ h)

/-- **C140**: a key-frame map given in Java is the one that the stretcher gets: the frames that are its keys, and no others, are mapped to what is at them, in order, whatever the order of the keys. -/
theorem C140 (keys : List Int) (get : Int → Int) (hk : ∀ k ∈ keys, 0 ≤ k ∧ k < 2 ^ 63) (hg : ∀ k ∈ keys, 0 ≤ get k ∧ get k < 2 ^ 63) :
    (keyFramesOf keys get).Pairwise (fun x y => x.1 < y.1) ∧ ∀ k v, (k, v) ∈ keyFramesOf keys get ↔ (k : Int) ∈ keys ∧ get k = v := by
  have hs : (keyFramesOf keys get).Pairwise fun x y => x.1 < y.1 := fold_sorted _ [] List.Pairwise.nil
  refine ⟨hs, ?_⟩
  have hsize : ∀ n : Int, 0 ≤ n → n < 2 ^ 63 → ((CliMaps.toSize n : Nat) : Int) = n := by
    intro n h1 h2
    unfold CliMaps.toSize
    omega
  have hlook : ∀ k, (keyFramesOf keys get).lookup k = if (k : Int) ∈ keys then some (CliMaps.toSize (get k)) else none := by
    intro k
    unfold keyFramesOf keyFrames
    rw [fold_lookup, List.lookup_nil, Option.or_none]
    have hz : keys.zip (keys.map get) = keys.map fun k => (k, get k) := by
      clear hk hg hs
      induction keys with
      | nil => rfl
      | cons x l ih => rw [List.map_cons, List.zip_cons_cons, ih, List.map_cons]
    rw [hz, ← List.map_reverse, List.findSome?_map]
    split
    · rename_i hm
      have : ∀ l : List Int, (∀ x ∈ l, x ∈ keys) → (k : Int) ∈ l →
          l.findSome? ((fun p : Int × Int => if CliMaps.toSize p.1 = k then some (CliMaps.toSize p.2) else none) ∘ fun k => (k, get k)) = some (CliMaps.toSize (get k)) := by
        intro l
        induction l with
        | nil => intro _ h; cases h
        | cons x l ih =>
          intro hl hx
          rw [List.findSome?_cons]
          simp only [Function.comp]
          by_cases e : CliMaps.toSize x = k
          · have hxk := hk x (hl x (by simp))
            have := hsize x hxk.1 hxk.2
            rw [e] at this
            rw [if_pos e, this]
          · rw [if_neg e]
            refine ih (fun y hy => hl y (List.mem_cons_of_mem _ hy)) ?_
            rcases List.mem_cons.mp hx with hx | hx
            · have hkk := hk _ hm
              exact absurd (by have := hsize _ hkk.1 hkk.2; rw [← hx]; omega) e
            · exact hx
      exact this _ (fun x hx => List.mem_reverse.mp hx) (List.mem_reverse.mpr hm)
    · rename_i hm
      rw [List.findSome?_eq_none_iff]
      intro x hx
      have hx := List.mem_reverse.mp hx
      have hxk := hk x hx
      simp only [Function.comp]
      refine if_neg fun e => hm ?_
      have := hsize x hxk.1 hxk.2
      rw [e] at this
      rw [this]
      exact hx
  have hmem : ∀ (m : List (Nat × Nat)) (k v : Nat), m.Pairwise (fun x y => x.1 < y.1) → ((k, v) ∈ m ↔ m.lookup k = some v) := by
    intro m k v
    induction m with
    | nil => intro _; simp
    | cons x m ih =>
      intro hp
      rw [List.pairwise_cons] at hp
      obtain ⟨a, b⟩ := x
      rw [List.mem_cons, List.lookup_cons]
      by_cases e : k = a
      · subst e
        simp only [beq_self_eq_true, Option.some.injEq]
        constructor
        · rintro (h | h)
          · exact (Prod.mk.inj h).2.symm
          · exact absurd (hp.1 _ h) (Nat.lt_irrefl _)
        · rintro rfl; exact Or.inl rfl
      · rw [beq_false_of_ne e]
        simp only
        rw [← ih hp.2]
        exact ⟨fun h => h.resolve_left fun h => e (Prod.mk.inj h).1, Or.inr⟩
  intro k v
  rw [hmem _ _ _ hs, hlook k]
  constructor
  · intro h
    split at h
    · rename_i hm
      refine ⟨hm, ?_⟩
      have := hsize _ (hg _ hm).1 (hg _ hm).2
      rw [Option.some.inj h] at this
      exact this.symm
    · cases h
  · rintro ⟨hm, e⟩
    rw [if_pos hm]
    have := hsize _ (hg _ hm).1 (hg _ hm).2
    congr 1
    omega

/-! ## Examples -/

/-- C136, C137: two channels of a stretcher that keeps what it is given; another thread writes to an element that is not given. -/
example : (give (fun _ => true) (fun (s : List (List Int)) (x : List (List Int)) => s ++ x) 2 { get := fun _ => [], call := [{ array := 3, index := 0, value := 7 }], release := fun _ => [] } (fun c => c + 3) 2 1 2 [] fun _ => [1, 2, 3, 4]).map
    (fun r => (r.1, r.2 3, r.2 4)) = some ([[2, 3], [2, 3]], [1, 2, 3, 4], [1, 2, 3, 4]) := by decide

/-- C138: two channels, two samples. -/
example : (retrieve (fun (s : Unit) _ => (s, 2, fun c => [(c : Int), 5])) 2 (fun c => [{ array := c, index := 0, value := 9 }]) (fun c => c) 1 8 () fun _ => [1, 2, 3, 4]).map
    (fun r => (r.2.1, r.2.2 0, r.2.2 1)) = some (2, [9, 0, 5, 4], [9, 1, 5, 4]) := by decide

/-- C139: two channels, with separate arrays for the output; one array is copied. -/
example : (shift (fun a => a == 2) (fun (s : Unit) x => (s, fun c => (x.getD c []).map (10 * ·))) 2 (fun c => c) (fun c => c + 2) 2 1 0 () fun c => [(c : Int), 1, c]).map (fun r => (r.2 0, r.2 2, r.2 3)) =
    some ([0, 1, 0], [10, 0, 2], [10, 10, 3]) := by decide

/-- In place. -/
example : (shift (fun _ => true) (fun (s : Unit) x => (s, fun c => (x.getD c []).map (10 * ·))) 2 (fun c => c) (fun c => c) 2 1 1 () fun c => [(c : Int), 1, 2]).map (fun r => (r.2 0, r.2 1)) = some ([0, 10, 20], [1, 10, 20]) := by decide

/-- C140: keys out of order. -/
example : keyFramesOf [300, 0, 100] (fun k => 2 * k) = [(0, 0), (100, 200), (300, 600)] := by decide +kernel

end Verif.Jni
