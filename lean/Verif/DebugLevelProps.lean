import Verif.DebugLevel
import Mathlib.Data.List.Induction
/-!
# The debug level decides what is reported (C160)
-/

namespace Verif.DebugLevel

/-! ### What is claimed -/

/-- The default level and the level of each object, as documented (RubberBandStretcher.h `setDebugLevel`, `setDefaultDebugLevel`): the last that was set for the object, or the
default when it was made; the default is 0 if none was set. -/
def levels : List Op → Int × List Int :=
  List.foldl (fun f op =>
    match op with
    | .setDefaultDebugLevel l => (l, f.2)
    | .new _ _ _ => (f.1, f.2 ++ [f.1])
    | .setDebugLevel h l => (f.1, f.2.set h l)
    | .reconfigure _ _ => f) (0, [])

/-- The level is set for `h` in the course of a program. -/
def Sets (h : Nat) (ops : List Op) : Prop := ∃ l, Op.setDebugLevel h l ∈ ops

/-- C160: a message is reported if, and only if, its level is no more than that of its object. -/
def C160_statement : Prop := ∀ (ops : List Op) (h : Nat) (part : Part) (k l : Int) (b : Bool), (∀ c, part = .resampler c → 2 ≤ k) →
  (levels ops).2[h]? = some l → reported ops h part k = some b → (b = true ↔ k ≤ l)

/-! ### Proof -/

theorem after_concat (ops : List Op) (op : Op) : after (ops ++ [op]) = (after ops).step op := by
  unfold after
  rw [List.foldl_append]
  rfl

theorem modify_map_engine (objs : List Obj) (h : Nat) (f : Obj → Obj) (l : Int) (hf : ∀ o, (f o).engine = l) :
    (objs.modify h f).map Obj.engine = (objs.map Obj.engine).set h l := by
  apply List.ext_getElem?
  intro i
  rw [List.getElem?_map, List.getElem?_modify, List.getElem?_set, List.getElem?_map]
  by_cases e : h = i
  · subst e
    simp only [if_true, List.length_map]
    cases q : objs[h]? with
    | none => rw [if_neg (by have := List.getElem?_eq_none_iff.mp q; omega)]; rfl
    | some o => rw [if_pos (List.getElem?_eq_some_iff.mp q).1]; simp [hf]
  · simp [e]

theorem modify_map_same (objs : List Obj) (h : Nat) (f : Obj → Obj) (hf : ∀ o, (f o).engine = o.engine) :
    (objs.modify h f).map Obj.engine = objs.map Obj.engine := by
  apply List.ext_getElem?
  intro i
  rw [List.getElem?_map, List.getElem?_modify, List.getElem?_map]
  cases objs[i]? with
  | none => rfl
  | some o =>
    by_cases e : h = i <;> simp [e, hf]

theorem new_engine (d : Int) (kind : Kind) (bands n : Nat) : (Obj.new d kind bands n).engine = d := by cases kind <;> rfl

/-- The levels of the engines themselves are those claimed. -/
theorem engines (ops : List Op) : (after ops).default = (levels ops).1 ∧ (after ops).objs.map Obj.engine = (levels ops).2 := by
  induction ops using List.reverseRecOn with
  | nil => exact ⟨rfl, rfl⟩
  | append_singleton ops op ih =>
    rw [after_concat]
    unfold levels
    rw [List.foldl_append]
    change _ = (match op with
      | .setDefaultDebugLevel l => (l, (levels ops).2)
      | .new _ _ _ => ((levels ops).1, (levels ops).2 ++ [(levels ops).1])
      | .setDebugLevel h l => ((levels ops).1, (levels ops).2.set h l)
      | .reconfigure _ _ => levels ops).1 ∧ _ = (match op with
      | .setDefaultDebugLevel l => (l, (levels ops).2)
      | .new _ _ _ => ((levels ops).1, (levels ops).2 ++ [(levels ops).1])
      | .setDebugLevel h l => ((levels ops).1, (levels ops).2.set h l)
      | .reconfigure _ _ => levels ops).2
    cases op with
    | setDefaultDebugLevel l => exact ⟨rfl, ih.2⟩
    | new kind bands n =>
      refine ⟨ih.1, ?_⟩
      show List.map Obj.engine ((after ops).objs ++ [_]) = _
      rw [List.map_append, ih.2, List.map_singleton, new_engine, ih.1]
    | setDebugLevel h l =>
      refine ⟨ih.1, ?_⟩
      show List.map Obj.engine ((after ops).objs.modify h _) = _
      rw [modify_map_engine _ _ _ l (fun _ => rfl), ih.2]
    | reconfigure h n =>
      refine ⟨ih.1, ?_⟩
      show List.map Obj.engine ((after ops).objs.modify h _) = _
      rw [modify_map_same _ _ (fun o => o.reconfigure n) (fun _ => rfl), ih.2]

theorem engine_level {ops : List Op} {h : Nat} {o : Obj} {l : Int} (ho : (after ops).objs[h]? = some o) (hl : (levels ops).2[h]? = some l) : o.engine = l := by
  rw [← (engines ops).2, List.getElem?_map, ho] at hl
  exact Option.some.inj hl

/-- What was made of an object before the last step. -/
theorem before {ops : List Op} {op : Op} {h : Nat} {o : Obj} (ho : (after (ops ++ [op])).objs[h]? = some o) :
    (∃ d kind bands n, o = Obj.new d kind bands n) ∨
    ∃ o', (after ops).objs[h]? = some o' ∧ (o = o' ∨ (∃ l, op = .setDebugLevel h l ∧ o = o'.setDebugLevel l) ∨ ∃ n, op = .reconfigure h n ∧ o = o'.reconfigure n) := by
  rw [after_concat] at ho
  cases op with
  | setDefaultDebugLevel l => exact Or.inr ⟨o, ho, Or.inl rfl⟩
  | new kind bands n =>
    change ((after ops).objs ++ [_])[h]? = some o at ho
    rw [List.getElem?_append] at ho
    split at ho
    · exact Or.inr ⟨o, ho, Or.inl rfl⟩
    · have := List.mem_of_getElem? ho
      rw [List.mem_singleton] at this
      exact Or.inl ⟨_, _, _, _, this⟩
  | setDebugLevel h' l =>
    change ((after ops).objs.modify h' _)[h]? = some o at ho
    rw [List.getElem?_modify] at ho
    obtain ⟨o', q, e⟩ := Option.map_eq_some_iff.mp ho
    refine Or.inr ⟨o', q, ?_⟩
    by_cases r : h' = h
    · subst r
      rw [if_pos rfl] at e
      exact Or.inr (Or.inl ⟨l, rfl, e.symm⟩)
    · rw [if_neg r] at e
      exact Or.inl e.symm
  | reconfigure h' n =>
    change ((after ops).objs.modify h' _)[h]? = some o at ho
    rw [List.getElem?_modify] at ho
    obtain ⟨o', q, e⟩ := Option.map_eq_some_iff.mp ho
    refine Or.inr ⟨o', q, ?_⟩
    by_cases r : h' = h
    · subst r
      rw [if_pos rfl] at e
      exact Or.inr (Or.inr ⟨n, rfl, e.symm⟩)
    · rw [if_neg r] at e
      exact Or.inl e.symm

/-- The guide and the guided phase advances have the level of the engine. -/
structure Obj.Followed (o : Obj) : Prop where
  guide : ∀ l, o.guide = some l → l = o.engine
  guided : ∀ l ∈ o.guided, l = o.engine

theorem followed (ops : List Op) : ∀ (h : Nat) (o : Obj), (after ops).objs[h]? = some o → o.Followed := by
  induction ops using List.reverseRecOn with
  | nil => intro h o ho; cases ho
  | append_singleton ops op ih =>
    intro h o ho
    rcases before ho with ⟨d, kind, bands, n, rfl⟩ | ⟨o', q, rfl | ⟨l, _, rfl⟩ | ⟨n, _, rfl⟩⟩
    · cases kind with
      | faster rt => exact ⟨fun l e => (by cases e), fun l e => (by cases e)⟩
      | finer => exact ⟨fun l e => (Option.some.inj e).symm, fun l e => (List.mem_replicate.mp e).2⟩
      | live => exact ⟨fun l e => (Option.some.inj e).symm, fun l e => (List.mem_replicate.mp e).2⟩
    · exact ih h o q
    · refine ⟨fun x e => ?_, fun x e => ?_⟩
      · obtain ⟨_, _, e⟩ := Option.map_eq_some_iff.mp e
        exact e.symm
      · obtain ⟨_, _, e⟩ := List.mem_map.mp e
        exact e.symm
    · exact ⟨(ih h o' q).guide, (ih h o' q).guided⟩

theorem new_kind (d : Int) (kind : Kind) (bands n : Nat) : (Obj.new d kind bands n).kind = kind := by cases kind <;> rfl

theorem new_resamplers (d : Int) (kind : Kind) (bands n : Nat) : (Obj.new d kind bands n).resamplers = List.replicate n (resamplerLevel kind d) := by cases kind <;> rfl

/-- Where the level was not set, all parts have that of the engine. -/
theorem unset (ops : List Op) (h : Nat) : ¬ Sets h ops → ∀ (o : Obj), (after ops).objs[h]? = some o →
    (∀ l, o.calculator = some l → l = o.engine) ∧ ∀ l ∈ o.resamplers, l = resamplerLevel o.kind o.engine := by
  induction ops using List.reverseRecOn with
  | nil => intro _ o ho; cases ho
  | append_singleton ops op ih =>
    intro hs o ho
    have hs' : ¬ Sets h ops := fun ⟨l, e⟩ => hs ⟨l, List.mem_append_left _ e⟩
    rcases before ho with ⟨d, kind, bands, n, rfl⟩ | ⟨o', q, rfl | ⟨l, rfl, _⟩ | ⟨n, _, rfl⟩⟩
    · refine ⟨fun l e => ?_, fun l e => ?_⟩
      · rw [new_engine]
        cases kind with
        | faster rt => exact (Option.some.inj e).symm
        | finer => exact (Option.some.inj e).symm
        | live => cases e
      · rw [new_resamplers] at e
        rw [new_engine, new_kind]
        exact (List.mem_replicate.mp e).2
    · exact ih hs' o q
    · exact absurd ⟨l, List.mem_append_right _ (List.mem_singleton.mpr rfl)⟩ hs
    · obtain ⟨a, b⟩ := ih hs' o' q
      refine ⟨fun l e => ?_, fun l e => ?_⟩
      · change (if o'.kind = .faster false then some o'.engine else o'.calculator) = some l at e
        split at e
        · exact (Option.some.inj e).symm
        · exact a l e
      · rcases List.mem_append.mp e with e | e
        · exact b l e
        · exact (List.mem_replicate.mp e).2

/-- A calculator made by the last `reconfigure` of an offline stretcher has the level of the engine. -/
theorem renewed (pre post : List Op) (h n : Nat) (hs : ¬ Sets h post) : ∀ (o : Obj), (after (pre ++ .reconfigure h n :: post)).objs[h]? = some o → h < (after pre).objs.length →
    o.kind = .faster false → o.calculator = some o.engine := by
  induction post using List.reverseRecOn with
  | nil =>
    intro o ho hlt hk
    rw [after_concat] at ho
    change ((after pre).objs.modify h _)[h]? = some o at ho
    rw [List.getElem?_modify] at ho
    obtain ⟨o', q, e⟩ := Option.map_eq_some_iff.mp ho
    rw [if_pos rfl] at e
    rw [← e] at hk ⊢
    exact if_pos hk
  | append_singleton post op ih =>
    intro o ho hlt hk
    have hs' : ¬ Sets h post := fun ⟨l, e⟩ => hs ⟨l, List.mem_append_left _ e⟩
    rw [show pre ++ .reconfigure h n :: (post ++ [op]) = (pre ++ .reconfigure h n :: post) ++ [op] by simp] at ho
    rcases before ho with ⟨d, kind, bands, n, rfl⟩ | ⟨o', q, rfl | ⟨l, rfl, _⟩ | ⟨n, _, rfl⟩⟩
    · rw [new_kind] at hk
      rw [hk]
      rfl
    · exact ih hs' o q hlt hk
    · exact absurd ⟨l, List.mem_append_right _ (List.mem_singleton.mpr rfl)⟩ hs
    · exact if_pos hk

theorem reports_iff (l k : Int) : reports l k = true ↔ k ≤ l := by
  unfold reports
  exact decide_eq_true_iff

/-- **C160 (partial).**  Messages of the engine itself, of the guide and of the guided phase advances are reported if, and only if, their level is no more than the last that was set
for their stretcher or live shifter, or if none was set for it, than the default when it was made; whatever is done with others, and whatever the default is later.
Missing: stretch calculator and resamplers, of which it is false (`C160_violated`). -/
theorem C160_partial (ops : List Op) (h : Nat) (part : Part) (k l : Int) (b : Bool) (hp : part = .engine ∨ part = .guide ∨ ∃ i, part = .guided i)
    (hl : (levels ops).2[h]? = some l) (hb : reported ops h part k = some b) : b = true ↔ k ≤ l := by
  obtain ⟨o, ho, hb⟩ := Option.bind_eq_some_iff.mp hb
  have he := engine_level ho hl
  have hf := followed ops h o ho
  rcases hp with rfl | rfl | ⟨i, rfl⟩
  · cases hb
    rw [reports_iff, he]
  · obtain ⟨x, hx, e⟩ := Option.map_eq_some_iff.mp hb
    rw [← e, reports_iff, hf.guide x hx, he]
  · obtain ⟨x, hx, e⟩ := Option.map_eq_some_iff.mp hb
    rw [← e, reports_iff, hf.guided x (List.mem_of_getElem? hx), he]

/-- **C160 (partial), where the level is not set.**  If `setDebugLevel` is not called for it, a stretcher or live shifter reports messages of all its parts if, and only if, their level
is no more than the default when it was made. -/
theorem C160_unset_partial (ops : List Op) (h : Nat) (part : Part) (k l : Int) (b : Bool) (hk : ∀ c, part = .resampler c → 2 ≤ k) (hs : ¬ Sets h ops)
    (hl : (levels ops).2[h]? = some l) (hb : reported ops h part k = some b) : b = true ↔ k ≤ l := by
  have hb' := hb
  obtain ⟨o, ho, hb⟩ := Option.bind_eq_some_iff.mp hb
  have he := engine_level ho hl
  obtain ⟨u1, u2⟩ := unset ops h hs o ho
  cases part with
  | engine => exact C160_partial ops h _ k l b (Or.inl rfl) hl hb'
  | guide => exact C160_partial ops h _ k l b (Or.inr (Or.inl rfl)) hl hb'
  | guided i => exact C160_partial ops h _ k l b (Or.inr (Or.inr ⟨i, rfl⟩)) hl hb'
  | calculator =>
    obtain ⟨x, hx, e⟩ := Option.map_eq_some_iff.mp hb
    rw [← e, reports_iff, u1 x hx, he]
  | resampler c =>
    obtain ⟨x, hx, e⟩ := Option.map_eq_some_iff.mp hb
    have hk := hk c rfl
    have hx := u2 x (List.mem_of_getElem? hx)
    rw [he] at hx
    rw [← e, decide_eq_true_iff, hx]
    unfold resamplerLevel
    split <;> split <;> omega

/-- **C160 (partial), the calculator offline.**  The calculator of an offline stretcher of the faster engine reports as it should after a change of ratios or the like, until the level is
set again. -/
theorem C160_offline_partial (pre post : List Op) (h n : Nat) (k l : Int) (b : Bool) (hs : ¬ Sets h post) (hlt : h < (levels pre).2.length)
    (hkind : ∀ o, (after (pre ++ .reconfigure h n :: post)).objs[h]? = some o → o.kind = .faster false)
    (hl : (levels (pre ++ .reconfigure h n :: post)).2[h]? = some l) (hb : reported (pre ++ .reconfigure h n :: post) h .calculator k = some b) : b = true ↔ k ≤ l := by
  obtain ⟨o, ho, hb⟩ := Option.bind_eq_some_iff.mp hb
  have he := engine_level ho hl
  rw [← (engines pre).2, List.length_map] at hlt
  have hc := renewed pre post h n hs o ho hlt (hkind o ho)
  obtain ⟨x, hx, e⟩ := Option.map_eq_some_iff.mp hb
  rw [hc] at hx
  cases hx
  rw [← e, reports_iff, he]

/-- C160 is false of the code: a stretcher of the finer engine made when the default is 2 and then set to 0 still reports what the calculator has to tell at level 2
(StretchCalculator.cpp:504, at each step of processing). -/
theorem C160_violated : ¬ C160_statement := by
  intro h
  have := h [.setDefaultDebugLevel 2, .new .finer 3 1, .setDebugLevel 0 0] 0 .calculator 2 0 true (fun c e => (by cases e)) rfl rfl
  exact absurd (this.mp rfl) (by decide)

/-- So too the other way: a stretcher that is set to 2 does not report it (here of the faster engine in real time). -/
theorem C160_violated_silent : ∃ ops, (levels ops).2[0]? = some 2 ∧ reported ops 0 .calculator 2 = some false :=
  ⟨[.new (.faster true) 0 1, .setDebugLevel 0 2, .reconfigure 0 0], rfl, rfl⟩

/-! ### Cases -/

/-- Two objects with different levels, and the default changed between. -/
def Ex.ops : List Op := [.setDefaultDebugLevel 1, .new .live 3 2, .setDefaultDebugLevel 3, .new .finer 3 1, .setDebugLevel 0 2, .new (.faster false) 0 0, .setDebugLevel 2 0, .reconfigure 2 1]

example : (levels Ex.ops).2 = [2, 3, 0] := rfl
example : reported Ex.ops 0 (.guided 1) 2 = some true ∧ reported Ex.ops 0 .guide 3 = some false := ⟨rfl, rfl⟩
example : ¬ Sets 1 Ex.ops ∧ reported Ex.ops 1 .calculator 3 = some true ∧ reported Ex.ops 1 (.resampler 0) 4 = some false := by
  refine ⟨?_, rfl, rfl⟩
  rintro ⟨l, h⟩
  simp [Ex.ops] at h
example : reported Ex.ops 2 .calculator 1 = some false ∧ ∃ pre post, Ex.ops = pre ++ .reconfigure 2 1 :: post ∧ ¬ Sets 2 post ∧ 2 < (levels pre).2.length :=
  ⟨rfl, [.setDefaultDebugLevel 1, .new .live 3 2, .setDefaultDebugLevel 3, .new .finer 3 1, .setDebugLevel 0 2, .new (.faster false) 0 0, .setDebugLevel 2 0], [], rfl,
    fun ⟨_, h⟩ => (by cases h), by decide⟩

end Verif.DebugLevel
