import Verif.VampParams
import Mathlib.Tactic.Linarith
import Mathlib.Tactic.NormNum
/-!
# The Vamp plugin: parameters are what they are called (C157)
-/
namespace Verif.VampParams
open Verif.Vamp (Output)
open Verif.CApi (U32 Name)

/-- The value a host last set for a parameter, or else `d`. -/
def asked (ops : List Op) (id : String) (d : ℚ) : ℚ :=
  ((ops.filterMap fun o => match o with | .set i v => if i = id then some v else none | _ => none).getLast?).getD d

/-- The value is one that is announced. -/
def Parameter.Allows (p : Parameter) (v : ℚ) : Prop := (p.min : ℚ) ≤ v ∧ v ≤ p.max ∧ (p.quantized = true → ∃ n : Int, v = n)

/-- No value is beyond what an `int` can hold. -/
def Sane (ops : List Op) : Prop := ∀ id v, Op.set id v ∈ ops → -2147483648 ≤ v ∧ v ≤ 2147483646

/-- The option that goes by the name of a value of a parameter. -/
def choice (id name : String) : Option Name :=
  if id = "mode" then (if name = "Offline" then some .ProcessOffline else if name = "Real Time" then some .ProcessRealTime else none)
  else if id = "stretchtype" then (if name = "Elastic" then some .StretchElastic else if name = "Precise" then some .StretchPrecise else none)
  else if id = "transientmode" then (if name = "Mixed" then some .TransientsMixed else if name = "Smooth" then some .TransientsSmooth else if name = "Crisp" then some .TransientsCrisp else none)
  else if id = "phasemode" then (if name = "Laminar" then some .PhaseLaminar else if name = "Independent" then some .PhaseIndependent else none)
  else if id = "windowmode" then (if name = "Standard" then some .WindowStandard else if name = "Short" then some .WindowShort else if name = "Long" then some .WindowLong else none)
  else none

/-- The name of a value of a parameter. -/
def Parameter.name (p : Parameter) (v : ℚ) : Option String := p.names[(⌊v⌋ - p.min).toNat]?

/-! ### Proofs -/

/-- The members for these values of the parameters. -/
def settingsOf (f : String → ℚ) : Settings where
  timeRatio := f "timeratio" / 100
  pitchRatio := f "pitchratio" / 100
  realtime := decide (f "mode" > 1 / 2)
  elasticTiming := !decide (f "stretchtype" > 1 / 2)
  transientMode := if 0 ≤ f "transientmode" + 1 / 2 then ⌊f "transientmode" + 1 / 2⌋ else ⌈f "transientmode" + 1 / 2⌉
  phaseIndependent := decide (f "phasemode" > 1 / 2)
  windowLength := if 0 ≤ f "windowmode" + 1 / 2 then ⌊f "windowmode" + 1 / 2⌋ else ⌈f "windowmode" + 1 / 2⌉

/-- The defaults. -/
def defaults (id : String) : ℚ := if id = "timeratio" ∨ id = "pitchratio" then 100 else 0

theorem toInt_some {x : ℚ} (h1 : -2147483648 ≤ x) (h2 : x < 2147483648) : toInt x = some (if 0 ≤ x then ⌊x⌋ else ⌈x⌉) := by
  unfold toInt
  simp only
  rw [if_pos]
  have c1 : (-2147483648 : Int) ≤ ⌊x⌋ := Int.le_floor.mpr (by push_cast; exact h1)
  have c2 : ⌊x⌋ < (2147483648 : Int) := Int.floor_lt.mpr (by push_cast; exact h2)
  split
  · exact ⟨c1, by omega⟩
  · next hx =>
    have hx := not_le.mp hx
    have d1 : ⌈x⌉ ≤ 0 := Int.ceil_le.mpr (by push_cast; exact hx.le)
    have d2 : ⌊x⌋ ≤ ⌈x⌉ := Int.floor_le_ceil x
    exact ⟨by omega, by omega⟩

theorem set_eq (f : String → ℚ) (id : String) (v : ℚ) (h1 : -2147483648 ≤ v) (h2 : v ≤ 2147483646) :
    setParameter id v (settingsOf f) = some (settingsOf fun x => if x = id then v else f x) := by
  have ht : toInt (v + 1 / 2) = some (if 0 ≤ v + 1 / 2 then ⌊v + 1 / 2⌋ else ⌈v + 1 / 2⌉) := toInt_some (by linarith) (by linarith)
  unfold setParameter
  simp only [ht, Option.map_some]
  by_cases e1 : id = "timeratio"
  · subst e1; simp [settingsOf]
  by_cases e2 : id = "pitchratio"
  · subst e2; simp [settingsOf]
  by_cases e3 : id = "mode"
  · subst e3; simp [settingsOf]
  by_cases e4 : id = "stretchtype"
  · subst e4; simp [settingsOf]
  by_cases e5 : id = "transientmode"
  · subst e5; simp [settingsOf]
  by_cases e6 : id = "phasemode"
  · subst e6; simp [settingsOf]
  by_cases e7 : id = "windowmode"
  · subst e7; simp [settingsOf]
  simp [settingsOf, e1, e2, e3, e4, e5, e6, e7, Ne.symm e1, Ne.symm e2, Ne.symm e3, Ne.symm e4, Ne.symm e5, Ne.symm e6, Ne.symm e7]

theorem asked_cons (o : Op) (os : List Op) (id : String) (d : ℚ) :
    asked (o :: os) id d = asked os id (match o with | .set i v => if i = id then v else d | _ => d) := by
  unfold asked
  cases o with
  | set i v =>
    by_cases h : i = id
    · simp only [List.filterMap_cons, if_pos h, List.getLast?_cons, Option.getD_some]
    · simp only [List.filterMap_cons, if_neg h]
  | describe => simp only [List.filterMap_cons]
  | initialise c => simp only [List.filterMap_cons]

theorem run_settings : ∀ (ops : List Op) (f : String → ℚ) (s : State), Sane ops → s.settings = settingsOf f →
    ∃ s', run ops s = some s' ∧ s'.settings = settingsOf fun id => asked ops id (f id)
  | [], f, s, _, h => ⟨s, rfl, h⟩
  | o :: os, f, s, hs, h => by
    have hs' : Sane os := fun id v hm => hs id v (List.mem_cons_of_mem _ hm)
    simp only [asked_cons]
    cases o with
    | set i v =>
      have hv := hs i v List.mem_cons_self
      obtain ⟨s', h1, h2⟩ := run_settings os (fun x => if x = i then v else f x) { s with settings := settingsOf fun x => if x = i then v else f x } hs' rfl
      refine ⟨s', ?_, ?_⟩
      · simp only [run, step, h, set_eq f i v hv.1 hv.2, Option.map_some, Option.bind_some]
        exact h1
      · rw [h2]
        congr 1
        funext id
        by_cases e : id = i
        · subst e; simp
        · simp [e, Ne.symm e]
    | describe => exact run_settings os f { s with output := (number identifiers [] s.output).2 } hs' h
    | initialise c =>
      by_cases hc : c < 1 ∨ c > 1
      · simp only [run, step, if_pos hc, Option.bind_some]
        exact run_settings os f s hs' h
      · simp only [run, step, if_neg hc, Option.bind_some]
        exact run_settings os f { s with stretcher := some ⟨c, options s.settings, s.settings.timeRatio, s.settings.pitchRatio⟩ } hs' h

theorem start_eq : State.start.settings = settingsOf defaults := by
  simp [State.start, Settings.start, settingsOf, defaults]
  norm_num

/-- Where a parameter is kept. -/
theorem get_eq (f : String → ℚ) (p : Parameter) (hp : p ∈ parameters) :
    getParameter (settingsOf f) p.id =
      if p.quantized = false then f p.id
      else if p.max = 1 then (if f p.id > 1 / 2 then 1 else 0)
      else ((if 0 ≤ f p.id + 1 / 2 then ⌊f p.id + 1 / 2⌋ else ⌈f p.id + 1 / 2⌉ : Int) : ℚ) := by
  simp only [parameters, List.mem_cons, List.not_mem_nil, or_false] at hp
  rcases hp with rfl | rfl | rfl | rfl | rfl | rfl | rfl
  · simp [getParameter, settingsOf]
  · simp [getParameter, settingsOf]
  · simp [getParameter, settingsOf]
  · simp only [getParameter, settingsOf]
    rcases le_or_gt (f "stretchtype") 2⁻¹ with h | h
    · simp [not_lt.mpr h]
    · simp [h]
  · simp [getParameter, settingsOf]
  · simp [getParameter, settingsOf]
  · simp [getParameter, settingsOf]

theorem asked_default (ops : List Op) (p : Parameter) (hp : p ∈ parameters) : asked ops p.id (defaults p.id) = asked ops p.id p.default := by
  congr 1
  simp only [parameters, List.mem_cons, List.not_mem_nil, or_false] at hp
  rcases hp with rfl | rfl | rfl | rfl | rfl | rfl | rfl <;> simp [defaults]

theorem bounds (p : Parameter) (hp : p ∈ parameters) : p.quantized = true → p.min = 0 ∧ (p.max = 1 ∨ p.max = 2) := by
  simp only [parameters, List.mem_cons, List.not_mem_nil, or_false] at hp
  rcases hp with rfl | rfl | rfl | rfl | rfl | rfl | rfl <;> simp

/-- What is read when a value in range was set. -/
theorem read_near (f : String → ℚ) (p : Parameter) (hp : p ∈ parameters) (h1 : (p.min : ℚ) ≤ f p.id) (h2 : f p.id ≤ p.max) :
    p.Allows (getParameter (settingsOf f) p.id) ∧ |getParameter (settingsOf f) p.id - f p.id| ≤ 1 / 2 ∧ (p.Allows (f p.id) → getParameter (settingsOf f) p.id = f p.id) := by
  rw [get_eq f p hp]
  cases hq : p.quantized with
  | false =>
    rw [if_pos rfl]
    refine ⟨⟨h1, h2, fun e => ?_⟩, by simp, fun _ => rfl⟩
    rw [hq] at e; exact absurd e (by simp)
  | true =>
    rw [if_neg (by simp)]
    obtain ⟨b1, b2⟩ := bounds p hp hq
    rw [b1] at h1
    push_cast at h1
    by_cases hm : p.max = 1
    · rw [if_pos hm]
      rw [hm] at h2
      push_cast at h2
      by_cases hv : f p.id > 1 / 2
      · rw [if_pos hv]
        refine ⟨⟨by rw [b1]; norm_num, by rw [hm]; norm_num, fun _ => ⟨1, by norm_num⟩⟩, abs_le.mpr ⟨by linarith, by linarith⟩, fun h => ?_⟩
        obtain ⟨n, hn⟩ := h.2.2 hq
        rw [hn] at hv h2 ⊢
        have a1 : n ≤ 1 := by exact_mod_cast h2
        have a2 : (0 : Int) < n := by
          have : (0 : ℚ) < n := by linarith
          exact_mod_cast this
        have : n = 1 := by omega
        rw [this]; norm_num
      · rw [if_neg hv]
        have hv := not_lt.mp hv
        refine ⟨⟨by rw [b1]; norm_num, by rw [hm]; norm_num, fun _ => ⟨0, by norm_num⟩⟩, abs_le.mpr ⟨by linarith, by linarith⟩, fun h => ?_⟩
        obtain ⟨n, hn⟩ := h.2.2 hq
        rw [hn] at hv h1 ⊢
        have a1 : 0 ≤ n := by exact_mod_cast h1
        have a2 : n < 1 := by
          have : (n : ℚ) < 1 := by linarith
          exact_mod_cast this
        have : n = 0 := by omega
        rw [this]; norm_num
    · rw [if_neg hm, if_pos (by linarith)]
      have hm2 : p.max = 2 := by omega
      rw [hm2] at h2
      push_cast at h2
      have c1 := Int.floor_le (f p.id + 1 / 2)
      have c2 := Int.lt_floor_add_one (f p.id + 1 / 2)
      have c3 : 0 ≤ ⌊f p.id + 1 / 2⌋ := Int.floor_nonneg.mpr (by linarith)
      have c4 : ⌊f p.id + 1 / 2⌋ < 3 := Int.floor_lt.mpr (by push_cast; linarith)
      have c5 : ⌊f p.id + 1 / 2⌋ ≤ 2 := by omega
      refine ⟨⟨by rw [b1]; exact_mod_cast c3, by rw [hm2]; exact_mod_cast c5, fun _ => ⟨_, rfl⟩⟩, abs_le.mpr ⟨by linarith, by linarith⟩, fun h => ?_⟩
      obtain ⟨n, hn⟩ := h.2.2 hq
      have : ⌊f p.id + 1 / 2⌋ = n := by
        rw [Int.floor_eq_iff, hn]
        constructor <;> linarith
      rw [this, hn]

/-- **C157** (1).  Whatever parameters a host sets, in whatever order and however often, each is read as it was last set if that is a value that is announced for it; if it is only in the range, the value that is read is one that
is announced, no more than 1/2 from the one set.  What was never set has the default announced. -/
theorem C157_parameters (ops : List Op) (hs : Sane ops) :
    ∃ s, run ops .start = some s ∧ ∀ p ∈ parameters,
      (p.Allows (asked ops p.id p.default) → getParameter s.settings p.id = asked ops p.id p.default) ∧
      ((p.min : ℚ) ≤ asked ops p.id p.default → asked ops p.id p.default ≤ p.max → p.Allows (getParameter s.settings p.id) ∧ |getParameter s.settings p.id - asked ops p.id p.default| ≤ 1 / 2) := by
  obtain ⟨s, h1, h2⟩ := run_settings ops defaults .start hs start_eq
  refine ⟨s, h1, fun p hp => ?_⟩
  rw [h2, ← asked_default ops p hp]
  have key := read_near (fun id => asked ops id (defaults id)) p hp
  exact ⟨fun h => (key h.1 h.2.1).2.2 h, fun a b => ⟨(key a b).1, (key a b).2.1⟩⟩

theorem options_eq (s : Settings) (h1 : 0 ≤ s.transientMode) (h2 : s.transientMode ≤ 2) (h3 : 0 ≤ s.windowLength) (h4 : s.windowLength ≤ 2) :
    (parameters.filterMap fun p => (p.name (getParameter s p.id)).bind (choice p.id)).length = 5 ∧
    options s = (parameters.filterMap fun p => (p.name (getParameter s p.id)).bind (choice p.id)).foldl (fun o n => o ||| n.cpp) 0#32 := by
  obtain ⟨a, b, r, e, t, ph, w⟩ := s
  simp only at h1 h2 h3 h4
  have ht : t = 0 ∨ t = 1 ∨ t = 2 := by omega
  have hw : w = 0 ∨ w = 1 ∨ w = 2 := by omega
  have e1 : ∀ q : ℚ, Parameter.name ⟨"timeratio", 1, 500, 100, false, []⟩ q = none := fun q => by simp [Parameter.name]
  have e2 : ∀ q : ℚ, Parameter.name ⟨"pitchratio", 1, 500, 100, false, []⟩ q = none := fun q => by simp [Parameter.name]
  have e3 : (Parameter.name ⟨"mode", 0, 1, 0, true, ["Offline", "Real Time"]⟩ (getParameter ⟨a, b, r, e, t, ph, w⟩ "mode")).bind (choice "mode") = some (if r then .ProcessRealTime else .ProcessOffline) := by
    cases r <;> simp [getParameter, Parameter.name, choice]
  have e4 : (Parameter.name ⟨"stretchtype", 0, 1, 0, true, ["Elastic", "Precise"]⟩ (getParameter ⟨a, b, r, e, t, ph, w⟩ "stretchtype")).bind (choice "stretchtype") = some (if e then .StretchElastic else .StretchPrecise) := by
    cases e <;> simp [getParameter, Parameter.name, choice]
  have e5 : (Parameter.name ⟨"transientmode", 0, 2, 0, true, ["Mixed", "Smooth", "Crisp"]⟩ (getParameter ⟨a, b, r, e, t, ph, w⟩ "transientmode")).bind (choice "transientmode") =
      some (if t = 0 then .TransientsMixed else if t = 1 then .TransientsSmooth else .TransientsCrisp) := by
    rcases ht with rfl | rfl | rfl <;> simp [getParameter, Parameter.name, choice]
  have e6 : (Parameter.name ⟨"phasemode", 0, 1, 0, true, ["Laminar", "Independent"]⟩ (getParameter ⟨a, b, r, e, t, ph, w⟩ "phasemode")).bind (choice "phasemode") = some (if ph then .PhaseIndependent else .PhaseLaminar) := by
    cases ph <;> simp [getParameter, Parameter.name, choice]
  have e7 : (Parameter.name ⟨"windowmode", 0, 2, 0, true, ["Standard", "Short", "Long"]⟩ (getParameter ⟨a, b, r, e, t, ph, w⟩ "windowmode")).bind (choice "windowmode") =
      some (if w = 0 then .WindowStandard else if w = 1 then .WindowShort else .WindowLong) := by
    rcases hw with rfl | rfl | rfl <;> simp [getParameter, Parameter.name, choice]
  simp only [parameters, List.filterMap_cons, List.filterMap_nil, e1, e2, e3, e4, e5, e6, e7, Option.bind_none]
  refine ⟨rfl, ?_⟩
  simp only [List.foldl_cons, List.foldl_nil, options]
  rcases ht with rfl | rfl | rfl <;> rcases hw with rfl | rfl | rfl <;> cases r <;> cases e <;> cases ph <;> rfl

theorem run_append (a b : List Op) : ∀ s, run (a ++ b) s = (run a s).bind (run b) := by
  induction a with
  | nil => intro s; rfl
  | cons o os ih =>
    intro s
    simp only [List.cons_append, run]
    cases step s o with
    | none => rfl
    | some t => exact ih t

/-- **C157** (2).  The stretcher is made with the options that go by the names of the values that are read, one for each parameter that has names, and has the ratios that were set, as percentages. -/
theorem C157_stretcher (ops : List Op) (hs : Sane ops) (hr : ∀ p ∈ parameters, (p.min : ℚ) ≤ asked ops p.id p.default ∧ asked ops p.id p.default ≤ p.max) :
    ∃ s t, run (ops ++ [.initialise 1]) .start = some s ∧ s.stretcher = some t ∧ t.channels = 1 ∧
      t.timeRatio = asked ops "timeratio" 100 / 100 ∧ t.pitchScale = asked ops "pitchratio" 100 / 100 ∧
      (parameters.filterMap fun p => (p.name (getParameter s.settings p.id)).bind (choice p.id)).length = 5 ∧
      t.options = (parameters.filterMap fun p => (p.name (getParameter s.settings p.id)).bind (choice p.id)).foldl (fun o n => o ||| n.cpp) 0#32 := by
  obtain ⟨s, h1, h2⟩ := run_settings ops defaults .start hs start_eq
  have range : ∀ id, ∀ p ∈ parameters, p.id = id → p.quantized = true → p.max = 2 →
      0 ≤ (if 0 ≤ asked ops id (defaults id) + 1 / 2 then ⌊asked ops id (defaults id) + 1 / 2⌋ else ⌈asked ops id (defaults id) + 1 / 2⌉ : Int) ∧
      (if 0 ≤ asked ops id (defaults id) + 1 / 2 then ⌊asked ops id (defaults id) + 1 / 2⌋ else ⌈asked ops id (defaults id) + 1 / 2⌉ : Int) ≤ 2 := by
    intro id p hp e hq hm
    subst e
    have hv := hr p hp
    rw [← asked_default ops p hp, (bounds p hp hq).1, hm] at hv
    push_cast at hv
    have c4 : ⌊asked ops p.id (defaults p.id) + 1 / 2⌋ < 3 := Int.floor_lt.mpr (by push_cast; linarith [hv.2])
    rw [if_pos (by linarith [hv.1])]
    exact ⟨Int.floor_nonneg.mpr (by linarith [hv.1]), by omega⟩
  have r1 := range "transientmode" ⟨"transientmode", 0, 2, 0, true, ["Mixed", "Smooth", "Crisp"]⟩ (by simp [parameters]) rfl rfl rfl
  have r2 := range "windowmode" ⟨"windowmode", 0, 2, 0, true, ["Standard", "Short", "Long"]⟩ (by simp [parameters]) rfl rfl rfl
  have ho := options_eq s.settings (by rw [h2]; exact r1.1) (by rw [h2]; exact r1.2) (by rw [h2]; exact r2.1) (by rw [h2]; exact r2.2)
  refine ⟨{ s with stretcher := some ⟨1, options s.settings, s.settings.timeRatio, s.settings.pitchRatio⟩ }, _, ?_, rfl, rfl, ?_, ?_, ho.1, ho.2⟩
  · rw [run_append, h1]; rfl
  · rw [h2]; simp [settingsOf, defaults]
  · rw [h2]; simp [settingsOf, defaults]

/-- The identifier a host knows an output by. -/
def identifier : Output → String
  | .increments => "increments"
  | .aggregate => "aggregate_increments"
  | .divergence => "divergence"
  | .curve => "phaseresetdf"
  | .smoothed => "smoothedphaseresetdf"
  | .resets => "phaseresetpoints"
  | .syncs => "timesyncpoints"

/-- The outputs in the order in which the host is given them. -/
def outputList : List String := (number identifiers [] fun _ => 0).1

theorem run_output : ∀ (ops : List Op) (s s' : State), run ops s = some s' → Op.describe ∈ ops ∨ (∀ o, outputList[s.output o]? = some (identifier o)) → ∀ o, outputList[s'.output o]? = some (identifier o)
  | [], s, s', h, hd => by
    simp only [run, Option.some.injEq] at h
    subst h
    rcases hd with h | h
    · simp at h
    · exact h
  | o :: os, s, s', h, hd => by
    simp only [run] at h
    obtain ⟨t, h1, h2⟩ := Option.bind_eq_some_iff.mp h
    apply run_output os t s' h2
    cases o with
    | set i v =>
      simp only [step, Option.map_eq_some_iff] at h1
      obtain ⟨q, _, rfl⟩ := h1
      rcases hd with h | h
      · exact .inl (by simpa using h)
      · exact .inr h
    | describe =>
      simp only [step, Option.some.injEq] at h1
      subst h1
      refine .inr fun o => ?_
      cases o <;> rfl
    | initialise c =>
      have : t.output = s.output := by
        simp only [step] at h1
        split at h1 <;> (simp only [Option.some.injEq] at h1; subst h1; rfl)
      rcases hd with h | h
      · exact .inl (by simpa using h)
      · exact .inr (by rw [this]; exact h)

/-- **C157** (3).  Once the host has asked for the outputs, every feature is with the output described by the identifier for it, whatever else is called; and no two outputs have the same identifier. -/
theorem C157_outputs (ops : List Op) (hd : Op.describe ∈ ops) (s : State) (h : run ops .start = some s) :
    (∀ f : Vamp.Feature, outputList[place s f]? = some (identifier f.output)) ∧ outputList.Nodup :=
  ⟨fun f => run_output ops .start s h (.inl hd) f.output, by decide⟩

/-- Set twice, between values, and initialised: precise, crisp, with a long window and a ratio of 3/2. -/
example : Sane [.set "timeratio" 120, .set "transientmode" (9 / 5), .describe, .set "nothing" 7, .set "stretchtype" 1, .set "timeratio" 150, .set "windowmode" 2] ∧
    asked [.set "timeratio" 120, .set "transientmode" (9 / 5), .describe, .set "nothing" 7, .set "stretchtype" 1, .set "timeratio" 150, .set "windowmode" 2] "timeratio" 100 = 150 ∧
    ((run ([.set "timeratio" 120, .set "transientmode" (9 / 5), .describe, .set "nothing" 7, .set "stretchtype" 1, .set "timeratio" 150, .set "windowmode" 2] ++ [.initialise 1]) .start).bind (·.stretcher)).map
      (fun t => (t.options, t.timeRatio)) = some (0x00200010#32, 3 / 2) := by
  refine ⟨?_, by decide +kernel, by decide +kernel⟩
  intro id v h
  simp only [List.mem_cons, Op.set.injEq, List.not_mem_nil, or_false, reduceCtorEq, false_or] at h
  rcases h with ⟨_, rfl⟩ | ⟨_, rfl⟩ | ⟨_, rfl⟩ | ⟨_, rfl⟩ | ⟨_, rfl⟩ | ⟨_, rfl⟩ <;> norm_num

end Verif.VampParams
