import Verif.BQProps3
/-!
# The resampler: property C46 (cross-fades)
-/
namespace Verif.BQ
open Verif.MovingMedian (setAt)
variable {α : Type}

/-- The same resampler, on a machine that divides by zero differently. -/
def otherwise (cfg : Cfg α) (f : α → α → α) : Cfg α := { cfg with ar := { cfg.ar with mixNone := f } }

/-- C46 in full: no output depends on what a division by zero gives. -/
def C46_statement : Prop :=
  ∀ (α : Type) (cfg : Cfg α) (f : α → α → α) (ops : List (Op α)), 0 < cfg.channels →
    (∀ op ∈ ops, op.Valid cfg.channels) → run (otherwise cfg f) init ops = run cfg init ops

namespace Ex
def smooth : Cfg Int := { cfg 1 with smooth := true }
def ops46 : List (Op Int) :=
  [.call (call (ramp 1 1) 1 40 1 false), .call (call (ramp 2 4) 4 40 2 false), .call (call (ramp 6 7) 7 1 2 false)]
end Ex

/-- C46 is false of the code: with room for one frame of output (or less than two frames
expected) the length of a cross-fade in progress is taken to be zero, and the code divides by it. -/
theorem C46_violated : ¬ C46_statement := by
  intro h
  have hv1 : ValidRatio 1 := by unfold ValidRatio; norm_num
  have hv2 : ValidRatio 2 := by unfold ValidRatio; norm_num
  have := h Int Ex.smooth (fun _ _ => 99) Ex.ops46 (by decide)
    (by
      intro op hop
      simp only [Ex.ops46, List.mem_cons, List.not_mem_nil, or_false] at hop
      rcases hop with rfl | rfl | rfl
      · exact ⟨by decide, by decide, hv1⟩
      · exact ⟨by decide, by decide, hv2⟩
      · exact ⟨by decide, by decide, hv2⟩)
  have e1 : (run Ex.smooth init Ex.ops46).map (·.map fun on => on.1.take on.2) = some [[], [], [-1]] := by
    decide +kernel
  have e2 : (run (otherwise Ex.smooth fun _ _ => 99) init Ex.ops46).map (·.map fun on => on.1.take on.2)
      = some [[], [], [99]] := by
    decide +kernel
  rw [this, e1] at e2
  revert e2
  decide

theorem protoCoefs_otherwise (cfg : Cfg α) (f : α → α → α) (s : State α) : ∀ n i,
    protoCoefs (otherwise cfg f) s n i = protoCoefs cfg s n i := by
  intro n
  induction n with
  | zero => intro i; rfl
  | succ n ih =>
    intro i
    unfold protoCoefs
    rw [ih]
    rfl

theorem reconstructOne_otherwise (cfg : Cfg α) (f : α → α → α) (s : State α) :
    reconstructOne (otherwise cfg f) s = reconstructOne cfg s := by
  have : ∀ pr, convolve (otherwise cfg f) s pr = convolve cfg s pr := by
    intro pr
    unfold convolve
    simp only [protoCoefs_otherwise]
    rfl
  unfold reconstructOne
  simp only [this]
  rfl

theorem mainLoop_otherwise (cfg : Cfg α) (f : α → α → α) (final : Bool) (inp : List α) (count : Nat) :
    ∀ space i o s out, mainLoop (otherwise cfg f) final inp count space i o s out =
      mainLoop cfg final inp count space i o s out := by
  intro space
  induction space with
  | zero => intros; rfl
  | succ space ih =>
    intro i o s out
    unfold mainLoop
    simp only [ih, reconstructOne_otherwise]

theorem fadeLoop_otherwise (cfg : Cfg α) (f : α → α → α) (inp : List α) (count : Nat) {fl : Nat} (hfl : fl ≠ 0) :
    ∀ space fi fo s n out, fadeLoop (otherwise cfg f) inp count fl space fi fo s n out =
      fadeLoop cfg inp count fl space fi fo s n out := by
  intro space
  induction space with
  | zero => intros; rfl
  | succ space ih =>
    intro fi fo s n out
    unfold fadeLoop
    have : ∀ n r x, mixed (otherwise cfg f).ar n fl r x = mixed cfg.ar n fl r x := by
      intro n r x
      simp [mixed, hfl, otherwise]
    simp only [ih, reconstructOne_otherwise, this]

theorem fadeLoop_none (cfg : Cfg α) (inp : List α) (count fl : Nat) (space fi fo : Nat) (s : State α) (out : List α) :
    fadeLoop cfg inp count fl space fi fo s 0 out = some (s, 0, out) := by
  cases space <;> simp [fadeLoop]

/-- Room for two frames, and two frames expected. -/
def Call.Long (a : Call α) : Prop := 2 ≤ a.outspace ∧ 2 ≤ (a.incount : Rat) * a.ratio

theorem fadeLengthFor_long (cfg : Cfg α) {a : Call α} (h : a.Long) :
    fadeLengthFor cfg a.outspace a.incount a.ratio ≠ 0 := by
  unfold fadeLengthFor
  have h1 : (2 : Int) ≤ ((a.incount : Rat) * a.ratio).floor := by
    rw [Rat.le_floor_iff]
    exact h.2
  have h2 := h.1
  have h3 : 2 ≤ min a.outspace ((a.incount : Rat) * a.ratio).floor.toNat := by
    rw [Nat.le_min]
    exact ⟨h2, by omega⟩
  omega

/-- **C46 (partial).**  No output depends on what a division by zero gives, for every history
of valid calls and resets in which the resampler was told to expect sudden changes of ratio (so
does not cross-fade), or each call has room for at least two frames and expects at least two
(`incount * ratio`).  Missing: shorter calls, for which it is false (`C46_violated`). -/
theorem C46_partial {cfg : Cfg α} (f : α → α → α) {ops : List (Op α)}
    (hl : cfg.smooth = false ∨ ∀ a ∈ calls ops, a.Long) :
    run (otherwise cfg f) init ops = run cfg init ops := by
  have main : ∀ (ops : List (Op α)) (r : Res α), (cfg.smooth = false ∧ r.fadeCount = 0 ∨ ∀ a ∈ calls ops, a.Long) →
      run (otherwise cfg f) r ops = run cfg r ops := by
    intro ops
    induction ops with
    | nil => intros; rfl
    | cons op ops ih =>
      intro r h
      cases op with
      | reset =>
        simp only [run]
        apply ih
        rcases h with h | h
        · exact Or.inl ⟨h.1, rfl⟩
        · exact Or.inr h
      | call a =>
        have hrun : resample (otherwise cfg f) r a.out a.outspace a.inp a.incount a.ratio a.final =
            resample cfg r a.out a.outspace a.inp a.incount a.ratio a.final ∧
            ∀ r' out n, resample cfg r a.out a.outspace a.inp a.incount a.ratio a.final = some (r', out, n) →
              cfg.smooth = false ∧ r'.fadeCount = 0 ∨ ∀ a ∈ calls ops, a.Long := by
          rcases h with ⟨h1, h2⟩ | h
          · have hp : ∀ fl r', prepare cfg r a.ratio fl = some r' → r'.fadeCount = 0 := by
              intro fl r' hr'
              unfold prepare at hr'
              simp only [h1, Bool.false_eq_true, if_false, Option.bind_eq_bind] at hr'
              split at hr'
              · simp only [Option.bind_eq_some_iff] at hr'
                obtain ⟨s, _, e⟩ := hr'
                rw [← Option.some.inj e]; exact h2
              · split at hr'
                · simp only [Option.bind_eq_some_iff] at hr'
                  obtain ⟨s, _, e⟩ := hr'
                  rw [← Option.some.inj e]; exact h2
                · rw [← Option.some.inj hr']; exact h2
            have hp' : ∀ fl, prepare (otherwise cfg f) r a.ratio fl = prepare cfg r a.ratio fl := fun _ => rfl
            have hf' : fadeLengthFor (otherwise cfg f) a.outspace a.incount a.ratio =
              fadeLengthFor cfg a.outspace a.incount a.ratio := rfl
            have hc' : (otherwise cfg f).channels = cfg.channels := rfl
            unfold resample
            simp only [hp', hf', hc', mainLoop_otherwise]
            cases he : prepare cfg r a.ratio (fadeLengthFor cfg a.outspace a.incount a.ratio) with
            | none => exact ⟨rfl, by intro r' out n h; cases h⟩
            | some r1 =>
              have h0 := hp _ _ he
              simp only [Option.bind_eq_bind, Option.bind_some, h0, fadeLoop_none]
              refine ⟨trivial, ?_⟩
              intro r' out n h
              simp only [Option.bind_eq_some_iff] at h
              obtain ⟨x, _, e⟩ := h
              have := (Prod.mk.inj (Option.some.inj e)).1
              exact Or.inl ⟨h1, by rw [← this]⟩
          · have hfl := fadeLengthFor_long cfg (h a (by simp [calls]))
            have hp' : ∀ fl, prepare (otherwise cfg f) r a.ratio fl = prepare cfg r a.ratio fl := fun _ => rfl
            have hf' : fadeLengthFor (otherwise cfg f) a.outspace a.incount a.ratio =
              fadeLengthFor cfg a.outspace a.incount a.ratio := rfl
            have hc' : (otherwise cfg f).channels = cfg.channels := rfl
            refine ⟨?_, fun _ _ _ _ => Or.inr fun b hb => h b (by simp [calls, hb])⟩
            unfold resample
            simp only [hp', hf', hc', mainLoop_otherwise, fadeLoop_otherwise cfg f _ _ hfl]
        simp only [run, hrun.1]
        cases he : resample cfg r a.out a.outspace a.inp a.incount a.ratio a.final with
        | none => rfl
        | some x =>
          obtain ⟨r', out, n⟩ := x
          simp only [Option.bind_eq_bind, Option.bind_some]
          rw [ih r' (hrun.2 _ _ _ he)]
  apply main
  rcases hl with h | h
  · exact Or.inl ⟨h, rfl⟩
  · exact Or.inr h

example : ∀ a ∈ calls Ex.hist23, a.Long := by
  intro a ha
  simp only [Ex.hist23, calls, List.mem_cons, List.not_mem_nil, or_false] at ha
  rcases ha with rfl | rfl <;> refine ⟨by decide, ?_⟩ <;> norm_num [Ex.call]

end Verif.BQ
