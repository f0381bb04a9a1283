import Verif.R3Protocol
import Verif.StretchCalcRT
/-!
# When the R3 engine stays within its arrays and returns: the first part of C28
-/
namespace Verif.R3
open Verif.Round Verif.StretchCalc

variable {α σ ρ : Type}

/-- The input hop stretched is at most the greatest preferred output hop. -/
theorem inhopFor_le (p : Params) (curve : Rat → Rat) {ratio : Rat} (h0 : 0 < ratio) (h1 : ratio ≤ p.minPreferredOuthop) :
    inhopFor p curve ratio * ratio ≤ p.maxPreferredOuthop := by
  obtain ⟨b1, b2⟩ := proposedOuthop_bounds p curve ratio
  unfold inhopFor minInhop
  simp only
  generalize proposedOuthop p curve ratio = y at *
  have e1 : ¬ (y / ratio < ((1 : Nat) : Rat)) := by
    push_cast
    rw [not_lt, le_div_iff₀ h0]
    linarith
  rw [if_neg e1]
  have hle : (if y / ratio > p.maxInhop then (p.maxInhop : Rat) else y / ratio) ≤ y / ratio := by
    split
    · rename_i h; exact le_of_lt h
    · exact le_refl _
  have hnn : 0 ≤ (if y / ratio > p.maxInhop then (p.maxInhop : Rat) else y / ratio) := by
    split
    · positivity
    · push_cast at e1; linarith
  generalize (if y / ratio > p.maxInhop then (p.maxInhop : Rat) else y / ratio) = z at *
  have hf : ((z.floor.toNat : Nat) : Rat) ≤ z := by
    have h2 : 0 ≤ z.floor := by rw [Rat.le_floor_iff]; exact_mod_cast hnn
    have h3 : ((z.floor.toNat : Nat) : Rat) = ((z.floor : Int) : Rat) := by
      have : ((z.floor.toNat : Nat) : Int) = z.floor := Int.toNat_of_nonneg h2
      exact_mod_cast congrArg (fun i : Int => (i : Rat)) this
    rw [h3]
    exact Rat.floor_le z
  calc ((z.floor.toNat : Nat) : Rat) * ratio ≤ (y / ratio) * ratio := mul_le_mul_of_nonneg_right (by linarith) (le_of_lt h0)
    _ = y := by field_simp
    _ ≤ _ := b2

/-- A resampler that keeps to the ratio it is given well enough. -/
def KeepsRatio (env : Env α σ ρ) : Prop := ∀ r x, 0 < x → 3 / 4 * x ≤ env.effective r x

theorem outhopOf_le {p : Params} {env : Env α σ ρ} (he : KeepsRatio env) {s : State α σ ρ} (h : Hops p env s)
    (hr : s.timeRatio * s.pitchScale ≤ p.minPreferredOuthop) : outhopOf p env s ≤ p.longestFftSize := by
  obtain ⟨_, z2, z3, _, _, z6, _⟩ := sizes_eq p
  obtain ⟨_, _, _, _, hu, _⟩ := sizes p
  have hinv : 0 < 1 / s.pitchScale := by have := h.pspos; positivity
  have key : ∀ pr : Rat, 3 / 4 * (1 / s.pitchScale) ≤ pr → ∀ c : Calc,
      (calculateSingle c ⟨s.timeRatio, pr, 1, s.inhop, p.longestFftSize, p.longestFftSize, true⟩).2 ≤ (p.longestFftSize : Int) := by
    intro pr hpr c
    have hpr0 : 0 < pr := by linarith
    have hin := h.inhop_pos
    rcases C15_clamp c ⟨s.timeRatio, pr, 1, s.inhop, p.longestFftSize, p.longestFftSize, true⟩ h.tpos.le hpr0 with ⟨e, _⟩ | ⟨_, _, e⟩
    · rw [e]; simp only; omega
    · simp only at e
      rw [if_neg (by omega)] at e
      refine e.trans ?_
      have hb := inhopFor_le p env.curve (mul_pos h.tpos h.pspos) hr
      rw [← h.inhop] at hb
      have hn : (s.inhop : Rat) * (s.timeRatio / pr) ≤ 4 / 3 * p.maxPreferredOuthop := by
        have h1 : s.timeRatio / pr ≤ 4 / 3 * (s.timeRatio * s.pitchScale) := by
          rw [div_le_iff₀ hpr0]
          have h2 : 3 / 4 ≤ pr * s.pitchScale := by
            have := mul_le_mul_of_nonneg_right hpr h.pspos.le
            have e2 : 3 / 4 * (1 / s.pitchScale) * s.pitchScale = 3 / 4 := by have := h.pspos; field_simp
            linarith
          have := mul_le_mul_of_nonneg_left h2 h.tpos.le
          nlinarith
        have h3 : (0 : Rat) ≤ s.inhop := by positivity
        have := mul_le_mul_of_nonneg_left h1 h3
        nlinarith
      have hl := (lrint_bounds ((s.inhop : Rat) * (s.timeRatio / pr) * 2)).1
      have hm : (p.maxPreferredOuthop : Rat) ≤ 5 * (unit p : Rat) := by
        have : p.maxPreferredOuthop ≤ 5 * unit p := by rw [z3]; split <;> omega
        exact_mod_cast this
      have hlong : 16 * (unit p : Rat) ≤ p.longestFftSize := by
        have : 16 * unit p ≤ p.longestFftSize := by rw [z6]; split <;> omega
        exact_mod_cast this
      have hu' : (16 : Rat) ≤ unit p := by exact_mod_cast hu
      have : ((lrint ((s.inhop : Rat) * (s.timeRatio / pr) * 2) : Int) : Rat) ≤ ((p.longestFftSize : Nat) : Rat) := by linarith
      exact_mod_cast this
  have hk : (calculated p env s).2 ≤ (p.longestFftSize : Int) := by
    unfold calculated
    cases hres : s.resampler with
    | none => exact key _ (by linarith) _
    | some r => exact key _ (he r _ hinv) _
  have hl1 : 1 ≤ p.longestFftSize := by rw [z6]; split <;> omega
  unfold outhopOf
  split <;> omega

/-! ## Ratios within bounds -/

/-- No more than `B`, unless not a finite number. -/
def Dbl.within (x : Dbl) (B : Rat) : Prop := ∀ q, x = .fin q → q ≤ B

theorem fixRatios_within {t ps : Dbl} {T P : Rat} (hT : 1 ≤ T) (hP : 1 ≤ P) (h1 : t.within T) (h2 : ps.within P) :
    (fixRatios t ps).1 ≤ T ∧ (fixRatios t ps).2 ≤ P := by
  have key : ∀ (x : Dbl) (B : Rat), 1 ≤ B → x.within B → (if x.nonPos = true then Dbl.fin 1 else x).value ≤ B := by
    intro x B hB hx
    split
    · exact hB
    · cases x with
      | nan => exact hB
      | inf _ => exact hB
      | fin q => exact hx q rfl
  have k1 := key t T hT h1
  have k2 := key ps P hP h2
  unfold fixRatios
  simp only
  generalize (if t.nonPos = true then Dbl.fin 1 else t) = t' at *
  generalize (if ps.nonPos = true then Dbl.fin 1 else ps) = ps' at *
  split
  · exact ⟨hT, hP⟩
  · exact ⟨k1, k2⟩

/-- The ratios of a state are within bounds and there is no map to change them. -/
structure Moderate (p : Params) (T P : Rat) (s : State α σ ρ) : Prop where
  time : s.timeRatio ≤ T
  pitch : s.pitchScale ≤ P
  map : p.realTime = false → s.keyFrameMap = []

/-- The arguments of a call are within bounds. -/
def Call.moderate (p : Params) (T P : Rat) : Call α → Prop
  | .setTimeRatio x => x.within T
  | .setPitchScale x => x.within P
  | .setKeyFrameMap m => p.realTime = true ∨ m = []
  | _ => True

theorem Kept.moderate {p : Params} {T P : Rat} {s s' : State α σ ρ} (k : Kept s s') (h : Moderate p T P s) : Moderate p T P s' :=
  ⟨by rw [k.timeRatio]; exact h.time, by rw [k.pitchScale]; exact h.pitch, by rw [k.keyFrameMap]; exact h.map⟩

variable [Zero α] [Add α] [Sub α]

omit [Add α] [Sub α] in
theorem prologue_moderate {p : Params} {T P : Rat} {env : Env α σ ρ} {s : State α σ ρ} (h : Moderate p T P s) : Moderate p T P (prologue p env s) := by
  unfold prologue
  split
  · exact h
  · rename_i hrt
    have hm := h.map (by simpa using hrt)
    have e : updateRatioFromMap p env { s with totalTargetDuration := targetFor s } = { s with totalTargetDuration := targetFor s } := by
      unfold updateRatioFromMap
      simp only [hm]
    rw [e]
    unfold padStart
    split
    · refine Kept.moderate (s := ensureInbuf { s with
          totalTargetDuration := targetFor s,
          resampler := if s.pitchScale ≠ 1 ∧ s.resampler.isNone then some env.rsInit else s.resampler } (p.windowSourceSize / 2))
        ⟨rfl, rfl, rfl, rfl, rfl, rfl, rfl, rfl, rfl, rfl, rfl, rfl⟩ ?_
      exact Kept.moderate (ensureInbuf_kept _ _) ⟨h.time, h.pitch, h.map⟩
    · exact ⟨h.time, h.pitch, h.map⟩

theorem call_moderate {p : Params} (hc : 0 < p.channels) {T P : Rat} (hT : 1 ≤ T) (hP : 1 ≤ P) (hTP : T * P ≤ p.minPreferredOuthop)
    {env : Env α σ ρ} (he : KeepsRatio env) {s : State α σ ρ} (hi : Inv p env s) (h : Moderate p T P s) {c : Call α} (hcall : c.moderate p T P) :
    ∃ r, call p env s c = some r ∧ Moderate p T P r.1 := by
  have finWithin : ∀ {x B : Rat}, x ≤ B → (Dbl.fin x).within B := by
    intro x B hx q hq
    cases hq
    exact hx
  cases c with
  | setTimeRatio x =>
    refine ⟨_, rfl, ?_⟩
    unfold setTimeRatio
    split
    · exact h
    · split
      · exact h
      · obtain ⟨a, b⟩ := fixRatios_within hT hP hcall (finWithin h.pitch)
        exact ⟨a, b, h.map⟩
  | setPitchScale x =>
    refine ⟨_, rfl, ?_⟩
    unfold setPitchScale
    split
    · exact h
    · split
      · exact h
      · obtain ⟨a, b⟩ := fixRatios_within hT hP (finWithin h.time) hcall
        exact ⟨a, b, h.map⟩
  | setFormantScale x =>
    refine ⟨_, rfl, ?_⟩
    unfold setFormantScale
    split
    · exact h
    · exact ⟨h.time, h.pitch, h.map⟩
  | setKeyFrameMap x =>
    refine ⟨_, rfl, ?_⟩
    unfold setKeyFrameMap
    split
    · exact h
    · rename_i hrt
      split
      · exact h
      · refine ⟨h.time, h.pitch, fun _ => ?_⟩
        rcases hcall with e | e
        · exact absurd e hrt
        · exact e
  | setExpectedInputDuration x => exact ⟨_, rfl, h.time, h.pitch, h.map⟩
  | setMaxProcessSize x =>
    refine ⟨_, rfl, ?_⟩
    unfold setMaxProcessSize
    exact Kept.moderate ((ensureInbuf_kept _ _).trans (ensureOutbuf_kept _ _)) h
  | study x =>
    refine ⟨_, rfl, ?_⟩
    unfold study
    split
    · exact h
    · split
      · exact h
      · exact ⟨h.time, h.pitch, h.map⟩
  | process x f =>
    obtain ⟨ic, oc, n, m, hb, h1, h2, h3⟩ := hi.bufs
    obtain ⟨q1, ⟨ic', n', q2, q3⟩, _⟩ := prologue_facts hc hi.hops hb h1 (fun hm => (h2 hm).1)
    have hmod := prologue_moderate (env := env) h
    have hfit : OuthopFits p env (prologue p env s) := by
      intro s' k
      apply outhopOf_le he (k.hops q1)
      have k' := k.moderate hmod
      have hp := (k.hops q1).pspos
      have ht := (k.hops q1).tpos
      have h1 : s'.timeRatio * s'.pitchScale ≤ T * P := mul_le_mul k'.time k'.pitch hp.le (by linarith)
      linarith
    obtain ⟨s', hs'⟩ := process_some (input := x) (final := f) hc hi hfit
    refine ⟨(s', []), by simp only [call, hs', Option.map_some], ?_⟩
    unfold process at hs'
    split at hs'
    · cases hs'; exact h
    · rw [Option.map_eq_some_iff] at hs'
      obtain ⟨t, ht, rfl⟩ := hs'
      obtain ⟨k, _⟩ := processInput_bufs hc ht q2 q3
      have := k.moderate hmod
      exact ⟨this.time, this.pitch, this.map⟩
  | retrieve k => exact ⟨_, rfl, h.time, h.pitch, h.map⟩
  | reset =>
    refine ⟨_, rfl, ?_⟩
    have hp := hi.hops.pspos
    have ht := hi.hops.tpos
    refine ⟨?_, ?_, fun _ => rfl⟩
    · show (fixRatios (.fin s.timeRatio) (.fin s.pitchScale)).1 ≤ T
      rw [fixRatios_fin ht hp]; exact h.time
    · show (fixRatios (.fin s.timeRatio) (.fin s.pitchScale)).2 ≤ P
      rw [fixRatios_fin ht hp]; exact h.pitch

/-- **C28**, the first part: if the time ratios are at most `T` and the pitch scales at most `P`, where `T * P` is at most the least
preferred output hop (16 to 512 or more depending on the sample rate), if there is no key-frame map and the resampler keeps to its
ratio, then every call of every history returns, with no access out of range: all loops end. -/
theorem C28_returns {p : Params} (hc : 0 < p.channels) (env : Env α σ ρ) (he : KeepsRatio env) {T P : Rat} (hT : 1 ≤ T) (hP : 1 ≤ P)
    (hTP : T * P ≤ p.minPreferredOuthop) {t ps : Dbl} (ht : t.within T) (hps : ps.within P) (cs : List (Call α))
    (hcs : ∀ c ∈ cs, c.moderate p T P) : ∃ r, run p env (create p env t ps) cs = some r := by
  have main : ∀ (cs : List (Call α)) (s : State α σ ρ), Inv p env s → Moderate p T P s → (∀ c ∈ cs, c.moderate p T P) →
      ∃ r, run p env s cs = some r := by
    intro cs
    induction cs with
    | nil => intro s _ _ _; exact ⟨_, rfl⟩
    | cons c cs ih =>
      intro s hi hm hall
      obtain ⟨a, ha, ma⟩ := call_moderate hc hT hP hTP he hi hm (hall c (by simp))
      obtain ⟨b, hb⟩ := ih a.1 (call_inv hc hi ha) ma (fun c hc => hall c (by simp [hc]))
      refine ⟨(b.1, a.2 :: b.2), ?_⟩
      unfold run
      simp only [Option.bind_eq_bind, Option.pure_def, ha, Option.bind_some, hb]
  refine main cs _ (create_inv p env t ps) ?_ hcs
  obtain ⟨a, b⟩ := fixRatios_within hT hP ht hps
  exact ⟨a, b, fun _ => rfl⟩

/-- The least preferred output hop at some rates. -/
example : (Ex.small true).minPreferredOuthop = 32 ∧ ({ sampleRate := 44100, channels := 1 } : Params).minPreferredOuthop = 128 := by decide +kernel

/-- Without a bound on the ratios. -/
def C28_returns_statement : Prop :=
  ∀ (p : Params) (env : Env Rat Unit Unit) (t ps : Dbl) (cs : List (Call Rat)), 0 < p.channels → KeepsRatio env →
    run p env (create p env t ps) cs ≠ none

/-- **This part of C28 is violated** by huge ratios: the input hop cannot be less than 1, so that at a time ratio of 5000 the output
hop is longer than the longest window, and the output accumulator is moved from beyond its end. -/
theorem C28_returns_violated : ¬ C28_returns_statement := by
  intro h
  refine h (Ex.small true) Ex.env (.fin 5000) (.fin 1) [.process (Ex.block 1100) false] (by decide) ?_ (by decide +kernel)
  intro r x hx
  show 3 / 4 * x ≤ x
  linarith

end Verif.R3
