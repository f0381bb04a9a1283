import Verif.R2Level
import Verif.R2Shape
/-!
# Louder and silent input to the faster engine (C98, C99)
-/
namespace Verif.R2
open Verif.Round Verif.StretchCalc

variable {ρ κ : Type}

/-- The detection functions find the same in audio `k` times as loud, in real time. -/
def SeesSame {k : ℝ} {base : Env ℝ (Spec × Nat) ρ κ} (hb : Follows k base) : Prop :=
  ∀ c l, base.curve (hb.cur c) (l.map fun s => (s.1.louder k, s.2)) = (hb.cur (base.curve c l).1, (base.curve c l).2)

/-- And when studying. -/
def StudiesSame {k : ℝ} {base : Env ℝ (Spec × Nat) ρ κ} (hb : Follows k base) : Prop :=
  ∀ c s l, base.studyCurve (hb.cur c) (s.1.louder k, s.2) (l.map (k * ·)) =
    (hb.cur (base.studyCurve c s l).1, ((base.studyCurve c s l).2.1.1.louder k, (base.studyCurve c s l).2.1.2), (fun i => k * (base.studyCurve c s l).2.2.1 i), (base.studyCurve c s l).2.2.2)

/-- C98.  The same calls since construction with all audio multiplied by `k`: the same comes out, multiplied by `k` (and the one is defined if the other is). -/
theorem C98_level {k : ℝ} (hk : 0 < k) (formants : Nat → (Nat → ℝ) → Nat → ℝ) {conf : Nat → R2Modify.Conf} (hq : ∀ n, (conf n).formant = false) {base : Env ℝ (Spec × Nat) ρ κ} (hb : Follows k base)
    {p : Params} {a b : R3.Dbl} {s : State ℝ (Spec × Nat) ρ κ} (hs : create p (liveEnv (fourier formants) conf base) a b = some s) (cs : List (Call ℝ))
    (h1 : p.realTime = true → SeesSame hb) (h2 : p.realTime = false → (∀ c ∈ cs, c.studies = false) ∨ StudiesSame hb) :
    (run p (liveEnv (fourier formants) conf base) s (cs.map (mapCall (k * ·)))).map Prod.snd =
      (run p (liveEnv (fourier formants) conf base) s cs).map fun x => x.2.map (List.map (List.map (k * ·))) := by
  let h := louder (fun n => fourier_graded hk formants n) hq hb
  have e : h.state s = s := by
    have := map_create h p a b
    rw [hs] at this
    exact (Option.some.inj this).symm
  have := run_map h p (fun hp => h1 hp) cs (fun hp c hc hst => by
    rcases h2 hp with h2 | h2
    · rw [h2 c hc] at hst
      cases hst
    · exact h2) s
  rw [e] at this
  rw [show (fun x => k * x) = h.val from rfl, this, Option.map_map]
  rfl

/-! ## Silence -/

/-- Nothing is sounding. -/
def Quiet (s : Spec × Nat) : Prop := (∀ i, s.1.mag i = 0) ∧ ∀ i, s.1.acc i = 0

/-- A resampler that has had silence only gives silence, the mean of silent channels is silent, and studying silence leaves silence in the temporary buffers; `hush` are the states that a resampler has
after silence. -/
structure Hushed (base : Env ℝ (Spec × Nat) ρ κ) where
  hush : ρ → Prop
  rsInit : hush base.rsInit
  rsReset : ∀ r, hush r → hush (base.rsReset r)
  resample : ∀ r room n ratio final, hush r → hush (base.resample r room (List.replicate n 0) ratio final).1 ∧ ∀ x ∈ (base.resample r room (List.replicate n 0) ratio final).2, x = 0
  mixdown : ∀ n, base.mixdown n (fun _ => 0) = 0
  study : ∀ c s n, Quiet s → Quiet (base.studyCurve c s (List.replicate n 0)).2.1 ∧ ∀ i, (base.studyCurve c s (List.replicate n 0)).2.2.1 i = 0

theorem spectrum_zero (n i : Nat) : FFT.spectrum n (fun _ => 0) i = 0 := by simp [FFT.spectrum]

theorem resum_zero (n j : Nat) : FFT.resum n (fun _ => 0) j = 0 := by simp [FFT.resum, FFT.mirrored]

theorem analyse_quiet (formants : Nat → (Nat → ℝ) → Nat → ℝ) (s : Spec) (h : ∀ i, s.acc i = 0) (n : Nat) :
    let y := s.analyse (fourier formants n) (List.replicate n 0)
    ((∀ i, y.1.mag i = 0) ∧ ∀ i, y.1.acc i = 0) ∧ ∀ i, y.2 i = 0 := by
  intro y
  have e : (fun i => (List.replicate n (0 : ℝ)).getD i 0) = fun _ => 0 := by
    funext i
    rw [List.getD_eq_getElem?_getD, List.getElem?_replicate]
    split <;> rfl
  have e2 : cut (List.replicate n (0 : ℝ)).length (fun i => (List.replicate n (0 : ℝ)).getD i 0) = fun _ => 0 := by
    rw [e]
    funext i
    simp only [cut, zero_mul, ite_self]
  have e3 : swapped (List.replicate n (0 : ℝ)).length (fun _ => 0) = fun _ => 0 := by
    funext i
    simp only [swapped, ite_self]
  refine ⟨⟨fun i => ?_, h⟩, fun i => ?_⟩
  · show ((fourier formants n).forward _).1 i = 0
    rw [e2, e3]
    simp only [fourier, spectrum_zero, norm_zero]
  · exact congrFun e2 i

theorem synthesise_quiet {formants : Nat → (Nat → ℝ) → Nat → ℝ} (hf : ∀ n i, formants n (fun _ => 0) i = 0) (q : R2Modify.Conf) (s : Spec) (hm : ∀ i, s.mag i = 0) (ha : ∀ i, s.acc i = 0) (i : Nat) (r : Bool) :
    let y := s.synthesise (fourier formants q.fftSize) q (fun _ => 0) i r
    ((∀ i, y.1.mag i = 0) ∧ ∀ i, y.1.acc i = 0) ∧ ∀ i, y.2 i = 0 := by
  intro y
  have e : cut q.fftSize (resynthesised (fourier formants q.fftSize) q { s with mod := R2Modify.chunk Real.pi s.mod ⟨q, i, r, s.mod.phase⟩ } fun _ => 0) = fun _ => 0 := by
    have : resynthesised (fourier formants q.fftSize) q { s with mod := R2Modify.chunk Real.pi s.mod ⟨q, i, r, s.mod.phase⟩ } (fun _ => 0) = fun _ => 0 := by
      unfold resynthesised
      simp only
      split
      · rfl
      · have e0 : s.mag = fun _ => 0 := funext hm
        have e1 : (fun i => (if q.formant = true then (fourier formants q.fftSize).formants s.mag else s.mag) i * (1 / (q.fftSize : ℝ))) = fun _ => 0 := by
          funext i
          split
          · rw [e0, show (fourier formants q.fftSize).formants = formants q.fftSize from rfl, hf, zero_mul]
          · rw [hm, zero_mul]
        rw [e1]
        funext i
        simp only [fourier, Complex.ofReal_zero, zero_mul, resum_zero, swapped, ite_self]
    rw [this]
    funext i
    simp only [cut, zero_mul, ite_self]
  have e1 : y = (({ s with mod := R2Modify.chunk Real.pi s.mod ⟨q, i, r, s.mod.phase⟩ } : Spec).add q.fftSize fun _ => 0, fun _ => 0) := by
    show Spec.synthesise _ _ _ _ _ _ = _
    unfold Spec.synthesise
    simp only [e]
  rw [e1]
  refine ⟨⟨hm, fun i => ?_⟩, fun _ => rfl⟩
  show (if i < q.fftSize then s.acc i + 0 else s.acc i) = 0
  rw [ha, add_zero, ite_self]

theorem moved_quiet {fill d : Nat} {x : Nat → ℝ} (h : ∀ i, x i = 0) (i : Nat) : moved fill d x i = 0 := by
  simp only [moved, h, ite_self]

/-- The engine with silence only. -/
noncomputable def quietEnv {formants : Nat → (Nat → ℝ) → Nat → ℝ} (hf : ∀ n i, formants n (fun _ => 0) i = 0) (conf : Nat → R2Modify.Conf) {base : Env ℝ (Spec × Nat) ρ κ} (hb : Hushed base) :
    Env Unit { s // Quiet s } { r // hb.hush r } κ :=
  let env := liveEnv (fourier formants) conf base
  { specInit := ⟨env.specInit, fun _ => rfl, fun _ => rfl⟩
    specReset := fun s => ⟨env.specReset s.1, s.2.1, fun _ => rfl⟩
    specSizes := fun s w n => ⟨env.specSizes s.1 w n, fun _ => rfl, s.2.2⟩
    analyse := fun s l => (⟨(env.analyse s.1 (List.replicate l.length 0)).1, by
      have := analyse_quiet formants s.1.1 s.2.2 l.length
      show Quiet (((s.1.1.analyse (fourier formants (List.replicate l.length (0 : ℝ)).length) (List.replicate l.length 0)).1), s.1.2)
      rw [List.length_replicate]
      exact this.1⟩, fun _ => ())
    synthesise := fun s _ i j r => (⟨(env.synthesise s.1 (fun _ => 0) i j r).1, (synthesise_quiet hf (conf s.1.2) s.1.1 s.2.1 s.2.2 i r).1⟩, fun _ => ())
    emit := fun _ _ => ()
    shift := fun s n d => ⟨env.shift s.1 n d, s.2.1, fun i => moved_quiet s.2.2 i⟩
    rsInit := ⟨base.rsInit, hb.rsInit⟩
    rsReset := fun r => ⟨base.rsReset r.1, hb.rsReset r.1 r.2⟩
    resample := fun r room l ratio final => (⟨(base.resample r.1 room (List.replicate l.length 0) ratio final).1, (hb.resample r.1 room l.length ratio final r.2).1⟩,
      List.replicate (base.resample r.1 room (List.replicate l.length 0) ratio final).2.length ())
    effective := fun r x => base.effective r.1 x
    curveInit := base.curveInit
    curveReset := base.curveReset
    curveSizes := base.curveSizes
    curve := fun c l => base.curve c (l.map Subtype.val)
    studyCurve := fun c s l => ((base.studyCurve c s.1 (List.replicate l.length 0)).1, ⟨(base.studyCurve c s.1 (List.replicate l.length 0)).2.1, (hb.study c s.1 l.length s.2).1⟩, fun _ => (),
      (base.studyCurve c s.1 (List.replicate l.length 0)).2.2.2)
    halve := fun _ => ()
    mixdown := fun _ _ => () }

theorem map_unit (l : List Unit) : l.map (fun _ => (0 : ℝ)) = List.replicate l.length 0 := List.map_const' ..

noncomputable def quietHom {formants : Nat → (Nat → ℝ) → Nat → ℝ} (hf : ∀ n i, formants n (fun _ => 0) i = 0) (conf : Nat → R2Modify.Conf) {base : Env ℝ (Spec × Nat) ρ κ} (hb : Hushed base) :
    Hom (quietEnv hf conf hb) (liveEnv (fourier formants) conf base) where
  val := fun _ => 0
  spec := Subtype.val
  rs := Subtype.val
  cur := id
  zero := rfl
  add := fun _ _ => (add_zero 0).symm
  sub := fun _ _ => (sub_zero 0).symm
  specInit := rfl
  specReset := fun _ => rfl
  specSizes := fun _ _ _ => rfl
  analyse := fun s l => by
    rw [map_unit]
    refine Prod.ext rfl (funext fun i => ?_)
    have := (analyse_quiet formants s.1.1 s.2.2 l.length).2 i
    show (s.1.1.analyse (fourier formants (List.replicate l.length (0 : ℝ)).length) (List.replicate l.length 0)).2 i = 0
    rw [List.length_replicate]
    exact this
  synthesise := fun s flt i j r => Prod.ext rfl (funext fun k => (synthesise_quiet hf (conf s.1.2) s.1.1 s.2.1 s.2.2 i r).2 k)
  emit := fun s i => by
    show s.1.1.acc i / s.1.1.wacc i = 0
    rw [s.2.2, zero_div]
  shift := fun _ _ _ => rfl
  rsInit := rfl
  rsReset := fun _ => rfl
  resample := fun r room l ratio final => by
    rw [map_unit]
    refine Prod.ext rfl ?_
    show (base.resample r.1 room (List.replicate l.length 0) ratio final).2 = List.map _ (List.replicate _ ())
    rw [List.map_replicate]
    exact List.eq_replicate_of_mem (hb.resample r.1 room l.length ratio final r.2).2
  effective := fun _ _ => rfl
  curveInit := fun _ => rfl
  curveReset := fun _ => rfl
  curveSizes := fun _ _ => rfl
  halve := fun _ => zero_div 2
  mixdown := fun n _ => hb.mixdown n

theorem quiet_sees {formants : Nat → (Nat → ℝ) → Nat → ℝ} (hf : ∀ n i, formants n (fun _ => 0) i = 0) (conf : Nat → R2Modify.Conf) {base : Env ℝ (Spec × Nat) ρ κ} (hb : Hushed base) :
    (quietHom hf conf hb).Sees := fun _ _ => rfl

theorem quiet_studies {formants : Nat → (Nat → ℝ) → Nat → ℝ} (hf : ∀ n i, formants n (fun _ => 0) i = 0) (conf : Nat → R2Modify.Conf) {base : Env ℝ (Spec × Nat) ρ κ} (hb : Hushed base) :
    (quietHom hf conf hb).Studies := by
  intro c s l
  have e : l.map (quietHom hf conf hb).val = List.replicate l.length 0 := map_unit l
  rw [e]
  refine Prod.ext rfl (Prod.ext rfl (Prod.ext (funext fun i => (hb.study c s.1 l.length s.2).2 i) rfl))

/-- All audio given with a call is silent. -/
def Silent : Call ℝ → Prop
  | .study input _ => ∀ f ∈ input, ∀ c, f c = 0
  | .process input _ => ∀ f ∈ input, ∀ c, f c = 0
  | _ => True

theorem silent_block {input : List (Frame ℝ)} (h : ∀ f ∈ input, ∀ c, f c = 0) : ∃ u : List (Frame Unit), mapBlock (fun _ => (0 : ℝ)) u = input := by
  refine ⟨input.map fun _ _ => (), ?_⟩
  rw [mapBlock, List.map_map]
  conv_rhs => rw [← List.map_id input]
  exact List.map_congr_left fun f hf => funext fun c => (h f hf c).symm

theorem silent_call {c : Call ℝ} (h : Silent c) : ∃ u : Call Unit, mapCall (fun _ => (0 : ℝ)) u = c := by
  cases c with
  | setTimeRatio r => exact ⟨.setTimeRatio r, rfl⟩
  | setPitchScale r => exact ⟨.setPitchScale r, rfl⟩
  | setExpectedInputDuration n => exact ⟨.setExpectedInputDuration n, rfl⟩
  | setMaxProcessSize n => exact ⟨.setMaxProcessSize n, rfl⟩
  | setKeyFrameMap m => exact ⟨.setKeyFrameMap m, rfl⟩
  | study input final =>
    obtain ⟨u, rfl⟩ := silent_block h
    exact ⟨.study u final, rfl⟩
  | process input final =>
    obtain ⟨u, rfl⟩ := silent_block h
    exact ⟨.process u final, rfl⟩
  | available => exact ⟨.available, rfl⟩
  | retrieve n => exact ⟨.retrieve n, rfl⟩
  | reset => exact ⟨.reset, rfl⟩

theorem silent_calls : ∀ {cs : List (Call ℝ)}, (∀ c ∈ cs, Silent c) → ∃ us : List (Call Unit), us.map (mapCall fun _ => (0 : ℝ)) = cs
  | [], _ => ⟨[], rfl⟩
  | c :: cs, h => by
    obtain ⟨u, hu⟩ := silent_call (h c List.mem_cons_self)
    obtain ⟨us, hus⟩ := silent_calls fun c hc => h c (List.mem_cons_of_mem _ hc)
    exact ⟨u :: us, by rw [List.map_cons, hu, hus]⟩

/-- C99.  If the audio given since construction was silent, the output is, whatever the calls. -/
theorem C99_silence {formants : Nat → (Nat → ℝ) → Nat → ℝ} (hf : ∀ n i, formants n (fun _ => 0) i = 0) (conf : Nat → R2Modify.Conf) {base : Env ℝ (Spec × Nat) ρ κ} (hb : Hushed base)
    {p : Params} {a b : R3.Dbl} {s t : State ℝ (Spec × Nat) ρ κ} (hs : create p (liveEnv (fourier formants) conf base) a b = some s) {cs : List (Call ℝ)} (hc : ∀ c ∈ cs, Silent c)
    {outs : List (List (List ℝ))} (h : run p (liveEnv (fourier formants) conf base) s cs = some (t, outs)) : ∀ out ∈ outs, ∀ channel ∈ out, ∀ x ∈ channel, x = 0 := by
  obtain ⟨us, rfl⟩ := silent_calls hc
  have e := map_create (quietHom hf conf hb) p a b
  rw [hs] at e
  obtain ⟨s₀, -, rfl⟩ := Option.map_eq_some_iff.mp e.symm
  have r := run_map (quietHom hf conf hb) p (fun _ => quiet_sees hf conf hb) us (fun _ _ _ _ => quiet_studies hf conf hb) s₀
  rw [show (quietHom hf conf hb).val = fun _ => (0 : ℝ) from rfl, h] at r
  obtain ⟨⟨t₀, outs₀⟩, -, e2⟩ := Option.map_eq_some_iff.mp r.symm
  obtain rfl : List.map (List.map (List.map fun _ => (0 : ℝ))) outs₀ = outs := congrArg Prod.snd e2
  intro out ho channel hch x hx
  obtain ⟨o, -, rfl⟩ := List.mem_map.mp ho
  obtain ⟨c, -, rfl⟩ := List.mem_map.mp hch
  obtain ⟨y, -, rfl⟩ := List.mem_map.mp hx
  rfl

/-! ## Examples -/

/-- The rest of an environment, for examples: a resampler that copies, detection that finds nothing. -/
noncomputable def Ex.plain : Env ℝ (Spec × Nat) Unit Unit where
  specInit := (⟨fun _ => 0, R2Modify.create, fun _ => 0, fun _ => 0⟩, 0)
  specReset := id
  specSizes := fun s _ _ => s
  analyse := fun s _ => (s, fun _ => 0)
  synthesise := fun s f _ _ _ => (s, f)
  emit := fun _ _ => 1
  shift := fun s _ _ => s
  rsInit := ()
  rsReset := id
  resample := fun r room xs _ _ => (r, xs.take room)
  effective := fun _ x => x
  curveInit := fun _ => ()
  curveReset := id
  curveSizes := fun k _ => k
  curve := fun k _ => (k, 0, false)
  studyCurve := fun k s _ => (k, s, fun _ => 0, 0, false)
  halve := fun x => x / 2
  mixdown := fun _ f => f 0

/-- An environment without samples. -/
def Ex.units : Env Unit Unit Unit Unit where
  specInit := ()
  specReset := id
  specSizes := fun s _ _ => s
  analyse := fun _ _ => ((), fun _ => ())
  synthesise := fun _ _ _ _ _ => ((), fun _ => ())
  emit := fun _ _ => ()
  shift := fun s _ _ => s
  rsInit := ()
  rsReset := id
  resample := fun r room xs _ _ => (r, xs.take room)
  effective := fun _ x => x
  curveInit := fun _ => ()
  curveReset := id
  curveSizes := fun k _ => k
  curve := fun k _ => (k, 0, false)
  studyCurve := fun k _ _ => (k, (), fun _ => (), 0, false)
  halve := fun _ => ()
  mixdown := fun _ _ => ()

/-- Samples forgotten. -/
def Ex.forget (f : Nat → Spectra) (conf : Nat → R2Modify.Conf) : Hom (liveEnv f conf Ex.plain) Ex.units where
  val := fun _ => ()
  spec := fun _ => ()
  rs := id
  cur := id
  zero := rfl
  add := fun _ _ => rfl
  sub := fun _ _ => rfl
  specInit := rfl
  specReset := fun _ => rfl
  specSizes := fun _ _ _ => rfl
  analyse := fun _ _ => rfl
  synthesise := fun _ _ _ _ _ => rfl
  emit := fun _ _ => rfl
  shift := fun _ _ _ => rfl
  rsInit := rfl
  rsReset := fun _ => rfl
  resample := fun r room l ratio final => by
    show (r, List.take room (l.map _)) = (r, (List.take room l).map _)
    rw [List.map_take]
  effective := fun _ _ => rfl
  curveInit := fun _ => rfl
  curveReset := fun _ => rfl
  curveSizes := fun _ _ => rfl
  halve := fun _ => rfl
  mixdown := fun _ _ => rfl

theorem Ex.exists_run (f : Nat → Spectra) (conf : Nat → R2Modify.Conf) {p : Params} {a b : R3.Dbl} {cs : List (Call ℝ)} {n : List (List Nat)}
    (h : ((create p Ex.units a b).bind fun s => run p Ex.units s (cs.map (mapCall fun _ => ()))).map (fun x => x.2.map (List.map List.length)) = some n) :
    ∃ s t outs, create p (liveEnv f conf Ex.plain) a b = some s ∧ run p (liveEnv f conf Ex.plain) s cs = some (t, outs) ∧ outs.map (List.map List.length) = n := by
  rw [map_create (Ex.forget f conf)] at h
  cases hs : create p (liveEnv f conf Ex.plain) a b with
  | none => rw [hs] at h; cases h
  | some s =>
    rw [hs] at h
    simp only [Option.map_some, Option.bind_some] at h
    have e := run_map (Ex.forget f conf) p (fun _ _ _ => rfl) cs (fun _ _ _ _ _ _ _ => rfl) s
    rw [show (Ex.forget f conf).val = fun _ => () from rfl] at e
    rw [e] at h
    cases hr : run p (liveEnv f conf Ex.plain) s cs with
    | none => rw [hr] at h; cases h
    | some x =>
      rw [hr] at h
      simp only [Option.map_some, Option.some.injEq, List.map_map, Function.comp_def, List.length_map] at h
      exact ⟨s, x.1, x.2, rfl, hr, h⟩

def Ex.slow : Params := { rate := 1000, realTime := true }

/-- Calls in real time, with the ratio changed in between. -/
def Ex.session {α : Type} (x : Nat → α) : List (Call α) :=
  [.process ((List.range 100).map fun i _ => x i) false, .available, .retrieve 60, .setTimeRatio (.fin 2), .process ((List.range 100).map fun i _ => x (100 + i)) true, .available, .retrieve 1000]

/-- All that is needed holds of these, and 400 samples come out. -/
theorem Ex.session_runs (f : Nat → Spectra) (conf : Nat → R2Modify.Conf) (x : Nat → ℝ) : ∃ s t outs, create Ex.slow (liveEnv f conf Ex.plain) (.fin (3 / 2)) (.fin 1) = some s ∧
    run Ex.slow (liveEnv f conf Ex.plain) s (Ex.session x) = some (t, outs) ∧ outs.map (List.map List.length) = [[], [], [10], [], [], [], [390]] :=
  Ex.exists_run f conf (show _ = _ by
    have : (Ex.session x).map (mapCall fun _ => ()) = Ex.session fun _ => () := by
      simp only [Ex.session, List.map_cons, List.map_nil, mapCall, mapBlock, List.map_map, Function.comp_def]
    rw [this]
    decide +kernel)

def Ex.follows (k : ℝ) : Follows k Ex.plain where
  rs := id
  cur := id
  rsInit := rfl
  rsReset := fun _ => rfl
  resample := fun r room l ratio final => by
    show (r, List.take room (l.map _)) = (r, (List.take room l).map _)
    rw [List.map_take]
  effective := fun _ _ => rfl
  curveInit := fun _ => rfl
  curveReset := fun _ => rfl
  curveSizes := fun _ _ => rfl
  mixdown := fun _ _ => rfl

def Ex.hushed : Hushed Ex.plain where
  hush := fun _ => True
  rsInit := trivial
  rsReset := fun _ _ => trivial
  resample := fun _ _ _ _ _ _ => ⟨trivial, fun x hx => (List.mem_replicate.mp (List.mem_of_mem_take hx)).2⟩
  mixdown := fun _ => rfl
  study := fun _ _ _ h => ⟨h, fun _ => rfl⟩

/-- C98 applies: any audio, and the same ten times as loud. -/
example (formants : Nat → (Nat → ℝ) → Nat → ℝ) (x : Nat → ℝ) : ∃ s t t' outs, create Ex.slow (liveEnv (fourier formants) (fun _ => ⟨1000, 64, 5, 3 / 2, true, false, false, 600, 1200, 12000⟩) Ex.plain) (.fin (3 / 2)) (.fin 1) = some s ∧
    run Ex.slow (liveEnv (fourier formants) (fun _ => ⟨1000, 64, 5, 3 / 2, true, false, false, 600, 1200, 12000⟩) Ex.plain) s (Ex.session x) = some (t, outs) ∧
    run Ex.slow (liveEnv (fourier formants) (fun _ => ⟨1000, 64, 5, 3 / 2, true, false, false, 600, 1200, 12000⟩) Ex.plain) s (Ex.session fun i => 10 * x i) = some (t', outs.map (List.map (List.map (10 * ·)))) := by
  obtain ⟨s, t, outs, h1, h2, -⟩ := Ex.session_runs (fourier formants) (fun _ => ⟨1000, 64, 5, 3 / 2, true, false, false, 600, 1200, 12000⟩) x
  have := C98_level (k := 10) (by norm_num) formants (fun _ => rfl) (Ex.follows 10) h1 (Ex.session x) (fun _ _ _ => rfl) (by intro h; cases h)
  rw [h2, Option.map_some] at this
  obtain ⟨⟨t', o⟩, h3, rfl⟩ := Option.map_eq_some_iff.mp this
  refine ⟨s, t, t', outs, h1, h2, ?_⟩
  rw [← h3]
  simp only [Ex.session, List.map_cons, List.map_nil, mapCall, mapBlock, List.map_map]
  rfl

/-- C99 applies. -/
example (formants : Nat → (Nat → ℝ) → Nat → ℝ) (hf : ∀ n i, formants n (fun _ => 0) i = 0) : ∃ s t outs, create Ex.slow (liveEnv (fourier formants) (fun _ => ⟨1000, 64, 5, 3 / 2, true, false, true, 600, 1200, 12000⟩) Ex.plain) (.fin (3 / 2)) (.fin 1) = some s ∧
    run Ex.slow (liveEnv (fourier formants) (fun _ => ⟨1000, 64, 5, 3 / 2, true, false, true, 600, 1200, 12000⟩) Ex.plain) s (Ex.session fun _ => 0) = some (t, outs) ∧
    outs = [[], [], [List.replicate 10 0], [], [], [], [List.replicate 390 0]] := by
  obtain ⟨s, t, outs, h1, h2, h3⟩ := Ex.session_runs (fourier formants) (fun _ => ⟨1000, 64, 5, 3 / 2, true, false, true, 600, 1200, 12000⟩) fun _ => 0
  refine ⟨s, t, outs, h1, h2, ?_⟩
  have := C99_silence hf _ Ex.hushed h1 (by
    intro c hc
    simp only [Ex.session, List.mem_cons, List.not_mem_nil, or_false] at hc
    rcases hc with rfl | rfl | rfl | rfl | rfl | rfl | rfl <;> first | trivial | (
      intro f hf c
      obtain ⟨i, -, rfl⟩ := List.mem_map.mp hf
      rfl)) h2
  have key : ∀ (o : List (List (List ℝ))), (∀ out ∈ o, ∀ channel ∈ out, ∀ x ∈ channel, x = 0) → o = (o.map (List.map List.length)).map (List.map fun n => List.replicate n 0) := by
    intro o ho
    rw [List.map_map]
    conv_lhs => rw [← List.map_id o]
    refine List.map_congr_left fun out hout => ?_
    simp only [id, Function.comp_def, List.map_map]
    conv_lhs => rw [← List.map_id out]
    refine List.map_congr_left fun ch hch => ?_
    exact List.eq_replicate_of_mem (ho out hout ch hch)
  rw [key outs this, h3]
  rfl

end Verif.R2
