import Verif.R2StepProps
import Verif.BQMap
import Verif.LiveBQ
/-!
# The faster engine with the built-in resampler: three channels together do not stay in step (C72)

The number of samples that the built-in resampler gives does not depend on the samples (`builtinCounted`), so that C41 and C72 are about it.  At
a pitch scale of 3 it gives what `thirds` says (`thirds_is_builtin`).
-/
namespace Verif.R2
open Verif.Round Verif.StretchCalc

variable {α σ ρ κ τ : Type}

/-! ## The built-in resampler in the engine -/

/-- Resampler.cpp:877-904 with one channel, as the engine calls it (StretcherProcess.cpp:213-218): an environment with the built-in resampler.
The output buffer is taken to hold zeros; only what is written to it is used. -/
def builtin (cfg : BQ.Cfg α) (base : Env α σ ρ κ) : Env α σ (BQ.Res α) κ where
  specInit := base.specInit
  specReset := base.specReset
  specSizes := base.specSizes
  analyse := base.analyse
  synthesise := base.synthesise
  emit := base.emit
  shift := base.shift
  rsInit := BQ.init
  rsReset := BQ.reset
  resample := fun r room xs ratio final =>
    match BQ.resample cfg r (List.replicate room cfg.ar.zero) room xs xs.length ratio final with
    | some (r, out, n) => (r, out.take n)
    | none => (r, [])
  effective := fun _ x => x
  curveInit := base.curveInit
  curveReset := base.curveReset
  curveSizes := base.curveSizes
  curve := base.curve
  studyCurve := base.studyCurve
  halve := base.halve
  mixdown := base.mixdown

/-- Samples of which nothing is known but that they are there. -/
def unknown : BQ.Arith Unit where
  zero := ()
  window := fun _ _ _ => ()
  lerp := fun _ _ _ => ()
  dot := fun _ _ => ()
  dot1 := fun _ _ => ()
  scaled := fun _ _ => ()
  mix := fun _ _ _ _ => ()
  mixNone := fun _ _ => ()

/-- The samples are forgotten. -/
def counting (ar : BQ.Arith α) : BQ.Along ar unknown where
  val := fun _ => ()
  co := fun _ => ()
  zero := rfl
  coZero := rfl
  window := fun _ _ _ => rfl
  lerp := fun _ _ _ => rfl
  dot := fun _ _ => rfl
  dot1 := fun _ _ => rfl
  scaled := fun _ _ => rfl
  mix := fun _ _ _ _ => rfl
  mixNone := fun _ _ => rfl

theorem map_units (l : List α) : l.map (fun _ => ()) = List.replicate l.length () := by
  induction l with
  | nil => rfl
  | cons a l ih => simp only [List.map_cons, ih, List.length_cons, List.replicate_succ]

/-- The number of samples that the built-in resampler gives does not depend on the samples. -/
def builtinCounted (cfg : BQ.Cfg α) (base : Env α σ ρ κ) : Counted (builtin cfg base) (BQ.Res Unit) where
  key := (counting cfg.ar).res
  step := fun r room n ratio final =>
    match BQ.resample (cfg.over unknown) r (List.replicate room ()) room (List.replicate n ()) n ratio final with
    | some (r, out, n) => (r, (out.take n).length)
    | none => (r, 0)
  stepReset := BQ.reset
  keyStep := by
    intro r room xs ratio final
    have h := BQ.resample_map (h := counting cfg.ar) r (List.replicate room cfg.ar.zero) room xs xs.length ratio final
    rw [show (counting cfg.ar).val = fun _ => () from rfl, map_units, map_units, List.length_replicate] at h
    simp only [builtin]
    rw [h]
    cases BQ.resample cfg r (List.replicate room cfg.ar.zero) room xs xs.length ratio final <;> rfl
  length := by
    intro r room xs ratio final
    have h := BQ.resample_map (h := counting cfg.ar) r (List.replicate room cfg.ar.zero) room xs xs.length ratio final
    rw [show (counting cfg.ar).val = fun _ => () from rfl, map_units, map_units, List.length_replicate] at h
    simp only [builtin]
    rw [h]
    cases BQ.resample cfg r (List.replicate room cfg.ar.zero) room xs xs.length ratio final with
    | none => rfl
    | some x => simp
  keyReset := fun _ => rfl

/-! ## A third -/

/-- What the built-in resampler gives at a ratio of 1/3, told how many samples it has taken and given. -/
def thirdsDue (final : Bool) (n : Nat) : Nat := if final then (n + 2) / 3 else (n - 93) / 3

/-- A call with `m` samples, and all the space that it needs. -/
def thirdsCall (x : Nat × Nat) (m : Nat) (final : Bool) : (Nat × Nat) × Nat :=
  let n := thirdsDue final (x.1 + m) - x.2
  ((x.1 + m, x.2 + n), n)

/-- The numbers given by calls one after another. -/
def thirdsCounts : Nat × Nat → List (Nat × Bool) → List Nat
  | _, [] => []
  | x, (m, final) :: cs => (thirdsCall x m final).2 :: thirdsCounts (thirdsCall x m final).1 cs

/-- None of the calls is short of space. -/
def ThirdsFit : Nat × Nat → List (BQ.Call α) → Prop
  | _, [] => True
  | x, a :: cs => (thirdsCall x a.incount a.final).2 < a.outspace ∧ ThirdsFit (thirdsCall x a.incount a.final).1 cs

theorem thirds_due {cfg : BQ.Cfg α} (hq : cfg.quality = .fastestTolerable) {p : BQ.Params} (hn : p.num = 1) (hd : p.den = 3)
    (hf : BQ.filterLengthFor .fastestTolerable p = 191) (final : Bool) (n k : Nat) : BQ.DueS cfg p final n k ↔ k < thirdsDue final n := by
  unfold BQ.DueS BQ.Due BQ.reach thirdsDue
  simp only [hq, hf, hn, hd]
  have h1 : BQ.dropped 1 3 (191 / 2 % 1) k = 3 * k := by
    unfold BQ.dropped BQ.ceilDiv
    omega
  have h2 : BQ.phaseAt 1 3 (191 / 2 % 1) k = 191 / 2 % 1 := by
    unfold BQ.phaseAt
    rw [h1]; omega
  rw [h1, h2]
  cases final <;> simp <;> omega

theorem thirds_run {cfg : BQ.Cfg α} (hc : cfg.channels = 1) (hq : cfg.quality = .fastestTolerable) {p : BQ.Params} (hn : p.num = 1) (hd : p.den = 3)
    (hf : BQ.filterLengthFor .fastestTolerable p = 191) : ∀ (cs : List (BQ.Call α)) (xs : List α) (k : Nat) (r : BQ.Res α),
    (∀ a ∈ cs, a.Valid 1 ∧ a.ratio = 1 / 3) → ThirdsFit (xs.length, k) cs → BQ.Going cfg (1 / 3) p xs k r →
    ∃ res, BQ.run cfg r (cs.map BQ.Op.call) = some res ∧ res.map (·.2) = thirdsCounts (xs.length, k) (cs.map fun a => (a.incount, a.final)) := by
  intro cs
  induction cs with
  | nil => intro xs k r _ _ _; exact ⟨[], rfl, rfl⟩
  | cons a cs ih =>
    intro xs k r hv hfit hg
    obtain ⟨v1, v2⟩ := hv a (by simp)
    have vo := v1.out
    have vi := v1.inp
    rw [Nat.mul_one] at vo vi
    have hr : BQ.ValidRatio (1 / 3) := by rw [← v2]; exact v1.ratio
    obtain ⟨r', out', n, m, a1, a2, a3, a4, a5, _, a7, a8⟩ := BQ.resample_going_least hc hr hg vo vi a.final
    obtain ⟨f1, f2⟩ := hfit
    have hup : ∀ j, j < n → k + j < thirdsDue a.final (xs.length + m) := fun j hj => (thirds_due hq hn hd hf _ _ _).mp (a7 j hj)
    have hmono : thirdsDue a.final (xs.length + m) ≤ thirdsDue a.final (xs.length + a.incount) := by
      unfold thirdsDue; split <;> omega
    have hlt : n < a.outspace := by
      rcases Nat.eq_zero_or_pos n with h0 | h0
      · rw [h0]; exact lt_of_le_of_lt (Nat.zero_le _) f1
      · have := hup (n - 1) (by omega)
        unfold thirdsCall at f1
        simp only at f1
        omega
    obtain ⟨b1, b2⟩ := a5 hlt
    subst b1
    rw [thirds_due hq hn hd hf] at b2
    have hcount : thirdsCall (xs.length, k) a.incount a.final = ((xs.length + a.incount, k + n), n) := by
      unfold thirdsCall
      simp only
      have : thirdsDue a.final (xs.length + a.incount) - k = n := by
        rcases Nat.eq_zero_or_pos n with h0 | h0
        · omega
        · have := hup (n - 1) (by omega)
          omega
      rw [this]
    have hlen : (xs ++ a.inp.take a.incount).length = xs.length + a.incount := by
      rw [List.length_append, List.length_take, Nat.min_eq_left vi]
    rw [hcount] at f2
    obtain ⟨res, c1, c2⟩ := ih (xs ++ a.inp.take a.incount) (k + n) r' (fun b hb => hv b (by simp [hb])) (by rw [hlen]; exact f2) a2
    refine ⟨(out', n) :: res, ?_, ?_⟩
    · simp only [List.map_cons, BQ.run, v2, a1, c1, Option.bind_eq_bind, Option.bind_some]
      rfl
    · simp only [List.map_cons, thirdsCounts, hcount, c2, hlen]

/-- `thirds` is right: the model of `src/common/BQResampler.cpp`, with any arithmetic, in the configuration that the engine gives it in real time, from construction and in any
succession of calls with enough space, gives so many samples with each call. -/
theorem thirds_is_builtin {cfg : BQ.Cfg α} (hc : cfg.channels = 1) (hq : cfg.quality = .fastestTolerable) (hm : cfg.mostlyFixed = false) {cs : List (BQ.Call α)}
    (hv : ∀ a ∈ cs, a.Valid 1 ∧ a.ratio = 1 / 3) (hfit : ThirdsFit (0, 0) cs) :
    ∃ res, BQ.run cfg BQ.init (cs.map BQ.Op.call) = some res ∧ res.map (·.2) = thirdsCounts (0, 0) (cs.map fun a => (a.incount, a.final)) := by
  have hr : BQ.ValidRatio (1 / 3) := by unfold BQ.ValidRatio; norm_num
  obtain ⟨p, g1, _⟩ := BQ.init_going (cfg := cfg) hr
  have e := g1.pick
  rw [Live.pickParams_cfg cfg (⟨unknown, .fastestTolerable, false, true, 44100, 1⟩ : BQ.Cfg Unit) hq hm] at e
  have hp : ((BQ.pickParams (⟨unknown, .fastestTolerable, false, true, 44100, 1⟩ : BQ.Cfg Unit) (1 / 3)).map fun p => (p.num, p.den, BQ.filterLengthFor .fastestTolerable p)) = some (1, 3, 191) := by
    decide +kernel
  rw [e] at hp
  simp only [Option.map_some, Option.some.injEq, Prod.mk.injEq] at hp
  exact thirds_run hc hq hp.1 hp.2.1 hp.2.2 cs [] 0 BQ.init hv hfit g1

/-- The calls of the resampler of the third channel in `thirds_apart`: the 32 samples of the second call do not fit and are lost, and the last sample is given again. -/
example : thirdsCounts (0, 0) [(3072, false), (1, true), (1, true)] = [993, 32, 0] := by decide

/-- For examples: an environment with a resampler that counts in thirds. -/
def thirds : Env Int Unit (Nat × Nat) Unit where
  specInit := ()
  specReset := id
  specSizes := fun s _ _ => s
  analyse := fun s _ => (s, fun _ => 0)
  synthesise := fun s f _ _ _ => (s, f)
  emit := fun _ _ => 1
  shift := fun s _ _ => s
  rsInit := (0, 0)
  rsReset := fun _ => (0, 0)
  resample := fun r room xs _ final => ((thirdsCall r xs.length final).1, (List.replicate (thirdsCall r xs.length final).2 1).take room)
  effective := fun _ x => x
  curveInit := fun _ => ()
  curveReset := id
  curveSizes := fun k _ => k
  curve := fun k _ => (k, 0, false)
  studyCurve := fun k s _ => (k, s, fun _ => 0, 0, false)
  halve := fun x => x / 2
  mixdown := fun _ f => f 0

/-- It counts. -/
def thirdsCounted : Counted thirds (Nat × Nat) where
  key := id
  step := fun r room n _ final => ((thirdsCall r n final).1, min room (thirdsCall r n final).2)
  stepReset := fun _ => (0, 0)
  keyStep := by intros; rfl
  length := by intro r room xs ratio final; simp [thirds]
  keyReset := by intros; rfl

/-- The engine created and run. -/
def thirdsRun (p : Params) (timeRatio : Rat) (cs : List (Call Int)) : Option (List Nat × List (List Nat)) :=
  (create p thirds (.fin timeRatio) (.fin 3)).bind fun s => (run p thirds s cs).map fun x =>
    (x.1.chans.map fun cd => cd.outbuf.data.length, x.2.map fun o => o.map List.length)

set_option maxRecDepth 100000 in
/-- The engine of `C72_violated`: the third channel has lost 32 samples, which its resampler gave when there was no space for them, and is at its end before the others. -/
theorem thirds_apart : thirdsRun { rate := 8000, channels := 3, channelsTogether := true, realTime := true } 1
    [.setMaxProcessSize 4096, .process (List.replicate 3073 fun c => c) true, .available] = some ([2888, 2888, 2828], [[], [], []]) := by
  decide +kernel

/-- **C72** as claimed. -/
def C72_statement : Prop := ∀ (α σ ρ κ τ : Type) [Zero α] [Add α] [Sub α] (p : Params) (env : Env α σ ρ κ) (_ : Counted env τ) (timeRatio pitchScale : R3.Dbl) (s₀ s : State α σ ρ κ)
    (cs : List (Call α)) (outs : List (List (List α))), p.realTime = true → create p env timeRatio pitchScale = some s₀ → run p env s₀ cs = some (s, outs) →
    InStepOutput s outs ∧ s.chans.length = p.channels

/-- **C72** is false of the code: with three channels together, a pitch scale of 3 and a last block of 3073 samples there are in the end 60 samples fewer of the third channel.  The
resampler counts as the built-in one does (`thirds_is_builtin`). -/
theorem C72_violated : ¬ C72_statement := by
  intro h
  have hrun := thirds_apart
  unfold thirdsRun at hrun
  obtain ⟨s₀, h0, h1⟩ := Option.bind_eq_some_iff.mp hrun
  obtain ⟨⟨s, outs⟩, h2, h3⟩ := Option.map_eq_some_iff.mp h1
  obtain ⟨⟨a, _⟩, _⟩ := h Int Unit (Nat × Nat) Unit (Nat × Nat) _ thirds thirdsCounted _ _ s₀ s _ outs rfl h0 h2
  simp only [Prod.mk.injEq] at h3
  have h4 := h3.1
  obtain ⟨x, hx, ex⟩ := List.mem_map.mp (show 2888 ∈ s.chans.map fun cd => cd.outbuf.data.length by rw [h4]; simp)
  obtain ⟨y, hy, ey⟩ := List.mem_map.mp (show 2828 ∈ s.chans.map fun cd => cd.outbuf.data.length by rw [h4]; simp)
  have := a x hx y hy
  omega

end Verif.R2
