import Verif.R2Thirds
/-!
# The faster engine in real time: what is given is resampled once and stretched (C150)
-/
namespace Verif.R2
open Verif.Round Verif.StretchCalc

variable {α σ ρ κ : Type}

/-- The calls of a resampler since construction or reset: what was put in, whether it was told that this is the end, and what came out. -/
abbrev Log (α : Type) : Type := List (List α × Bool × List α)

/-- All that was put in. -/
def Log.putIn (l : Log α) : List α := (l.map fun x => x.1).flatten

/-- All that came out. -/
def Log.cameOut (l : Log α) : List α := (l.map fun x => x.2.2).flatten

/-- The environment with the same resampler, which keeps a log of its calls.  Nothing depends on the log. -/
def logged (env : Env α σ ρ κ) : Env α σ (ρ × Log α) κ where
  specInit := env.specInit
  specReset := env.specReset
  specSizes := env.specSizes
  analyse := env.analyse
  synthesise := env.synthesise
  emit := env.emit
  shift := env.shift
  rsInit := (env.rsInit, [])
  rsReset := fun r => (env.rsReset r.1, [])
  resample := fun r room xs ratio final =>
    (((env.resample r.1 room xs ratio final).1, r.2 ++ [(xs, final, (env.resample r.1 room xs ratio final).2)]), (env.resample r.1 room xs ratio final).2)
  effective := fun r x => env.effective r.1 x
  curveInit := env.curveInit
  curveReset := env.curveReset
  curveSizes := env.curveSizes
  curve := env.curve
  studyCurve := env.studyCurve
  halve := env.halve
  mixdown := env.mixdown

/-- A resampler that, until it is told of the end, gives at most the number of samples that it is asked to turn those that it gets into, rounded up. -/
structure Modest (env : Env α σ ρ κ) (ratio : Rat) where
  ok : ρ → Prop
  init : ok env.rsInit
  reset : ∀ r, ok r → ok (env.rsReset r)
  step : ∀ r room xs, ok r → (xs.length * ratio).ceil.toNat ≤ room →
    ok (env.resample r room xs ratio false).1 ∧ (env.resample r room xs ratio false).2.length ≤ (xs.length * ratio).ceil.toNat

/-- What has been given since construction or the last reset. -/
def putTo : List (Frame α) → List (Call α) → List (Frame α)
  | g, [] => g
  | g, .process input _ :: cs => putTo (g ++ input) cs
  | _, .reset :: cs => putTo [] cs
  | g, .setTimeRatio _ :: cs => putTo g cs
  | g, .setPitchScale _ :: cs => putTo g cs
  | g, .setExpectedInputDuration _ :: cs => putTo g cs
  | g, .setMaxProcessSize _ :: cs => putTo g cs
  | g, .setKeyFrameMap _ :: cs => putTo g cs
  | g, .study _ _ :: cs => putTo g cs
  | g, .available :: cs => putTo g cs
  | g, .retrieve _ :: cs => putTo g cs

/-- The pitch scale is left alone (a time ratio that is infinite or not a number sets it to 1), and nothing is studied. -/
def Steady : Call α → Prop
  | .setPitchScale _ => False
  | .setTimeRatio r => ∃ q, r = .fin q
  | .study _ _ => False
  | _ => True

/-- Nothing is given after the end unless there was a reset; `ended` says whether the end has come. -/
def Proper : Bool → List (Call α) → Prop
  | _, [] => True
  | ended, .process _ final :: cs => ended = false ∧ Proper final cs
  | _, .reset :: cs => Proper false cs
  | ended, .setTimeRatio _ :: cs => Proper ended cs
  | ended, .setPitchScale _ :: cs => Proper ended cs
  | ended, .setExpectedInputDuration _ :: cs => Proper ended cs
  | ended, .setMaxProcessSize _ :: cs => Proper ended cs
  | ended, .setKeyFrameMap _ :: cs => Proper ended cs
  | ended, .study _ _ :: cs => Proper ended cs
  | ended, .available :: cs => Proper ended cs
  | ended, .retrieve _ :: cs => Proper ended cs

/-- The resampler of every channel has been given what was given to the engine (or its mid or side), each sample once and in order; it was told of the end with the last call, if at all; and what
there is to be stretched is the last of what it gave. -/
def Whole [Add α] [Sub α] (p : Params) (env : Env α σ ρ κ) (g : List (Frame α)) (s : State α σ (ρ × Log α) κ) : Prop :=
  ∀ c cd, s.chans[c]? = some cd → ∃ r log, cd.resampler = some (r, log) ∧ Log.putIn log = g.map (prepared p env c) ∧ (∀ x ∈ log.dropLast, x.2.1 = false) ∧
    cd.inbuf.data <:+ Log.cameOut log

/-- **C150** as claimed: in real time, if the input is resampled before it is stretched. -/
def C150_statement : Prop := ∀ (α σ ρ κ : Type) [Zero α] [Add α] [Sub α] (p : Params) (env : Env α σ ρ κ) (timeRatio pitchScale : R3.Dbl) (s₀ s : State α σ (ρ × Log α) κ)
    (cs : List (Call α)) (outs : List (List (List α))), p.realTime = true → create p (logged env) timeRatio pitchScale = some s₀ → 0 < s₀.sizes.pitchScale →
    resampleBefore p s₀.sizes.pitchScale = true → Nonempty (Modest env (1 / s₀.sizes.pitchScale)) → (∀ c ∈ cs, Steady c) → Proper false cs →
    run p (logged env) s₀ cs = some (s, outs) → Whole p env (putTo [] cs) s

/-! ## Chunks leave the resamplers alone -/

/-- A channel from which some frames may have been taken. -/
structure Rest (x y : Chan α σ ρ) : Prop where
  resampler : y.resampler = x.resampler
  cap : y.inbuf.cap = x.inbuf.cap
  data : ∃ n, y.inbuf.data = x.inbuf.data.drop n

theorem Rest.refl (x : Chan α σ ρ) : Rest x x := ⟨rfl, rfl, 0, rfl⟩

theorem Rest.of_eq {x y : Chan α σ ρ} (h : y.resampler = x.resampler) (h' : y.inbuf = x.inbuf) : Rest x y := ⟨h, by rw [h'], 0, by rw [h']; rfl⟩

theorem Rest.trans {x y z : Chan α σ ρ} (h : Rest x y) (h' : Rest y z) : Rest x z := by
  obtain ⟨n, hn⟩ := h.data
  obtain ⟨m, hm⟩ := h'.data
  exact ⟨h'.resampler.trans h.resampler, h'.cap.trans h.cap, n + m, by rw [hm, hn, List.drop_drop]⟩

/-- All channels. -/
def Rests (l m : List (Chan α σ ρ)) : Prop := List.Forall₂ Rest l m

theorem Rests.refl : ∀ (l : List (Chan α σ ρ)), Rests l l
  | [] => .nil
  | x :: l => .cons (.refl x) (Rests.refl l)

theorem Rests.trans {l m n : List (Chan α σ ρ)} (h : Rests l m) (h' : Rests m n) : Rests l n := by
  unfold Rests at *
  induction h generalizing n with
  | nil => exact h'
  | cons a _ ih => cases h' with | cons b c => exact .cons (a.trans b) (ih c)

section
variable {p : Params} {env : Env α σ ρ κ}

theorem rest_writeChunk {z : Sizes} (hb : resampleBefore p z.pitchScale = true) {si : Nat} {last : Bool} {cd cd' : Chan α σ ρ} (h : writeChunk p env z si last cd = some cd') :
    Rest cd cd' := by
  unfold writeChunk at h
  split at h
  · exact absurd h (by simp)
  · have e : ∀ mix, resampled p env z cd mix last = (cd, mix) := by
      intro mix
      unfold resampled
      rw [hb]
      cases cd.resampler <;> rfl
    simp only [e, Option.some.injEq] at h
    subst h
    refine .of_eq ?_ ?_ <;> unfold lessFill writeOutput <;> (repeat' split) <;> rfl

theorem rest_ensureOutbuf (z : Sizes) (si : Nat) (cd : Chan α σ ρ) : Rest cd (ensureOutbuf z si cd) := by
  unfold ensureOutbuf
  simp only
  (repeat' split) <;> exact .of_eq rfl rfl

theorem rest_processChunk {z : Sizes} (hb : resampleBefore p z.pitchScale = true) {i : Incs} {cd : Chan α σ ρ} {r : Chan α σ ρ × Bool} (h : processChunk p env z i cd = some r) : Rest cd r.1 := by
  have h0 : Rest cd (spectral env z i cd) := by
    unfold spectral
    split <;> exact .of_eq rfl rfl
  unfold processChunk at h
  generalize hs : spectral env z i cd = cs at h h0
  simp only at h
  split at h
  · split at h
    · obtain rfl := Option.some.inj h; exact h0
    · obtain ⟨x, h1, h2⟩ := Option.map_eq_some_iff.mp h
      subst h2
      exact (h0.trans (rest_ensureOutbuf _ _ _)).trans (rest_writeChunk hb h1)
  · obtain ⟨x, h1, h2⟩ := Option.map_eq_some_iff.mp h
    subst h2
    exact (h0.trans (rest_ensureOutbuf _ _ _)).trans (rest_writeChunk hb h1)

theorem rest_eachChunk {z : Sizes} (hb : resampleBefore p z.pitchScale = true) {i : Incs} : ∀ (l : List (Chan α σ ρ)) (last : Bool) (r : List (Chan α σ ρ) × Bool),
    eachChunk p env z i l last = some r → Rests l r.1
  | [], last, r, h => by
    obtain rfl := Option.some.inj h
    exact .nil
  | cd :: cds, last, r, h => by
    unfold eachChunk at h
    simp only [Option.bind_eq_bind] at h
    obtain ⟨⟨x, b⟩, h1, h⟩ := Option.bind_eq_some_iff.mp h
    obtain ⟨⟨xs, b'⟩, h2, h⟩ := Option.bind_eq_some_iff.mp h
    obtain rfl := Option.some.inj h
    exact .cons ((rest_processChunk hb h1).trans (.of_eq rfl rfl)) (rest_eachChunk hb cds b _ h2)

theorem rest_testInbuf (z : Sizes) (cd : Chan α σ ρ) : Rest cd (testInbuf z cd).1 := by
  unfold testInbuf
  simp only
  (repeat' split) <;> exact .of_eq rfl rfl

theorem rest_takeFrame (z : Sizes) (cd : Chan α σ ρ) : Rest cd (takeFrame z cd) := by
  unfold takeFrame
  split
  · exact .refl _
  · exact ⟨rfl, rfl, z.increment, rfl⟩

theorem rest_takeFrames (z : Sizes) : ∀ (l : List (Chan α σ ρ)), Rests l (takeFrames env z l).1
  | [] => .nil
  | cd :: cds => by
    unfold takeFrames
    have h := rest_testInbuf z cd
    generalize testInbuf z cd = x at h ⊢
    obtain ⟨y, ready⟩ := x
    simp only
    split
    · refine .cons (h.trans ?_) (rest_takeFrames z cds)
      show Rest y _
      split
      · exact .refl _
      · exact (rest_takeFrame z y).trans (.of_eq rfl rfl)
    · exact .cons h (Rests.refl _)

/-- What chunks leave alone. -/
structure Stays (s s' : State α σ ρ κ) : Prop where
  sizes : s'.sizes = s.sizes
  mode : s'.mode = s.mode
  chans : Rests s.chans s'.chans

theorem Stays.refl (s : State α σ ρ κ) : Stays s s := ⟨rfl, rfl, .refl _⟩

theorem Stays.trans {s t u : State α σ ρ κ} (h : Stays s t) (h' : Stays t u) : Stays s u :=
  ⟨h'.sizes.trans h.sizes, h'.mode.trans h.mode, h.chans.trans h'.chans⟩

theorem stays_calculate (s : State α σ ρ κ) : Stays s (calculateIncrements env s).1 := by
  unfold calculateIncrements
  cases hc : s.chans with
  | nil => exact .refl s
  | cons cd cds =>
    simp only
    split
    · exact ⟨rfl, rfl, by rw [hc]; exact .cons (.of_eq rfl rfl) (Rests.refl _)⟩
    · exact .refl s

theorem stays_choose (s : State α σ ρ κ) : Stays s (chooseIncrements env s).1 := by
  unfold chooseIncrements
  cases hc : s.chans with
  | nil => exact stays_calculate s
  | cons cd cds =>
    simp only
    have hg : Rest cd (getIncrements s.sizes s.outputIncrements cd).1 := by
      unfold getIncrements
      split <;> exact .of_eq rfl rfl
    generalize getIncrements s.sizes s.outputIncrements cd = x at hg ⊢
    have h1 : Stays s { s with chans := x.1 :: cds } := ⟨rfl, rfl, by rw [hc]; exact .cons hg (Rests.refl _)⟩
    split
    · exact h1
    · exact h1.trans (stays_calculate _)

theorem stays_oneChunk {s : State α σ ρ κ} (hb : resampleBefore p s.sizes.pitchScale = true) {r : State α σ ρ κ × Bool} (h : processOneChunk p env s = some r) : Stays s r.1 := by
  unfold processOneChunk at h
  have h0 := rest_takeFrames (env := env) s.sizes s.chans
  generalize takeFrames env s.sizes s.chans = x at h h0
  simp only at h
  have h1 : Stays s { s with chans := x.1 } := ⟨rfl, rfl, h0⟩
  split at h
  · have h2 := stays_choose (env := env) { s with chans := x.1 }
    generalize chooseIncrements env { s with chans := x.1 } = y at h h2
    simp only [Option.bind_eq_bind] at h
    have h3 := h1.trans h2
    obtain ⟨w, h4, h5⟩ := Option.bind_eq_some_iff.mp h
    obtain rfl := Option.some.inj h5
    have h6 := rest_eachChunk (by rw [h3.sizes]; exact hb) _ _ _ h4
    exact ⟨h3.sizes, h3.mode, h3.chans.trans h6⟩
  · obtain rfl := Option.some.inj h
    exact h1

theorem stays_finishLoop : ∀ (fuel : Nat) (s s' : State α σ ρ κ), resampleBefore p s.sizes.pitchScale = true → finishLoop p env fuel s = some s' → Stays s s'
  | 0, s, s', _, h => by simp [finishLoop] at h
  | fuel + 1, s, s', hb, h => by
    unfold finishLoop at h
    cases hc : s.chans with
    | nil => rw [hc] at h; obtain rfl := Option.some.inj h; exact .refl s
    | cons cd cds =>
      rw [hc] at h
      simp only at h
      split at h
      · obtain ⟨⟨t, last⟩, h1, h2⟩ := Option.bind_eq_some_iff.mp h
        have h3 := stays_oneChunk hb h1
        simp only at h2
        split at h2
        · obtain rfl := Option.some.inj h2; exact h3
        · exact h3.trans (stays_finishLoop fuel t s' (by rw [h3.sizes]; exact hb) h2)
      · obtain rfl := Option.some.inj h; exact .refl s

theorem stays_finish (hrt : p.realTime = true) {s s' : State α σ ρ κ} (hb : resampleBefore p s.sizes.pitchScale = true) (h : finish p env s = some s') : Stays s s' := by
  unfold finish at h
  cases hc : s.chans with
  | nil => rw [hc] at h; obtain rfl := Option.some.inj h; exact .refl s
  | cons cd cds =>
    rw [hc] at h
    simp only [hrt, if_true] at h
    split at h
    · exact stays_finishLoop _ s s' hb h
    · obtain rfl := Option.some.inj h; exact .refl s

end

end Verif.R2
