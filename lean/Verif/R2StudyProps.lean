import Verif.R2Whole
/-!
# The faster engine: what `study` finds does not depend on the blocks (C77)
-/
namespace Verif.R2
open Verif.Round Verif.StretchCalc

variable {α σ ρ κ : Type}

section
variable {p : Params} {env : Env α σ ρ κ}

theorem studyLoop_chans (final : Bool) (l : List (Chan α σ ρ)) : ∀ (fuel : Nat) (s : State α σ ρ κ) (cd : Chan α σ ρ),
    studyLoop env final fuel { s with chans := l } cd = (studyLoop env final fuel s cd).map fun r => ({ r.1 with chans := l }, r.2) := by
  intro fuel
  induction fuel with
  | zero => intro s cd; rfl
  | succ fuel ih =>
    intro s cd
    unfold studyLoop
    simp only
    split
    · rw [← ih]
    · rfl

theorem studyInput_chans (final : Bool) (l : List (Chan α σ ρ)) : ∀ (fuel : Nat) (s : State α σ ρ κ) (cd : Chan α σ ρ) (rest : List α),
    studyInput env final fuel { s with chans := l } cd rest = (studyInput env final fuel s cd rest).map fun r => ({ r.1 with chans := l }, r.2) := by
  intro fuel
  induction fuel with
  | zero =>
    intro s cd rest
    unfold studyInput
    split <;> rfl
  | succ fuel ih =>
    intro s cd rest
    unfold studyInput
    split
    · rfl
    · simp only
      rw [studyLoop_chans]
      cases studyLoop env final _ s _ with
      | none => rfl
      | some r => exact ih r.1 r.2 _

/-- The sample of a frame that is studied. -/
def mixed (p : Params) (env : Env α σ ρ κ) (f : Frame α) : α := env.mixdown p.channels f

/-- The mixing down of a single channel gives that channel (which is not done at all before the last block). -/
def MonoSame (p : Params) (env : Env α σ ρ κ) : Prop := p.channels = 1 → ∀ f : Frame α, env.mixdown 1 f = f 0

theorem study_eq (hp : p.realTime = false) (hch : 1 ≤ p.channels) (hmono : MonoSame p env) {s : State α σ ρ κ} (hm : s.mode = .justCreated ∨ s.mode = .studying) {cd : Chan α σ ρ} {cds : List (Chan α σ ρ)}
    (hc : s.chans = cd :: cds) (input : List (Frame α)) (final : Bool) :
    study p env s input final = (studyInput env final input.length { s with mode := .studying, chans := [] } cd (input.map (mixed p env))).map fun r =>
      { studyEnd final r.1 r.2 with chans := r.2 :: cds } := by
  have hmix : (input.map fun f => if (decide (p.channels > 1) || final) = true then env.mixdown p.channels f else f 0) = input.map (mixed p env) := by
    apply List.map_congr_left
    intro f _
    unfold mixed
    split
    · rfl
    · rename_i h
      simp only [Bool.or_eq_true, decide_eq_true_eq, not_or] at h
      have e : p.channels = 1 := by omega
      rw [e, hmono e]
  unfold study
  rw [hp, if_neg (by decide), if_neg (by rcases hm with e | e <;> rw [e] <;> decide), hc]
  simp only
  rw [hmix]
  have := studyInput_chans (env := env) final [] input.length { s with mode := .studying } cd (input.map (mixed p env))
  simp only at this
  rw [this, hc]
  cases studyInput env final input.length _ cd (input.map (mixed p env)) with
  | none => rfl
  | some r =>
    simp only [Option.map_some]
    show some _ = some _
    congr 1
    unfold studyEnd
    split <;> rfl

/-- What studying begins from, and of what. -/
def begun (s : State α σ ρ κ) (cd : Chan α σ ρ) : State α σ ρ κ × Chan α σ ρ := ({ s with mode := .studying, chans := [] }, cd)

variable [Zero α]

/-- `A` has been studied of what began as `s`, and there may be more to come. -/
def Half (p : Params) (env : Env α σ ρ κ) (s : State α σ ρ κ) (cd : Chan α σ ρ) (cds : List (Chan α σ ρ)) (A : List (Frame α)) (t : State α σ ρ κ) : Prop :=
  ∃ j, { t with mode := .studying } = { (studyAt env s.sizes (begun s cd) (padded s.sizes (A.map (mixed p env))) j).1 with
      chans := (holding (studyAt env s.sizes (begun s cd) (padded s.sizes (A.map (mixed p env))) j) ((padded s.sizes (A.map (mixed p env))).drop (j * s.sizes.increment))).2 :: cds } ∧
    (t.mode = .justCreated ∨ t.mode = .studying) ∧
    j * s.sizes.increment ≤ (padded s.sizes (A.map (mixed p env))).length ∧ (padded s.sizes (A.map (mixed p env))).length < j * s.sizes.increment + s.sizes.window ∧
    ∀ i, i < j → i * s.sizes.increment + s.sizes.window ≤ (padded s.sizes (A.map (mixed p env))).length

theorem padded_append (z : Sizes) (A B : List α) : padded z (A ++ B) = padded z A ++ B := by unfold padded; rw [List.append_assoc]

theorem half_study (hp : p.realTime = false) (hch : 1 ≤ p.channels) (hmono : MonoSame p env) {s : State α σ ρ κ} {cd : Chan α σ ρ} {cds : List (Chan α σ ρ)}
    (hi : 1 ≤ s.sizes.increment) (hw : 2 * s.sizes.increment ≤ s.sizes.window) (hcap : 2 * s.sizes.window ≤ cd.inbuf.cap) {A : List (Frame α)} {t : State α σ ρ κ}
    (h : Half p env s cd cds A t) (input : List (Frame α)) : ∃ u, study p env t input false = some u ∧ Half p env s cd cds (A ++ input) u := by
  obtain ⟨j, h1, h2, h3, h4, h5⟩ := h
  have hc := congrArg State.chans h1
  simp only at hc
  have hs := congrArg (fun q : State α σ ρ κ => ({ q with chans := [] } : State α σ ρ κ)) h1
  simp only at hs
  have hm := studyAt_unmoved env s.sizes (begun s cd) (padded s.sizes (A.map (mixed p env))) j
  obtain ⟨j', a1, a2, a3, a4⟩ := studyInput_frames env hi hw (x := begun s cd) rfl hcap input.length (input.map (mixed p env)) (padded s.sizes (A.map (mixed p env))) j
    (by rw [List.length_map]) h3 h4 h5
  rw [← padded_append, ← List.map_append] at a1 a2 a3 a4
  have hm' := studyAt_unmoved env s.sizes (begun s cd) (padded s.sizes ((A ++ input).map (mixed p env))) j'
  rw [study_eq hp hch hmono h2 hc, hs]
  have e : ({ (studyAt env s.sizes (begun s cd) (padded s.sizes (A.map (mixed p env))) j).1 with chans := [] } : State α σ ρ κ) =
      (holding (studyAt env s.sizes (begun s cd) (padded s.sizes (A.map (mixed p env))) j) ((padded s.sizes (A.map (mixed p env))).drop (j * s.sizes.increment))).1 := by
    have : (studyAt env s.sizes (begun s cd) (padded s.sizes (A.map (mixed p env))) j).1.chans = [] := hm.chans
    unfold holding
    simp only
    rw [← this]
  rw [e, a1]
  refine ⟨_, rfl, j', ?_, Or.inr ?_, a2, a3, a4⟩
  · have : (studyAt env s.sizes (begun s cd) (padded s.sizes ((A ++ input).map (mixed p env))) j').1.mode = .studying := hm'.mode
    unfold studyEnd holding
    simp only [Bool.false_eq_true, if_false]
    rw [this]
  · exact hm'.mode

/-- What there is after the study of `A`. -/
def surveyed (p : Params) (env : Env α σ ρ κ) (s : State α σ ρ κ) (cd : Chan α σ ρ) (cds : List (Chan α σ ρ)) (A : List (Frame α)) : State α σ ρ κ :=
  let X := padded s.sizes (A.map (mixed p env))
  let K := A.length / s.sizes.increment + 1
  let r := holding (studyAt env s.sizes (begun s cd) X K) (X.drop (K * s.sizes.increment))
  { studyEnd true r.1 r.2 with chans := r.2 :: cds }

theorem last_study (hp : p.realTime = false) (hch : 1 ≤ p.channels) (hmono : MonoSame p env) {s : State α σ ρ κ} {cd : Chan α σ ρ} {cds : List (Chan α σ ρ)}
    (hi : 1 ≤ s.sizes.increment) (hw : 2 * s.sizes.increment ≤ s.sizes.window) (hcap : 2 * s.sizes.window ≤ cd.inbuf.cap) {A : List (Frame α)} {t : State α σ ρ κ}
    (h : Half p env s cd cds A t) {input : List (Frame α)} (hne : input ≠ []) (hfit : input.length ≤ s.sizes.window) :
    study p env t input true = some (surveyed p env s cd cds (A ++ input)) := by
  obtain ⟨j, h1, h2, h3, h4, h5⟩ := h
  have hc := congrArg State.chans h1
  simp only at hc
  have hs := congrArg (fun q : State α σ ρ κ => ({ q with chans := [] } : State α σ ρ κ)) h1
  simp only at hs
  have hm := studyAt_unmoved env s.sizes (begun s cd) (padded s.sizes (A.map (mixed p env))) j
  have e : ({ (studyAt env s.sizes (begun s cd) (padded s.sizes (A.map (mixed p env))) j).1 with chans := [] } : State α σ ρ κ) =
      (holding (studyAt env s.sizes (begun s cd) (padded s.sizes (A.map (mixed p env))) j) ((padded s.sizes (A.map (mixed p env))).drop (j * s.sizes.increment))).1 := by
    have : (studyAt env s.sizes (begun s cd) (padded s.sizes (A.map (mixed p env))) j).1.chans = [] := hm.chans
    unfold holding
    simp only
    rw [← this]
  rw [study_eq hp hch hmono h2 hc, hs, e]
  have hX : (padded s.sizes ((A ++ input).map (mixed p env))) = padded s.sizes (A.map (mixed p env)) ++ input.map (mixed p env) := by
    rw [List.map_append, padded_append]
  generalize hXA : padded s.sizes (A.map (mixed p env)) = X at *
  generalize hR : input.map (mixed p env) = rest at *
  have hlr : rest.length = input.length := by rw [← hR, List.length_map]
  have hl1 : 1 ≤ input.length := List.length_pos_iff.mpr hne
  have hlx : (X ++ rest).length = s.sizes.window / 2 + (A ++ input).length := by
    rw [← hX, padded_length, List.length_map]
  -- one round takes all of it
  have hap := studyAt_append env s.sizes (begun s cd) X rest j h5
  have hcap' : (studyAt env s.sizes (begun s cd) X j).2.inbuf.cap = cd.inbuf.cap := hm.cap
  obtain ⟨j', b1, b2, b3, b4, b5⟩ := studyLoop_frames env hi hw (x := begun s cd) rfl (X ++ rest) true ((⟨cd.inbuf.cap, (X ++ rest).drop (j * s.sizes.increment)⟩ : Fifo α).readSpace + 1) j
    (by rw [List.length_append]; omega) (by unfold Fifo.readSpace; simp only [List.length_drop]; omega)
  have hK : j' = (A ++ input).length / s.sizes.increment + 1 := by
    have e : limit s.sizes true = s.sizes.window / 2 := rfl
    rw [e] at b4 b5
    have hj1 : 1 ≤ j' := by
      by_contra hc
      have : j' = 0 := by omega
      subst this
      omega
    have hlo : (j' - 1) * s.sizes.increment + s.sizes.window / 2 ≤ (X ++ rest).length := by
      rcases Nat.lt_or_ge (j' - 1) j with c | c
      · have := h5 (j' - 1) c
        rw [List.length_append]
        omega
      · exact b5 (j' - 1) c (by omega)
    obtain ⟨k, rfl⟩ : ∃ k, j' = k + 1 := ⟨j' - 1, by omega⟩
    simp only [Nat.add_sub_cancel] at hlo
    congr 1
    symm
    apply Nat.div_eq_of_lt_le
    · omega
    · omega
  have hround : studyInput env true input.length (holding (studyAt env s.sizes (begun s cd) X j) (X.drop (j * s.sizes.increment))).1
      (holding (studyAt env s.sizes (begun s cd) X j) (X.drop (j * s.sizes.increment))).2 rest =
      some (holding (studyAt env s.sizes (begun s cd) (X ++ rest) j') ((X ++ rest).drop (j' * s.sizes.increment))) := by
    obtain ⟨f, hf⟩ : ∃ f, input.length = f + 1 := ⟨input.length - 1, by omega⟩
    rw [hf]
    unfold studyInput
    rw [if_neg (by omega)]
    have hws : (holding (studyAt env s.sizes (begun s cd) X j) (X.drop (j * s.sizes.increment))).2.inbuf.writeSpace = cd.inbuf.cap - (X.length - j * s.sizes.increment) := by
      unfold holding Fifo.writeSpace
      simp only [List.length_drop]
      rw [hcap']
    have hn : min (holding (studyAt env s.sizes (begun s cd) X j) (X.drop (j * s.sizes.increment))).2.inbuf.writeSpace rest.length = rest.length := by
      rw [hws]; omega
    simp only [hn, List.take_length, List.drop_length]
    have hwr : (holding (studyAt env s.sizes (begun s cd) X j) (X.drop (j * s.sizes.increment))).2.inbuf.write rest =
        ⟨cd.inbuf.cap, (X ++ rest).drop (j * s.sizes.increment)⟩ := by
      unfold Fifo.write
      rw [List.take_of_length_le (by rw [hws]; omega)]
      unfold holding
      simp only
      rw [hcap', List.drop_append_of_le_length h3]
    rw [hwr]
    have hst : ({ (holding (studyAt env s.sizes (begun s cd) X j) (X.drop (j * s.sizes.increment))).2 with inbuf := ⟨cd.inbuf.cap, (X ++ rest).drop (j * s.sizes.increment)⟩ } : Chan α σ ρ) =
        (holding (studyAt env s.sizes (begun s cd) (X ++ rest) j) ((X ++ rest).drop (j * s.sizes.increment))).2 := by
      rw [hap]
      unfold holding
      simp only [hcap']
    have hst1 : (holding (studyAt env s.sizes (begun s cd) X j) (X.drop (j * s.sizes.increment))).1 =
        (holding (studyAt env s.sizes (begun s cd) (X ++ rest) j) ((X ++ rest).drop (j * s.sizes.increment))).1 := by
      rw [hap]
      rfl
    rw [hst, hst1, b2]
    show studyInput env true f _ _ [] = _
    unfold studyInput
    cases f <;> rfl
  rw [hround]
  unfold surveyed
  simp only [Option.map_some]
  rw [hX, ← hK]

variable [Add α] [Sub α]

/-- After the study of some audio in blocks of which the last is not empty nor longer than a window, everything is determined by the audio. -/
theorem studies_frames (hp : p.realTime = false) (hch : 1 ≤ p.channels) (hmono : MonoSame p env) {s : State α σ ρ κ} {cd : Chan α σ ρ} {cds : List (Chan α σ ρ)}
    (hi : 1 ≤ s.sizes.increment) (hw : 2 * s.sizes.increment ≤ s.sizes.window) (hcap : 2 * s.sizes.window ≤ cd.inbuf.cap) {last : List (Frame α)} (hne : last ≠ [])
    (hfit : last.length ≤ s.sizes.window) : ∀ (blocks : List (List (Frame α))) (A : List (Frame α)) (t : State α σ ρ κ), Half p env s cd cds A t →
    run p env t (studied blocks last) = some (surveyed p env s cd cds (A ++ (blocks.flatten ++ last)), List.replicate (blocks.length + 1) []) := by
  intro blocks
  induction blocks with
  | nil =>
    intro A t h
    show (((study p env t last true).map _).bind _) = _
    rw [last_study hp hch hmono hi hw hcap h hne hfit]
    rfl
  | cons b blocks ih =>
    intro A t h
    obtain ⟨u, h1, h2⟩ := half_study hp hch hmono hi hw hcap h b
    show (((study p env t b false).map _).bind _) = _
    rw [h1]
    show (run p env u (studied blocks last)).bind _ = _
    rw [ih _ _ h2, List.append_assoc, ← List.append_assoc b]
    rfl

/-! ## C77 -/

/-- **C77** in full: what is heard after a study does not depend on how the audio was divided for it. -/
def C77_statement : Prop :=
  ∀ {α σ ρ κ : Type} [Zero α] [Add α] [Sub α] (p : Params) (env : Env α σ ρ κ) (a b : R3.Dbl) (s₀ s t₁ t₂ s₁ s₂ : State α σ ρ κ) (pre cs : List (Call α))
    (b₁ b₂ : List (List (Frame α))) (l₁ l₂ : List (Frame α)) (o o₁ o₂ q₁ q₂ : List (List (List α))), p.realTime = false → MonoSame p env → create p env a b = some s₀ →
    run p env s₀ pre = some (s, o) → s.mode = .justCreated → b₁.flatten ++ l₁ = b₂.flatten ++ l₂ →
    run p env s (studied b₁ l₁) = some (t₁, o₁) → run p env s (studied b₂ l₂) = some (t₂, o₂) →
    run p env t₁ cs = some (s₁, q₁) → run p env t₂ cs = some (s₂, q₂) → q₁ = q₂

/-- **C77 (partial).**  It is so if the last block of either division is not empty and not longer than a window: the study succeeds and leaves the stretcher in the same state
(so that the stretch profile is the same, and all that is heard later).  For any history, rates from 8000 to 192000 and ratios within 2^20 either way.  What is missing:
empty last blocks and long ones, for which it is false. -/
theorem C77_partial {a b : R3.Dbl} {s₀ s : State α σ ρ κ} {pre : List (Call α)} {o : List (List (List α))} (hp : p.realTime = false) (hch : 1 ≤ p.channels)
    (hmono : MonoSame p env) (hrate : 8000 ≤ p.rate ∧ p.rate ≤ 192000) (h0 : create p env a b = some s₀) (hrun : run p env s₀ pre = some (s, o))
    (hmode : s.mode = .justCreated) (hlo : 1 / 2 ^ 20 ≤ s.sizes.timeRatio * s.sizes.pitchScale) (hhi : s.sizes.timeRatio * s.sizes.pitchScale ≤ 2 ^ 20)
    {b₁ b₂ : List (List (Frame α))} {l₁ l₂ : List (Frame α)} (h₁ : l₁ ≠ [] ∧ l₁.length ≤ s.sizes.window) (h₂ : l₂ ≠ [] ∧ l₂.length ≤ s.sizes.window)
    (he : b₁.flatten ++ l₁ = b₂.flatten ++ l₂) :
    ∃ t o₁ o₂, run p env s (studied b₁ l₁) = some (t, o₁) ∧ run p env s (studied b₂ l₂) = some (t, o₂) ∧ t.mode = .studying := by
  have hk := run_kept hp pre s₀ s o (create_kept hp h0) hrun
  have hu := sized_usable hk.sized hp hrate.1 hrate.2 hlo hhi
  have hi := hu.increment
  have hF := hu.input
  have hW := hu.longer
  have hl := hk.length
  cases hc : s.chans with
  | nil => rw [hc] at hl; simp at hl; omega
  | cons cd cds =>
    have hr := hk.roomy cd (by rw [hc]; exact List.mem_cons_self ..)
    have hcl := hk.clean hmode cd (by rw [hc]; exact List.mem_cons_self ..)
    have hpad : padded s.sizes (([] : List (Frame α)).map (mixed p env)) = List.replicate (s.sizes.window / 2) 0 := by unfold padded; simp
    have hhalf : Half p env s cd cds [] s := by
      refine ⟨0, ?_, Or.inl hmode, by omega, ?_, fun i h => absurd h (by omega)⟩
      · rw [hpad]
        unfold holding begun studyAt
        simp only [Nat.zero_mul, List.drop_zero]
        rw [← hcl.inbuf]
        simp only [hc]
      · rw [hpad, List.length_replicate]; omega
    have e₁ := studies_frames hp hch hmono hi (by omega) hr.inbuf h₁.1 h₁.2 b₁ [] s hhalf
    have e₂ := studies_frames hp hch hmono hi (by omega) hr.inbuf h₂.1 h₂.2 b₂ [] s hhalf
    rw [he] at e₁
    refine ⟨_, _, _, e₁, e₂, ?_⟩
    unfold surveyed
    simp only
    unfold studyEnd
    exact (studyAt_unmoved env s.sizes (begun s cd) _ _).mode

/-- For examples: an environment that measures frames by their sum. -/
def Ex.sums : Env Int Unit Unit Unit := { demo with studyCurve := fun k s frame => (k, s, fun _ => 0, ((frame.foldl (fun a b => a + b) 0 : Int) : Rat), false) }

/-- C77 is false of the code: after the study of 700 samples at a ratio of 3/2, the first 550 give 539 samples if the last block studied was of 100 of them, but 541 if it was
empty (in which case the end of the audio is not looked at). -/
theorem C77_violated : ¬ C77_statement := by
  intro h
  have hrun : (create Ex.short Ex.sums (.fin (3 / 2)) (.fin 1)).bind (fun s => (run Ex.short Ex.sums s (studied [List.replicate 600 fun _ => 1] (List.replicate 100 fun _ => 1))).bind fun x =>
      (run Ex.short Ex.sums s (studied [List.replicate 600 fun _ => 1, List.replicate 100 fun _ => 1] [])).bind fun y =>
      (run Ex.short Ex.sums x.1 [.process (List.replicate 550 fun _ => 1) false, .retrieve 1000]).bind fun x =>
      (run Ex.short Ex.sums y.1 [.process (List.replicate 550 fun _ => 1) false, .retrieve 1000]).map fun y =>
        (decide (s.mode = .justCreated), x.2.map fun o => o.map List.length, y.2.map fun o => o.map List.length)) = some (true, [[], [539]], [[], [541]]) := by
    decide +kernel
  obtain ⟨s, h1, h2⟩ := Option.bind_eq_some_iff.mp hrun
  obtain ⟨⟨t₁, o₁⟩, h3, h4⟩ := Option.bind_eq_some_iff.mp h2
  obtain ⟨⟨t₂, o₂⟩, h5, h6⟩ := Option.bind_eq_some_iff.mp h4
  obtain ⟨⟨s₁, q₁⟩, h7, h8⟩ := Option.bind_eq_some_iff.mp h6
  obtain ⟨⟨s₂, q₂⟩, h9, h10⟩ := Option.map_eq_some_iff.mp h8
  simp only [Prod.mk.injEq, decide_eq_true_eq] at h10
  have := h Ex.short Ex.sums _ _ s s t₁ t₂ s₁ s₂ [] _ _ _ _ _ [] o₁ o₂ q₁ q₂ rfl (fun _ _ => rfl) h1 rfl h10.1
    (by simp only [List.flatten_cons, List.flatten_nil, List.append_nil]) h3 h5 h7 h9
  rw [this] at h10
  have := h10.2.1.symm.trans h10.2.2
  revert this
  decide

/-- So it is if the last block is long: after the study of 1000 samples, the first 700 give 751 samples if they were studied at once, and 748 if the last block was of 100. -/
theorem C77_violated_long : ∃ (s t₁ t₂ s₁ s₂ : State Int Unit Unit Unit) (audio l₁ l₂ l₃ : List (Frame Int)) (o₁ o₂ : List (List (List Int))) (q₁ q₂ : List (List (List Int))),
    create Ex.short Ex.sums (.fin (3 / 2)) (.fin 1) = some s ∧ l₁ = l₂ ++ l₃ ∧ l₁ ≠ [] ∧ l₃ ≠ [] ∧ run Ex.short Ex.sums s (studied [] l₁) = some (t₁, o₁) ∧
    run Ex.short Ex.sums s (studied [l₂] l₃) = some (t₂, o₂) ∧ run Ex.short Ex.sums t₁ [.process audio false, .retrieve 1000] = some (s₁, q₁) ∧
    run Ex.short Ex.sums t₂ [.process audio false, .retrieve 1000] = some (s₂, q₂) ∧ q₁ ≠ q₂ := by
  have hrun : (create Ex.short Ex.sums (.fin (3 / 2)) (.fin 1)).bind (fun s => (run Ex.short Ex.sums s (studied [] (List.replicate 1000 fun _ => 1))).bind fun x =>
      (run Ex.short Ex.sums s (studied [List.replicate 900 fun _ => 1] (List.replicate 100 fun _ => 1))).bind fun y =>
      (run Ex.short Ex.sums x.1 [.process (List.replicate 700 fun _ => 1) false, .retrieve 1000]).bind fun x =>
      (run Ex.short Ex.sums y.1 [.process (List.replicate 700 fun _ => 1) false, .retrieve 1000]).map fun y =>
        (x.2.map fun o => o.map List.length, y.2.map fun o => o.map List.length)) = some ([[], [751]], [[], [748]]) := by
    decide +kernel
  obtain ⟨s, h1, h2⟩ := Option.bind_eq_some_iff.mp hrun
  obtain ⟨⟨t₁, o₁⟩, h3, h4⟩ := Option.bind_eq_some_iff.mp h2
  obtain ⟨⟨t₂, o₂⟩, h5, h6⟩ := Option.bind_eq_some_iff.mp h4
  obtain ⟨⟨s₁, q₁⟩, h7, h8⟩ := Option.bind_eq_some_iff.mp h6
  obtain ⟨⟨s₂, q₂⟩, h9, h10⟩ := Option.map_eq_some_iff.mp h8
  simp only [Prod.mk.injEq] at h10
  have ne : ∀ n, 1 ≤ n → (List.replicate n fun _ => 1 : List (Frame Int)) ≠ [] := by
    intro n hn e
    have := congrArg List.length e
    rw [List.length_replicate] at this
    simp at this
    omega
  have hsplit : (List.replicate 1000 fun _ => 1 : List (Frame Int)) = (List.replicate 900 fun _ => 1) ++ List.replicate 100 fun _ => 1 :=
    (List.replicate_append_replicate (n := 900) (m := 100) (a := (fun _ => 1 : Frame Int))).symm
  refine ⟨s, t₁, t₂, s₁, s₂, _, _, _, _, o₁, o₂, q₁, q₂, h1, hsplit, ne _ (by decide), ne _ (by decide), h3, h5, h7, h9, ?_⟩
  intro e
  rw [e] at h10
  have := h10.1.symm.trans h10.2
  revert this
  decide

/-- C77 applied: 300 samples in blocks of 120, 30 and 150, and of 299 and 1. -/
example : ∃ s t : State Int Unit Unit Unit, ∃ o₁ o₂, create Ex.short Ex.sums (.fin (3 / 2)) (.fin 1) = some s ∧
    run Ex.short Ex.sums s [.study (Ex.block 120) false, .study (Ex.block 30) false, .study (Ex.block 150) true] = some (t, o₁) ∧
    run Ex.short Ex.sums s [.study (Ex.block 299) false, .study (Ex.block 1) true] = some (t, o₂) := by
  have hrun : (create Ex.short Ex.sums (.fin (3 / 2)) (.fin 1)).map (fun s =>
      (decide (s.mode = .justCreated), decide (s.sizes.timeRatio * s.sizes.pitchScale = 3 / 2), decide (150 ≤ s.sizes.window))) = some (true, true, true) := by
    decide +kernel
  obtain ⟨s, h1, h2⟩ := Option.map_eq_some_iff.mp hrun
  simp only [Prod.mk.injEq, decide_eq_true_eq] at h2
  obtain ⟨e1, e2, e3⟩ := h2
  obtain ⟨t, o₁, o₂, a1, a2, _⟩ := C77_partial (p := Ex.short) (env := Ex.sums) (pre := []) (o := []) (b₁ := [Ex.block 120, Ex.block 30]) (l₁ := Ex.block 150) (b₂ := [Ex.block 299]) (l₂ := Ex.block 1)
    rfl (by decide) (fun _ _ => rfl) (by decide) h1 rfl e1 (by rw [e2]; norm_num) (by rw [e2]; norm_num)
    ⟨by simp [Ex.block], by rw [Ex.block_length]; exact e3⟩ ⟨by simp [Ex.block], by rw [Ex.block_length]; omega⟩
    (by
      show ((Ex.block 120 ++ (Ex.block 30 ++ [])) ++ Ex.block 150 : List (Frame Int)) = (Ex.block 299 ++ []) ++ Ex.block 1
      rw [List.append_nil, List.append_nil, Ex.joined, Ex.joined, Ex.joined])
  exact ⟨s, t, o₁, o₂, h1, a1, a2⟩

end
end Verif.R2
