import Verif.R2Step
/-!
# The faster engine: the channels stay in step (C41, C72)
-/
namespace Verif.R2
open Verif.Round Verif.StretchCalc

variable {α σ ρ κ τ : Type}

/-- For examples: an environment that gives a constant output. -/
def demo : Env Int Unit Unit Unit where
  specInit := ()
  specReset := id
  specSizes := fun s _ _ => s
  analyse := fun s _ => (s, fun _ => 0)
  synthesise := fun s f _ _ _ => (s, f)
  emit := fun _ _ => 1
  shift := fun s _ _ => s
  rsInit := ()
  rsReset := id
  resample := fun r room xs ratio _ => (r, (List.replicate ((xs.length : Rat) * ratio).floor.toNat 1).take room)
  effective := fun _ x => x
  curveInit := fun _ => ()
  curveReset := id
  curveSizes := fun k _ => k
  curve := fun k _ => (k, 0, false)
  studyCurve := fun k s _ => (k, s, fun _ => 0, 0, false)
  halve := fun x => x / 2
  mixdown := fun _ f => f 0

/-- Its resampler gives a number of samples that depends on the number it is given. -/
def demoCounted : Counted demo Unit where
  key := id
  step := fun r room n ratio _ => (r, min room ((n : Rat) * ratio).floor.toNat)
  stepReset := id
  keyStep := by intros; rfl
  length := by intro r room xs ratio final; simp [demo]
  keyReset := by intros; rfl

/-- The channels are in step: there are as many samples of each to be retrieved, and each `retrieve` has given as many of each. -/
def InStepOutput (s : State α σ ρ κ) (outs : List (List (List α))) : Prop :=
  (∀ c ∈ s.chans, ∀ d ∈ s.chans, c.outbuf.data.length = d.outbuf.data.length) ∧
    ∀ o ∈ outs, ∀ l ∈ o, ∀ m ∈ o, l.length = m.length

theorem output_of_run [Zero α] [Add α] [Sub α] {p : Params} {env : Env α σ ρ κ} (K : Counted env τ) (hp : Same p) {timeRatio pitchScale : R3.Dbl}
    {s₀ s : State α σ ρ κ} {cs : List (Call α)} {outs : List (List (List α))} (h0 : create p env timeRatio pitchScale = some s₀)
    (h : run p env s₀ cs = some (s, outs)) : InStepOutput s outs ∧ s.chans.length = p.channels := by
  obtain ⟨a1, a2⟩ := step_run K p hp cs s₀ s outs (step_create K p h0) h
  obtain ⟨m, hm⟩ := a1.level
  refine ⟨⟨fun c hc d hd => (hm c hc).trans (hm d hd).symm, fun o ho l hl m hm => ?_⟩, a1.length⟩
  obtain ⟨n, hn⟩ := a2 o ho
  rw [hn l hl, hn m hm]

/-- **C41.**  Offline, whatever the calls made since construction (settings, study, blocks of any sizes, retrieval, resets), the engine gives as
many samples of every channel. -/
theorem C41_channels_in_step [Zero α] [Add α] [Sub α] {p : Params} {env : Env α σ ρ κ} (K : Counted env τ) (hp : p.realTime = false)
    {timeRatio pitchScale : R3.Dbl} {s₀ s : State α σ ρ κ} {cs : List (Call α)} {outs : List (List (List α))}
    (h0 : create p env timeRatio pitchScale = some s₀) (h : run p env s₀ cs = some (s, outs)) : InStepOutput s outs ∧ s.chans.length = p.channels :=
  output_of_run K (Or.inl fun x => by simp [resampleBefore, hp]) h0 h

/-- **C72**, in part.  In real time too, if there are at most two channels, or the channels are not processed together, or the input is not resampled before it is stretched
(`OptionPitchHighConsistency`).  Of three or more processed together the first two take in at most as much in a round as the input buffer is long, even though it is going to be
resampled to less, so that the calls of the resamplers are not the same (`C72_violated`). -/
theorem C72_partial [Zero α] [Add α] [Sub α] {p : Params} {env : Env α σ ρ κ} (K : Counted env τ)
    (hp : p.channelsTogether = false ∨ p.channels ≤ 2 ∨ p.highConsistency = true ∧ p.highQuality = false)
    {timeRatio pitchScale : R3.Dbl} {s₀ s : State α σ ρ κ} {cs : List (Call α)} {outs : List (List (List α))}
    (h0 : create p env timeRatio pitchScale = some s₀) (h : run p env s₀ cs = some (s, outs)) : InStepOutput s outs ∧ s.chans.length = p.channels :=
  output_of_run K (by
    rcases hp with h | h | ⟨h, h'⟩
    · exact Or.inr (Or.inl h)
    · exact Or.inr (Or.inr h)
    · exact Or.inl fun x => by simp [resampleBefore, h, h']) h0 h

/-- For an example: what is left in the output buffers, and the numbers of samples retrieved. -/
def lengths (x : Option (State Int Unit Unit Unit × List (List (List Int)))) : Option (List Nat × List (List Nat)) :=
  x.map fun x => (x.1.chans.map fun cd => cd.outbuf.data.length, x.2.map fun o => o.map List.length)

/-- Calls for an example. -/
def demoCalls : List (Call Int) :=
  [.study (List.replicate 300 fun c => c) false, .study (List.replicate 200 fun c => c) true, .process (List.replicate 300 fun c => c) false,
   .retrieve 100, .process (List.replicate 200 fun c => c) true, .available, .retrieve 500]

/-- The engine created and run. -/
def demoRun (p : Params) (timeRatio pitchScale : Rat) (cs : List (Call Int)) : Option (List Nat × List (List Nat)) :=
  (create p demo (.fin timeRatio) (.fin pitchScale)).bind fun s => lengths (run p demo s cs)

/-- Two channels together, studied and processed offline. -/
example : demoRun { rate := 8000, windowShort := true, channels := 2, channelsTogether := true } (3 / 2) 1 demoCalls =
    some ([150, 150], [[], [], [], [100, 100], [], [], [500, 500]]) := by
  decide +kernel

/-- Two channels together in real time, resampled first. -/
example : demoRun { rate := 8000, channels := 2, channelsTogether := true, realTime := true } (3 / 2) 2
    [.process (List.replicate 1100 fun c => c) false, .retrieve 100, .process (List.replicate 200 fun c => c) false, .retrieve 500] =
    some ([0, 0], [[], [100, 100], [], [267, 267]]) := by
  decide +kernel

/-- Three channels together in real time, resampled afterwards. -/
example : demoRun { rate := 8000, channels := 3, channelsTogether := true, realTime := true, highConsistency := true } (3 / 2) 2
    [.process (List.replicate 1100 fun c => c) false, .retrieve 100, .process (List.replicate 200 fun c => c) false, .retrieve 500] =
    some ([0, 0, 0], [[], [100, 100, 100], [], [447, 447, 447]]) := by
  decide +kernel

end Verif.R2
