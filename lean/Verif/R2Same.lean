import Verif.R2OfflineProps
import Mathlib.Tactic.SplitIfs
/-!
# The faster engine: channels given the same audio, in step (for C114)
-/
namespace Verif.R2
open Verif.StretchCalc

variable {α σ ρ κ : Type}

/-- A channel without `prevIncrement`, which is kept in the first channel only. -/
@[reducible] def Chan.core (cd : Chan α σ ρ) : Chan α σ ρ := { cd with prevIncrement := 0 }

section
variable (p : Params) (env : Env α σ ρ κ) (z : Sizes) (cd : Chan α σ ρ)

theorem testInbuf_core : testInbuf z cd.core = ((testInbuf z cd).1.core, (testInbuf z cd).2) := by
  unfold testInbuf
  simp only [Chan.core]
  split_ifs <;> rfl

theorem takeFrame_core : takeFrame z cd.core = (takeFrame z cd).core := by
  unfold takeFrame
  simp only [Chan.core]
  split_ifs <;> rfl

theorem analyse_core : analyseChunk env z cd.core = (analyseChunk env z cd).core := rfl

theorem spectral_core (i : Incs) : spectral env z i cd.core = (spectral env z i cd).core := by
  unfold spectral
  simp only [Chan.core]
  split_ifs <;> rfl

theorem ensureOutbuf_core (si : Nat) : ensureOutbuf z si cd.core = (ensureOutbuf z si cd).core := by
  unfold ensureOutbuf
  simp only [Chan.core]
  split_ifs <;> rfl

theorem resampled_core (mix : List α) (last : Bool) : resampled p env z cd.core mix last = ((resampled p env z cd mix last).1.core, (resampled p env z cd mix last).2) := by
  obtain ⟨a1, a2, a3, a4, r, a6, a7, a8, a9, a10, a11, a12, a13, a14⟩ := cd
  unfold resampled
  simp only [Chan.core]
  generalize (!resampleBefore p z.pitchScale && (decide (z.pitchScale ≠ 1) || p.highConsistency)) = b
  cases r <;> cases b <;> rfl

theorem writeOutput_core (skip theoretical : Nat) (out : List α) : writeOutput skip theoretical cd.core out = (writeOutput skip theoretical cd out).core := by
  unfold writeOutput
  simp only [Chan.core]
  split_ifs <;> rfl

theorem lessFill_core (si : Nat) : lessFill si cd.core = (lessFill si cd).core := by
  unfold lessFill
  simp only [Chan.core]
  split_ifs <;> rfl

theorem writeChunk_core (si : Nat) (last : Bool) : writeChunk p env z si last cd.core = (writeChunk p env z si last cd).map Chan.core := by
  unfold writeChunk
  rw [resampled_core]
  show (if si > cd.accumulatorFill then none else _) = _
  by_cases h : si > cd.accumulatorFill
  · rw [if_pos h, if_pos h]; rfl
  · rw [if_neg h, if_neg h]
    simp only [Option.map_some]
    generalize hr : resampled p env z cd (List.map (env.emit cd.spec) (List.range si)) last = r
    obtain ⟨cd', out⟩ := r
    simp only
    have ht : theoreticalOut z cd'.core = theoreticalOut z cd' := rfl
    rw [ht, writeOutput_core]
    generalize writeOutput _ _ cd' out = cd''
    exact congrArg some (lessFill_core { cd'' with spec := env.shift cd''.spec cd''.accumulatorFill si } si)

theorem processChunk_core (i : Incs) : processChunk p env z i cd.core = (processChunk p env z i cd).map fun x => (x.1.core, x.2) := by
  unfold processChunk
  rw [spectral_core]
  generalize spectral env z i cd = cd
  simp only
  show (if cd.draining = true then _ else _) = _
  by_cases hd : cd.draining = true
  · rw [if_pos hd, if_pos hd]
    show (if cd.accumulatorFill = 0 then _ else _) = _
    by_cases h0 : cd.accumulatorFill = 0
    · rw [if_pos h0, if_pos h0]; rfl
    · rw [if_neg h0, if_neg h0, ensureOutbuf_core, writeChunk_core, Option.map_map, Option.map_map]
      rfl
  · rw [if_neg hd, if_neg hd, ensureOutbuf_core, writeChunk_core, Option.map_map, Option.map_map]
    rfl

theorem brokenDown_core (tmp : Nat → α) (fuel : Nat) : ∀ (done : Nat) (i : Incs) (last : Bool) (cd : Chan α σ ρ),
    brokenDown p env z tmp fuel done i last cd.core = (brokenDown p env z tmp fuel done i last cd).map fun x => (x.1.core, x.2) := by
  induction fuel with
  | zero => intro done i last cd; unfold brokenDown; split <;> rfl
  | succ n ih =>
    intro done i last cd
    unfold brokenDown
    by_cases h : done < i.shift
    · rw [if_pos h, if_pos h]
      simp only
      have e : ({ cd.core with fltbuf := tmp } : Chan α σ ρ) = ({ cd with fltbuf := tmp } : Chan α σ ρ).core := rfl
      rw [e, processChunk_core]
      cases processChunk p env z _ { cd with fltbuf := tmp } with
      | none => rfl
      | some x => exact ih _ _ _ _
    · rw [if_neg h, if_neg h]; rfl

theorem chunk_core (i : Incs) : chunk p env z i cd.core = (chunk p env z i cd).map fun x => (x.1.core, x.2) := by
  unfold chunk
  rw [analyse_core]
  generalize analyseChunk env z cd = cd
  simp only
  split
  · exact processChunk_core p env z cd i
  · exact brokenDown_core p env z cd.fltbuf i.shift 0 i false cd

theorem getIncrements_core (incs : List Int) : getIncrements z incs cd.core = ((getIncrements z incs cd).1.core, (getIncrements z incs cd).2) := by
  unfold getIncrements
  simp only [Chan.core]
  split_ifs <;> rfl

theorem chunkRound_core (incs : List Int) : chunkRound p env z incs cd.core = (chunkRound p env z incs cd).map fun x => (x.1.core, x.2) := by
  unfold chunkRound
  rw [testInbuf_core]
  obtain ⟨cd, ready⟩ := testInbuf z cd
  cases ready with
  | false => rfl
  | true =>
    simp only [if_true]
    rw [takeFrame_core, getIncrements_core]
    obtain ⟨cd, i, b⟩ := getIncrements z incs (takeFrame z cd)
    simp only
    rw [chunk_core]
    cases chunk p env z i cd <;> rfl

theorem chunkLoop_core (incs : List Int) (fuel : Nat) : ∀ cd : Chan α σ ρ, chunkLoop p env z incs fuel cd.core = (chunkLoop p env z incs fuel cd).map Chan.core := by
  induction fuel with
  | zero => intro cd; rfl
  | succ n ih =>
    intro cd
    unfold chunkLoop
    rw [chunkRound_core]
    cases chunkRound p env z incs cd with
    | none => rfl
    | some x =>
      obtain ⟨cd, more⟩ := x
      cases more
      · rfl
      · exact ih cd

theorem processChunks_core (incs : List Int) : processChunks p env z incs cd.core = (processChunks p env z incs cd).map Chan.core := chunkLoop_core p env z incs _ cd

end

section
variable [Zero α] [Add α] [Sub α] {p : Params} {env : Env α σ ρ κ} {z : Sizes}

/-- A frame with the same in all channels. -/
def EvenFrame (f : Frame α) : Prop := ∀ c, f c = f 0

omit [Zero α] in
theorem prepared_level (hap : Apart p) {input : List (Frame α)} (h : ∀ f ∈ input, EvenFrame f) (c : Nat) : input.map (prepared p env c) = input.map (prepared p env 0) := by
  refine List.map_congr_left fun f hf => ?_
  have e : ∀ c, useMidSide p c = false := fun c => by unfold useMidSide; rw [hap.sep, Bool.false_and]
  unfold prepared
  rw [e, e]
  exact h f hf c

omit [Zero α] in
theorem consume_level (hap : Apart p) {input : List (Frame α)} (h : ∀ f ∈ input, EvenFrame f) (c : Nat) (cd : Chan α σ ρ) (final : Bool) :
    consumeChannel p env z c cd input final = consumeChannel p env z 0 cd input final := by
  have e : ∀ n, (input.take n).map (prepared p env c) = (input.take n).map (prepared p env 0) := fun n => prepared_level hap (fun f hf => h f (List.mem_of_mem_take hf)) c
  have e' : ∀ c, useMidSide p c = false := fun c => by unfold useMidSide; rw [hap.sep, Bool.false_and]
  unfold consumeChannel consumeResampled consumePlain toResample
  simp only [e, e']

omit [Zero α] in
theorem consume_core (c : Nat) (cd : Chan α σ ρ) (input : List (Frame α)) (final : Bool) :
    consumeChannel p env z c cd.core input final = (consumeChannel p env z c cd input final).map fun x => (x.1.core, x.2) := by
  unfold consumeChannel
  split
  · show cd.resampler.map _ = _
    cases cd.resampler with
    | none => rfl
    | some r =>
      simp only [Option.map_some]
      unfold consumeResampled
      have : toResample p z c cd.core input.length = toResample p z c cd input.length := rfl
      rw [this]
      generalize toResample p z c cd input.length = q
      obtain ⟨n, shortened⟩ := q
      simp only
      cases hs : (shortened && n == 0)
      · simp only [Bool.false_eq_true, if_false, Chan.core]
        split
        · rfl
        · rfl
      · rfl
  · rfl

omit [Zero α] in
theorem channelRound_core (incs : List Int) (c : Nat) (input : List (Frame α)) (final : Bool) (cd : Chan α σ ρ) (used : Nat) :
    channelRound p env z incs c input final cd.core used = (channelRound p env z incs c input final cd used).map fun x => (x.1.core, x.2) := by
  unfold channelRound
  rw [consume_core]
  cases consumeChannel p env z c cd (input.drop used) final with
  | none => rfl
  | some x =>
    obtain ⟨cd, n⟩ := x
    simp only [Option.map_some, Option.bind_eq_bind, Option.bind_some]
    have e : (if used + n ≥ input.length ∧ final = true then { cd.core with inputSize := some cd.core.inCount } else cd.core) =
        (if used + n ≥ input.length ∧ final = true then { cd with inputSize := some cd.inCount } else cd).core := by split <;> rfl
    rw [e]
    generalize (if used + n ≥ input.length ∧ final = true then { cd with inputSize := some cd.inCount } else cd) = cd
    split
    · rfl
    · rw [processChunks_core]
      cases processChunks p env z incs cd <;> rfl

/-- All channels are the same but for `prevIncrement`. -/
def Twinned (x : Chan α σ ρ) (l : List (Chan α σ ρ)) : Prop := ∀ cd ∈ l, cd.core = x

omit [Zero α] [Add α] [Sub α] in
theorem Twinned.map {x : Chan α σ ρ} {l : List (Chan α σ ρ)} (h : Twinned x l) {f : Chan α σ ρ → Chan α σ ρ} (hf : ∀ cd : Chan α σ ρ, (f cd).core = (f cd.core).core) : Twinned (f x).core (l.map f) := by
  intro cd hcd
  obtain ⟨d, hd, rfl⟩ := List.mem_map.mp hcd
  rw [hf, h d hd]

omit [Zero α] in
theorem channelsRound_same (hap : Apart p) (incs : List Int) {input : List (Frame α)} (h : ∀ f ∈ input, EvenFrame f) (final : Bool) {x : Chan α σ ρ} {u : Nat} :
    ∀ (l : List (Chan α σ ρ × Nat)) {c : Nat} {xs : List (Chan α σ ρ × Nat)}, (∀ y ∈ l, y.1.core = x ∧ y.2 = u) → channelsRound p env z incs input final c l = some xs →
      xs.length = l.length ∧ ∀ y ∈ xs, ∃ y', channelRound p env z incs 0 input final x u = some y' ∧ y.1.core = y'.1.core ∧ y.2 = y'.2 := by
  intro l
  induction l with
  | nil => intro c xs _ e; unfold channelsRound at e; cases e; exact ⟨rfl, fun y hy => absurd hy (by simp)⟩
  | cons q l ih =>
    intro c xs hl e
    obtain ⟨cd, used⟩ := q
    unfold channelsRound at e
    obtain ⟨y, h1, e⟩ := Option.bind_eq_some_iff.mp e
    obtain ⟨ys, h2, e⟩ := Option.bind_eq_some_iff.mp e
    cases e
    obtain ⟨a1, a2⟩ := ih (fun y hy => hl y (List.mem_cons_of_mem _ hy)) h2
    refine ⟨by simp [a1], ?_⟩
    intro y' hy'
    rcases List.mem_cons.mp hy' with rfl | hy'
    · obtain ⟨b1, b2⟩ := hl (cd, used) (List.mem_cons_self ..)
      simp only at b1 b2
      subst b2
      have hc := channelRound_core (p := p) (env := env) (z := z) incs c input final cd used
      rw [h1, b1] at hc
      have e0 : channelRound p env z incs c input final x used = channelRound p env z incs 0 input final x used := by
        unfold channelRound
        rw [consume_level hap (fun f hf => h f (List.mem_of_mem_drop hf)) c]
      rw [e0] at hc
      exact ⟨_, hc, rfl, rfl⟩
    · exact a2 y' hy'

omit [Zero α] [Add α] [Sub α] in
theorem takeFrames_same (env : Env α σ ρ κ) (z : Sizes) {x : Chan α σ ρ} (l : List (Chan α σ ρ)) (h : Twinned x l) :
    ∃ y, Twinned y (takeFrames env z l).1 := by
  by_cases hr : (testInbuf z x).2 = true
  · refine ⟨(if (testInbuf z x).1.draining then (testInbuf z x).1 else analyseChunk env z (takeFrame z (testInbuf z x).1)).core, ?_⟩
    induction l with
    | nil => intro cd hcd; cases hcd
    | cons cd l ih =>
      have hx := h cd (List.mem_cons_self ..)
      have ht := testInbuf_core z cd
      rw [hx] at ht
      unfold takeFrames
      have h2 : (testInbuf z cd).2 = true := by rw [ht] at hr; exact hr
      have h1 : (testInbuf z x).1 = (testInbuf z cd).1.core := by rw [ht]
      simp only [h2, if_true]
      intro d hd
      rcases List.mem_cons.mp hd with rfl | hd
      · rw [h1]
        show _ = (if (testInbuf z cd).1.draining = true then _ else _ : Chan α σ ρ).core
        rw [takeFrame_core, analyse_core]
        split <;> rfl
      · exact ih (fun d hd => h d (List.mem_cons_of_mem _ hd)) d hd
  · refine ⟨x, ?_⟩
    cases l with
    | nil => intro cd hcd; cases hcd
    | cons cd l =>
      have hx := h cd (List.mem_cons_self ..)
      have ht := testInbuf_core z cd
      rw [hx] at ht
      have h2 : ¬ (testInbuf z cd).2 = true := by rw [ht] at hr; exact hr
      have h1 : (testInbuf z cd).1 = cd := by
        revert h2
        unfold testInbuf
        simp only
        split
        · split
          · intro _; rfl
          · split
            · intro _; rfl
            · split <;> intro h <;> exact absurd rfl h
        · intro h; exact absurd rfl h
      unfold takeFrames
      simp only [h1, h2]
      exact h

omit [Zero α] [Add α] [Sub α] in
theorem eachChunk_same (i : Incs) {x : Chan α σ ρ} : ∀ (l : List (Chan α σ ρ)) {last : Bool} {r : List (Chan α σ ρ) × Bool}, Twinned x l → eachChunk p env z i l last = some r →
    ∀ d ∈ r.1, ∃ y, processChunk p env z i x = some y ∧ d.core = { y.1 with chunkCount := y.1.chunkCount + 1 }.core := by
  intro l
  induction l with
  | nil => intro last r _ e; unfold eachChunk at e; cases e; intro d hd; cases hd
  | cons cd l ih =>
    intro last r h e
    unfold eachChunk at e
    obtain ⟨⟨cd', last'⟩, h1, e⟩ := Option.bind_eq_some_iff.mp e
    obtain ⟨⟨cds, last''⟩, h2, e⟩ := Option.bind_eq_some_iff.mp e
    cases e
    intro d hd
    rcases List.mem_cons.mp hd with rfl | hd
    · have hc := processChunk_core p env z cd i
      rw [h1, h cd (List.mem_cons_self ..)] at hc
      exact ⟨_, hc, rfl⟩
    · exact ih (fun d hd => h d (List.mem_cons_of_mem _ hd)) h2 d hd

omit [Zero α] [Add α] [Sub α] in
theorem same_of {l : List (Chan α σ ρ)} (x : Chan α σ ρ) {P : Chan α σ ρ → Prop} (h : ∀ d ∈ l, ∃ y : Chan α σ ρ, P y ∧ d.core = y.core) (hu : ∀ y y', P y → P y' → y = y') : ∃ x, Twinned x l := by
  cases l with
  | nil => exact ⟨x, fun _ h => absurd h (by simp)⟩
  | cons d l =>
    obtain ⟨y, h1, h2⟩ := h d (List.mem_cons_self ..)
    refine ⟨y.core, ?_⟩
    intro e he
    obtain ⟨y', h3, h4⟩ := h e he
    rw [h4, hu y' y h3 h1]

end

end Verif.R2
