import Verif.R2
/-!
# The faster engine: channels together are mid and side apart

With `OptionChannelsTogether` the first two channels are turned into their half sum and half difference on the way in (`prepareChannelMS`), and back in `retrieve`.
Nothing else in the engine knows of it.
-/
namespace Verif.R2

variable {α σ ρ κ : Type}

/-- The same options, but for `OptionChannelsTogether`. -/
def Params.apart (p : Params) : Params := { p with channelsTogether := false }

section
variable (p : Params) (env : Env α σ ρ κ)

theorem create_apart [Zero α] (a b : R3.Dbl) : create p.apart env a b = create p env a b := rfl

theorem brokenDown_apart (z : Sizes) (tmp : Nat → α) : ∀ (fuel done : Nat) (i : Incs) (last : Bool) (cd : Chan α σ ρ),
    brokenDown p.apart env z tmp fuel done i last cd = brokenDown p env z tmp fuel done i last cd := by
  intro fuel
  induction fuel with
  | zero => intro done i last cd; rfl
  | succ fuel ih =>
    intro done i last cd
    unfold brokenDown
    simp only [ih]
    rfl

theorem chunk_apart (z : Sizes) (i : Incs) (cd : Chan α σ ρ) : chunk p.apart env z i cd = chunk p env z i cd := by
  unfold chunk
  simp only [brokenDown_apart]
  rfl

theorem chunkRound_apart (z : Sizes) (incs : List Int) (cd : Chan α σ ρ) : chunkRound p.apart env z incs cd = chunkRound p env z incs cd := by
  unfold chunkRound
  simp only [chunk_apart]

theorem chunkLoop_apart (z : Sizes) (incs : List Int) : ∀ (fuel : Nat) (cd : Chan α σ ρ), chunkLoop p.apart env z incs fuel cd = chunkLoop p env z incs fuel cd := by
  intro fuel
  induction fuel with
  | zero => intro cd; rfl
  | succ fuel ih =>
    intro cd
    unfold chunkLoop
    simp only [ih, chunkRound_apart]

theorem processChunks_apart (z : Sizes) (incs : List Int) (cd : Chan α σ ρ) : processChunks p.apart env z incs cd = processChunks p env z incs cd :=
  chunkLoop_apart p env z incs _ cd

theorem eachChunk_apart (z : Sizes) (i : Incs) : ∀ (l : List (Chan α σ ρ)) (last : Bool), eachChunk p.apart env z i l last = eachChunk p env z i l last := by
  intro l
  induction l with
  | nil => intro last; rfl
  | cons cd l ih =>
    intro last
    unfold eachChunk
    simp only [ih]
    rfl

theorem processOneChunk_apart (s : State α σ ρ κ) : processOneChunk p.apart env s = processOneChunk p env s := by
  unfold processOneChunk
  simp only [eachChunk_apart]

theorem finishLoop_apart : ∀ (fuel : Nat) (s : State α σ ρ κ), finishLoop p.apart env fuel s = finishLoop p env fuel s := by
  intro fuel
  induction fuel with
  | zero => intro s; rfl
  | succ fuel ih =>
    intro s
    unfold finishLoop
    simp only [ih, processOneChunk_apart]

theorem finishEach_apart (z : Sizes) (incs : List Int) : ∀ (l : List (Chan α σ ρ)), finishEach p.apart env z incs l = finishEach p env z incs l := by
  intro l
  induction l with
  | nil => rfl
  | cons cd l ih =>
    unfold finishEach
    simp only [ih, processChunks_apart]

theorem available_apart (s : State α σ ρ κ) : available p.apart env s = available p env s := by
  unfold available finish
  simp only [finishLoop_apart, finishEach_apart]
  rfl

end

section
variable [Zero α] [Add α] [Sub α]

/-- A frame as it goes in: of channels together, the first two are half the sum and half the difference of the channels. -/
def encoded (p : Params) (env : Env α σ ρ κ) (f : Frame α) : Frame α := fun c => prepared p env c f

/-- A call, with mid and side for input. -/
def encodedCall (p : Params) (env : Env α σ ρ κ) : Call α → Call α
  | .process input final => .process (input.map (encoded p env)) final
  | c => c

/-- The length of the shortest. -/
def shortest : List (List α) → Nat
  | [] => 0
  | [x] => x.length
  | x :: y :: o => min x.length (shortest (y :: o))

/-- The output of a call, from mid and side to left and right. -/
def decoded (p : Params) (o : List (List α)) : List (List α) :=
  if p.channelsTogether && decide (p.channels ≥ 2) then decode (shortest o) o else o

variable {p : Params} {env : Env α σ ρ κ}

omit [Zero α] in
theorem prepared_encoded (c : Nat) (f : Frame α) : prepared p.apart env c (encoded p env f) = prepared p env c f := by
  unfold encoded
  have : useMidSide p.apart c = false := by unfold useMidSide Params.apart; simp
  show (if useMidSide p.apart c = true then _ else prepared p env c f) = _
  rw [this]
  rfl

omit [Zero α] in
theorem consumePlain_apart (c : Nat) (cd : Chan α σ ρ) (input : List (Frame α)) :
    consumePlain p.apart env c cd (input.map (encoded p env)) = consumePlain p env c cd input := by
  unfold consumePlain
  simp only [List.length_map, ← List.map_take, List.map_map]
  have : (prepared p.apart env c) ∘ (encoded p env) = prepared p env c := by funext f; exact prepared_encoded c f
  rw [this]

variable (hb : ∀ x, resampleBefore p x = false)
include hb

omit [Zero α] in
theorem channelRound_apart (z : Sizes) (incs : List Int) (c : Nat) (input : List (Frame α)) (final : Bool) (cd : Chan α σ ρ) (used : Nat) :
    channelRound p.apart env z incs c (input.map (encoded p env)) final cd used = channelRound p env z incs c input final cd used := by
  have hb' : ∀ x, resampleBefore p.apart x = false := hb
  unfold channelRound consumeChannel
  simp only [hb, hb', Bool.false_eq_true, if_false, ← List.map_drop, consumePlain_apart, List.length_map, processChunks_apart]
  rfl

omit [Zero α] in
theorem channelsRound_apart (z : Sizes) (incs : List Int) (input : List (Frame α)) (final : Bool) : ∀ (l : List (Chan α σ ρ × Nat)) (c : Nat),
    channelsRound p.apart env z incs (input.map (encoded p env)) final c l = channelsRound p env z incs input final c l := by
  intro l
  induction l with
  | nil => intro c; rfl
  | cons x l ih =>
    intro c
    unfold channelsRound
    simp only [ih, channelRound_apart hb]

omit [Zero α] in
theorem processLoop_apart (input : List (Frame α)) (final : Bool) : ∀ (fuel : Nat) (s : State α σ ρ κ) (used : List Nat),
    processLoop p.apart env (input.map (encoded p env)) final fuel s used = processLoop p env input final fuel s used := by
  intro fuel
  induction fuel with
  | zero => intro s used; rfl
  | succ fuel ih =>
    intro s used
    unfold processLoop processRound
    simp only [ih, channelsRound_apart hb, processOneChunk_apart, List.length_map]
    rfl

theorem process_apart (s : State α σ ρ κ) (input : List (Frame α)) (final : Bool) :
    process p.apart env s (input.map (encoded p env)) final = process p env s input final := by
  unfold process rounds
  simp only [processLoop_apart hb, List.length_map]

omit [Zero α] [Add α] [Sub α] hb in
theorem readChannels_got : ∀ (l : List (Chan α σ ρ)) (n : Nat), l ≠ [] →
    (readChannels l n).2.2 = shortest (readChannels l n).2.1 ∧ (readChannels l n).2.2 ≤ n := by
  intro l
  induction l with
  | nil => intro n h; exact absurd rfl h
  | cons cd l ih =>
    intro n _
    have hle : (cd.outbuf.peek n).length ≤ n := by unfold Fifo.peek; simp
    have hm : (if (cd.outbuf.peek n).length < n then (cd.outbuf.peek n).length else n) = (cd.outbuf.peek n).length := by split <;> omega
    unfold readChannels
    simp only
    rw [hm]
    by_cases hl : l = []
    · subst hl
      exact ⟨rfl, hle⟩
    · obtain ⟨e1, e2⟩ := ih (cd.outbuf.peek n).length hl
      refine ⟨?_, e2.trans hle⟩
      rw [e1] at e2 ⊢
      have hne : (readChannels l (cd.outbuf.peek n).length).2.1 ≠ [] := by
        cases l with
        | nil => exact absurd rfl hl
        | cons d l => unfold readChannels; simp
      generalize (readChannels l (cd.outbuf.peek n).length).2.1 = o at hne e2
      cases o with
      | nil => exact absurd rfl hne
      | cons x o =>
        show shortest (x :: o) = min _ (shortest (x :: o))
        omega

omit [Zero α] hb in
theorem retrieve_apart (s : State α σ ρ κ) (n : Nat) :
    retrieve p s n = ((retrieve p.apart s n).1, decoded p (retrieve p.apart s n).2.1, (retrieve p.apart s n).2.2) := by
  have ha : (p.apart.channelsTogether && decide (p.apart.channels ≥ 2)) = false := rfl
  unfold retrieve decoded
  simp only [ha, Bool.false_eq_true, if_false]
  by_cases hc : s.chans = []
  · rw [hc]
    unfold readChannels decode
    rfl
  · rw [(readChannels_got _ _ hc).1]

theorem call_apart (s : State α σ ρ κ) (c : Call α) :
    call p env s c = (call p.apart env s (encodedCall p env c)).map fun x => (x.1, decoded p x.2) := by
  have hnil : decoded p ([] : List (List α)) = [] := by unfold decoded decode; simp
  cases c with
  | process input final =>
    show _ = Option.map _ (call p.apart env s (.process (input.map (encoded p env)) final))
    unfold call
    simp only [process_apart hb, Option.map_map]
    congr 1
    funext s
    simp [hnil]
  | available =>
    show _ = Option.map _ (call p.apart env s .available)
    unfold call
    simp only [available_apart, Option.map_map]
    congr 1
    funext s
    simp [hnil]
  | retrieve n =>
    show _ = Option.map _ (call p.apart env s (.retrieve n))
    unfold call
    simp only [Option.map_some]
    rw [retrieve_apart]
  | setKeyFrameMap m =>
    show _ = Option.map _ (call p.apart env s (.setKeyFrameMap m))
    unfold call
    simp only [Option.map_some, hnil]
    rfl
  | setTimeRatio r =>
    show _ = Option.map _ (call p.apart env s (.setTimeRatio r))
    unfold call
    simp only [Option.map_map, Function.comp_def, hnil]
    rfl
  | setPitchScale r =>
    show _ = Option.map _ (call p.apart env s (.setPitchScale r))
    unfold call
    simp only [Option.map_map, Function.comp_def, hnil]
    rfl
  | setExpectedInputDuration n =>
    show _ = Option.map _ (call p.apart env s (.setExpectedInputDuration n))
    unfold call
    simp only [Option.map_map, Function.comp_def, hnil]
    rfl
  | setMaxProcessSize n =>
    show _ = Option.map _ (call p.apart env s (.setMaxProcessSize n))
    unfold call
    simp only [Option.map_map, Function.comp_def, hnil]
    rfl
  | study input final =>
    show _ = Option.map _ (call p.apart env s (.study input final))
    unfold call
    simp only [Option.map_map, Function.comp_def, hnil]
    rfl
  | reset =>
    show _ = Option.map _ (call p.apart env s .reset)
    unfold call
    simp only [Option.map_map, Function.comp_def, hnil]
    rfl

/-- A run with channels together is the run with channels apart on mid and side, its output turned back. -/
theorem run_apart : ∀ (cs : List (Call α)) (s : State α σ ρ κ),
    run p env s cs = (run p.apart env s (cs.map (encodedCall p env))).map fun x => (x.1, x.2.map (decoded p)) := by
  intro cs
  induction cs with
  | nil => intro s; rfl
  | cons c cs ih =>
    intro s
    show run p env s (c :: cs) = Option.map _ (run p.apart env s (encodedCall p env c :: cs.map (encodedCall p env)))
    unfold run
    rw [call_apart hb]
    simp only [Option.bind_eq_bind]
    cases call p.apart env s (encodedCall p env c) with
    | none => rfl
    | some x =>
      simp only [Option.map_some, Option.bind_some, ih]
      cases run p.apart env x.1 (cs.map (encodedCall p env)) with
      | none => rfl
      | some y => rfl

omit [Zero α] hb in
theorem decoded_length (p : Params) (o : List (List α)) (c : Nat) : ((decoded p o).getD c []).length = (o.getD c []).length := by
  unfold decoded
  split
  · match o with
    | [] => rfl
    | [x] => rfl
    | x :: y :: o =>
      have hx : shortest (x :: y :: o) ≤ x.length := by unfold shortest; exact Nat.min_le_left ..
      have hy : shortest (x :: y :: o) ≤ y.length := by
        unfold shortest
        refine le_trans (Nat.min_le_right ..) ?_
        cases o with
        | nil => exact le_refl _
        | cons w o => unfold shortest; exact Nat.min_le_left ..
      generalize shortest (x :: y :: o) = g at hx hy
      unfold decode
      match c with
      | 0 => simp; omega
      | 1 => simp; omega
      | c + 2 => rfl
  · rfl

end
end Verif.R2
