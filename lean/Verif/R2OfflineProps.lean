import Verif.R2Reset
import Verif.R2SizesProps
import Verif.R2StepProps
import Verif.R2Together
/-!
# The faster engine offline: how much comes out, and that it does not depend on the blocks (C38, C73, C74)
-/
namespace Verif.R2
open Verif.Round Verif.StretchCalc

variable {α σ ρ κ : Type}

/-! ## How much comes out -/

theorem drain_length (env : Env α σ ρ κ) {z : Sizes} (incs : List Int) (hi : 1 ≤ z.increment) : ∀ (f : Nat) (x : Syn α σ), x.fill ≤ f →
    (drain env z incs f x).length = x.fill := by
  intro f
  induction f with
  | zero =>
    intro x h
    unfold drain
    simp; omega
  | succ f ih =>
    intro x h
    unfold drain
    split
    · simp; omega
    · have hb : 1 ≤ drainBy z incs x ∧ drainBy z incs x ≤ x.fill := by
        unfold drainBy
        simp only
        split <;> omega
      rw [List.length_append, ih _ (by unfold drainStep; simp only; omega)]
      unfold drainStep
      simp only [List.length_map, List.length_range]
      omega

theorem emission_length [Zero α] (env : Env α σ ρ κ) {p : Params} {z : Sizes} {incs : List Int} (hp : Fine p z incs) {x₀ : Syn α σ} (h0 : x₀.count = 0)
    (hf : x₀.fill ≤ z.window) (input : List α) :
    (emission env z incs x₀ input).length = spent z incs (input.length / z.increment) + z.window := by
  unfold emission frames
  simp only [List.length_append]
  obtain ⟨a1, _, _⟩ := synAt_facts env (incs := incs) h0 hf (List.replicate (z.window / 2) 0 ++ input) (input.length / z.increment + 1)
  obtain ⟨_, b2, b3⟩ := synAt_facts env (incs := incs) h0 hf (List.replicate (z.window / 2) 0 ++ input) (input.length / z.increment)
  rw [a1, drain_length env incs hp.inc _ _ (le_refl _)]
  generalize input.length / z.increment = k at *
  have e : spent z incs (k + 1) = spent z incs k + (pick z incs k).2.shift := rfl
  rw [e]
  obtain ⟨c1, _⟩ := pick_count z incs _ _ b3
  have := pick_lt hp k
  unfold synAt frameStep
  simp only
  rw [c1]
  omega

theorem startSkip_plain {p : Params} {z : Sizes} (h : Plain p z) : startSkip p z = z.window / 2 := by
  unfold startSkip
  rw [h.pitch]
  have := lrint_int ((z.window / 2 : Nat) : Int)
  simp only [h.offline, Bool.false_eq_true, if_false, div_one]
  rw [Int.cast_natCast] at this
  rw [this]
  exact Int.toNat_natCast _

/-- The length of what is heard. -/
def total (z : Sizes) (incs : List Int) (n : Nat) : Nat := min (target z n) (spent z incs (n / z.increment) + (z.window - z.window / 2))

theorem output_length [Zero α] (env : Env α σ ρ κ) {p : Params} {z : Sizes} {incs : List Int} (hp : Fine p z incs) {x₀ : Syn α σ} (h0 : x₀.count = 0)
    (hf : x₀.fill ≤ z.window) (input : List α) (hT : Fits z incs (target z input.length)) : (output p env z incs x₀ input).length = total z incs input.length := by
  rw [output_fits p env x₀ input hT hp.inc]
  unfold total
  rw [List.length_take, List.length_drop, emission_length env hp h0 hf, startSkip_plain hp.plain]
  omega

theorem spent_nil (z : Sizes) : ∀ j, spent z [] j = j * z.increment := by
  intro j
  induction j with
  | zero => simp [spent]
  | succ j ih =>
    unfold spent
    rw [ih]
    unfold pick
    simp only [List.length_nil, if_true]
    rw [Nat.succ_mul]

/-! ## What is assumed -/

/-- What is assumed about a stretcher about to process `n` samples offline, all of it visible to its user: the options, the rate, the ratios, and the
output increments (`getOutputIncrements`), which must each be less than a window, the sum of those used before the end of the input is known being no more than the
output is to be and half a window. -/
structure Ordinary (p : Params) (t : State α σ ρ κ) (n : Nat) : Prop where
  offline : p.realTime = false
  consistency : p.highConsistency = false
  rate : 8000 ≤ p.rate ∧ p.rate ≤ 192000
  pitch : t.sizes.pitchScale = 1
  ratio : 1 / 2 ^ 20 ≤ t.sizes.timeRatio ∧ t.sizes.timeRatio ≤ 2 ^ 20
  short : ∀ i ∈ t.outputIncrements, i.natAbs < t.sizes.window
  early : ∀ j, (∀ i, i < j → i * t.sizes.increment + t.sizes.window ≤ t.sizes.window / 2 + n) →
    spent t.sizes t.outputIncrements j ≤ t.sizes.window / 2 + target t.sizes n

section
variable [Zero α] [Add α] [Sub α] {p : Params} {env : Env α σ ρ κ}

/-- A stretcher about to process, after any history of calls since construction (settings, study, processing, resets), `t` being its state once the stretch profile
has been calculated (which is what the first `process` does first). -/
structure Prepared (p : Params) (env : Env α σ ρ κ) (s t : State α σ ρ κ) : Prop where
  history : ∃ a b s₀ pre outs, create p env a b = some s₀ ∧ run p env s₀ pre = some (s, outs)
  mode : s.mode = .justCreated ∨ s.mode = .studying
  start : prologue env s = some t

theorem Prepared.ready {s t : State α σ ρ κ} (h : Prepared p env s t) (hp : p.realTime = false) : Ready p s ∧ Sized p t.sizes := by
  obtain ⟨a, b, s₀, pre, outs, h1, h2⟩ := h.history
  have hk := run_kept hp pre s₀ s outs (create_kept hp h1) h2
  have hr : Ready p s := ⟨h.mode, hk.length, hk.roomy, hk.clean⟩
  exact ⟨hr, by rw [(prologue_clean hr h.start).1]; exact hk.sized⟩

theorem Ordinary.fine {s t : State α σ ρ κ} {n : Nat} (h : Ordinary p t n) (hs : Prepared p env s t) :
    Fine p t.sizes t.outputIncrements ∧ Good p t.sizes t.outputIncrements n := by
  have hplain : Plain p t.sizes := ⟨h.offline, h.pitch, h.consistency⟩
  have hu := sized_usable (hs.ready h.offline).2 h.offline h.rate.1 h.rate.2 (by rw [h.pitch, mul_one]; exact h.ratio.1) (by rw [h.pitch, mul_one]; exact h.ratio.2)
  have hw := hu.input
  have hl := hu.longer
  refine ⟨⟨hplain, hu.increment, by omega, h.short⟩, ⟨?_⟩⟩
  intro j hj
  rw [startSkip_plain hplain]
  exact h.early j hj

/-- The channels are not turned into mid and side. -/
def Apart (p : Params) : Prop := p.channelsTogether = false ∨ p.channels ≤ 1

theorem Apart.sep (h : Apart p) : (p.channelsTogether && decide (p.channels ≥ 2)) = false := by
  rcases h with e | e
  · rw [e]; rfl
  · rw [decide_eq_false (by omega), Bool.and_false]

/-- What happens from the first `process` to the end. -/
theorem ordinary_run (hap : Apart p) {s t : State α σ ρ κ} (hs : Prepared p env s t) {input : List (Frame α)} {final : Bool} {cs : List (Call α)} (hcs : ∀ c ∈ cs, Playing c)
    (hend : ends (.process input final :: cs) = true) (h : Ordinary p t (given (.process input final :: cs)).length) :
    ∃ s' outs, run p env s (.process input final :: cs) = some (s', outs) ∧ s'.chans.length = p.channels ∧
      ∀ (c : Nat) cd, s'.chans[c]? = some cd → cd.outputComplete = true ∧
        delivered outs c ++ cd.outbuf.data =
          output p env t.sizes t.outputIncrements (initial env t c) ((given (.process input final :: cs)).map (prepared p env c)) := by
  obtain ⟨hf, hg⟩ := h.fine hs
  obtain ⟨s', outs, a1, a2⟩ := flow_all (hs.ready h.offline).1 hs.start hf hap.sep hcs (fun _ => hg)
  rw [hend] at a2
  refine ⟨s', outs, a1, a2.length, ?_⟩
  intro c cd hc
  have := a2.chans c cd hc
  unfold Between at this
  simp only [if_true] at this
  exact ⟨this.complete, this.heard⟩

/-! ## Channels together -/

theorem never_before (hp : p.realTime = false) (x : Rat) : resampleBefore p x = false := by unfold resampleBefore; simp [hp]

theorem Prepared.split {s t : State α σ ρ κ} (h : Prepared p env s t) (hp : p.realTime = false) : Prepared p.apart env s t := by
  obtain ⟨a, b, s₀, pre, outs, h1, h2⟩ := h.history
  rw [run_apart (never_before hp)] at h2
  obtain ⟨x, h3, h4⟩ := Option.map_eq_some_iff.mp h2
  refine ⟨⟨a, b, s₀, pre.map (encodedCall p env), x.2, h1, ?_⟩, h.mode, h.start⟩
  rw [h3]
  simp only [Prod.mk.injEq] at h4
  rw [← h4.1]

omit [Zero α] [Add α] [Sub α] in
theorem Ordinary.split {t : State α σ ρ κ} {n : Nat} (h : Ordinary p t n) : Ordinary p.apart t n :=
  ⟨h.offline, h.consistency, h.rate, h.pitch, h.ratio, h.short, h.early⟩

theorem playing_encoded {cs : List (Call α)} (h : ∀ c ∈ cs, Playing c) : ∀ c ∈ cs.map (encodedCall p env), Playing c := by
  intro c hc
  obtain ⟨d, hd, rfl⟩ := List.mem_map.mp hc
  have := h d hd
  cases d <;> first | exact this | trivial

theorem ends_encoded (cs : List (Call α)) : ends (cs.map (encodedCall p env)) = ends cs := by
  induction cs with
  | nil => rfl
  | cons c cs ih => cases c <;> simp only [List.map_cons, encodedCall, ends, ih]

theorem given_encoded (cs : List (Call α)) : given (cs.map (encodedCall p env)) = (given cs).map (encoded p env) := by
  induction cs with
  | nil => rfl
  | cons c cs ih =>
    cases c with
    | process input final =>
      simp only [List.map_cons, encodedCall, given, ih]
      split
      · rfl
      · rw [List.map_append]
    | _ => simp only [List.map_cons, encodedCall, given, ih]

theorem delivered_decoded (outs : List (List (List α))) (c : Nat) : (delivered (outs.map (decoded p)) c).length = (delivered outs c).length := by
  unfold delivered
  induction outs with
  | nil => rfl
  | cons o outs ih =>
    simp only [List.map_cons, List.flatten_cons, List.length_append, decoded_length]
    rw [ih]

/-- What happens from the first `process` to the end, channels together or not: how much of it there is. -/
theorem ordinary_lengths {s t : State α σ ρ κ} (hs : Prepared p env s t) {input : List (Frame α)} {final : Bool} {cs : List (Call α)} (hcs : ∀ c ∈ cs, Playing c)
    (hend : ends (.process input final :: cs) = true) (h : Ordinary p t (given (.process input final :: cs)).length) :
    ∃ s' outs, run p env s (.process input final :: cs) = some (s', outs) ∧ s'.chans.length = p.channels ∧
      ∀ (c : Nat) cd, s'.chans[c]? = some cd → cd.outputComplete = true ∧
        (delivered outs c).length + cd.outbuf.data.length =
          (output p env t.sizes t.outputIncrements (initial env t c) ((given (.process input final :: cs)).map (prepared p env c))).length := by
  have e := given_encoded (p := p) (env := env) (.process input final :: cs)
  have hend' := ends_encoded (p := p) (env := env) (.process input final :: cs)
  simp only [List.map_cons, encodedCall] at e hend'
  obtain ⟨s', outs, a1, a2, a3⟩ := ordinary_run (p := p.apart) (Or.inl rfl) (hs.split h.offline) (playing_encoded (p := p) (env := env) hcs) (hend'.trans hend) (by
    rw [e, List.length_map]
    exact h.split)
  refine ⟨s', outs.map (decoded p), ?_, a2, ?_⟩
  · rw [run_apart (never_before h.offline)]
    simp only [List.map_cons, encodedCall, a1, Option.map_some]
  · intro c cd hc
    obtain ⟨b1, b2⟩ := a3 c cd hc
    refine ⟨b1, ?_⟩
    have hl := congrArg List.length b2
    rw [List.length_append, e, List.map_map] at hl
    rw [delivered_decoded, hl]
    have : (prepared p.apart env c) ∘ (encoded p env) = prepared p env c := by funext f; exact prepared_encoded c f
    rw [this]
    rfl

/-! ## C38 -/

/-- **C38** in full: no more is heard of any channel than the rounded product of the duration and the ratio, however it was prepared, whatever the
blocks, and whatever is retrieved when. -/
def C38_statement : Prop :=
  ∀ {α σ ρ κ : Type} [Zero α] [Add α] [Sub α] (p : Params) (env : Env α σ ρ κ) (s t s' : State α σ ρ κ) (input : List (Frame α)) (final : Bool)
    (cs : List (Call α)) (outs : List (List (List α))), p.realTime = false → Prepared p env s t → (∀ c ∈ cs, Playing c) → ends (.process input final :: cs) = true →
    run p env s (.process input final :: cs) = some (s', outs) →
    ∀ c, (delivered outs c).length ≤ (lrint (((given (.process input final :: cs)).length : Rat) * t.sizes.timeRatio)).toNat

/-- **C38 (partial).**  The faster engine offline, for an ordinary configuration (see `Ordinary`; what is missing is pitch shifting and inputs whose output is to be shorter than one increment, for
which it is false): nothing goes wrong, and no more is heard of any channel than the rounded product of the duration and the ratio. -/
theorem C38_partial {s t : State α σ ρ κ} (hs : Prepared p env s t) {input : List (Frame α)} {final : Bool} {cs : List (Call α)} (hcs : ∀ c ∈ cs, Playing c)
    (hend : ends (.process input final :: cs) = true) (h : Ordinary p t (given (.process input final :: cs)).length)
    (hT : Fits t.sizes t.outputIncrements (target t.sizes (given (.process input final :: cs)).length)) :
    ∃ s' outs, run p env s (.process input final :: cs) = some (s', outs) ∧
      ∀ c, c < p.channels → (delivered outs c).length ≤ (lrint (((given (.process input final :: cs)).length : Rat) * t.sizes.timeRatio)).toNat := by
  obtain ⟨s', outs, a1, a2, a3⟩ := ordinary_lengths hs hcs hend h
  refine ⟨s', outs, a1, ?_⟩
  intro c hc
  obtain ⟨cd, hcd⟩ : ∃ cd, s'.chans[c]? = some cd := ⟨_, List.getElem?_eq_getElem (by omega)⟩
  have hl := (a3 c cd hcd).2
  rw [output_fits p env _ _ (by rw [List.length_map]; exact hT) (h.fine hs).1.inc] at hl
  unfold target at hl
  rw [List.length_take, List.length_map] at hl
  omega

/-- Everything that is to be heard, exactly: as much as the rounded product, or as much as there is, whichever is less. -/
theorem C38_exact {s t : State α σ ρ κ} (hs : Prepared p env s t) {input : List (Frame α)} {final : Bool} {cs : List (Call α)} (hcs : ∀ c ∈ cs, Playing c)
    (hend : ends (.process input final :: cs) = true) (h : Ordinary p t (given (.process input final :: cs)).length)
    (hT : Fits t.sizes t.outputIncrements (target t.sizes (given (.process input final :: cs)).length)) :
    ∃ s' outs, run p env s (.process input final :: cs) = some (s', outs) ∧ s'.chans.length = p.channels ∧
      ∀ (c : Nat) cd, s'.chans[c]? = some cd →
        (delivered outs c).length + cd.outbuf.data.length = total t.sizes t.outputIncrements (given (.process input final :: cs)).length := by
  obtain ⟨s', outs, a1, a2, a3⟩ := ordinary_lengths hs hcs hend h
  obtain ⟨hf, _⟩ := h.fine hs
  refine ⟨s', outs, a1, a2, ?_⟩
  intro c cd hcd
  have hl := (a3 c cd hcd).2
  obtain ⟨_, b⟩ := flow_start (hs.ready h.offline).1 hs.start hf
  rw [output_length env hf (b c).1 (b c).2 _ (by rw [List.length_map]; exact hT), List.length_map] at hl
  exact hl

/-- At a time ratio of 1 and with no study, exactly as many samples come out as went in, if there are at least as many as an increment. -/
theorem C38_unity {s t : State α σ ρ κ} (hs : Prepared p env s t) {input : List (Frame α)} {final : Bool} {cs : List (Call α)} (hcs : ∀ c ∈ cs, Playing c)
    (hend : ends (.process input final :: cs) = true) (hrt : p.realTime = false) (hcon : p.highConsistency = false)
    (hrate : 8000 ≤ p.rate ∧ p.rate ≤ 192000) (hps : t.sizes.pitchScale = 1) (htr : t.sizes.timeRatio = 1)
    (hst : t.outputIncrements = []) (hn : t.sizes.increment ≤ (given (.process input final :: cs)).length) :
    ∃ s' outs, run p env s (.process input final :: cs) = some (s', outs) ∧ s'.chans.length = p.channels ∧
      ∀ (c : Nat) cd, s'.chans[c]? = some cd → (delivered outs c).length + cd.outbuf.data.length = (given (.process input final :: cs)).length := by
  generalize hN : (given (.process input final :: cs)).length = n at hn
  have hu := sized_usable (hs.ready hrt).2 hrt hrate.1 hrate.2 (by rw [hps, htr]; norm_num) (by rw [hps, htr]; norm_num)
  have ht : target t.sizes n = n := by
    unfold target
    rw [htr, mul_one]
    have := lrint_int (n : Int)
    push_cast at this
    rw [this]
    exact Int.toNat_natCast n
  have hinc := hu.increment
  have hwin := hu.input
  have hlon := hu.longer
  have h : Ordinary p t (given (.process input final :: cs)).length := by
    rw [hN]
    refine ⟨hrt, hcon, hrate, hps, by rw [htr]; norm_num, by rw [hst]; simp, ?_⟩
    intro j hj
    rw [hst, spent_nil]
    cases j with
    | zero => simp
    | succ j =>
      have := hj j (by omega)
      rw [Nat.succ_mul]
      omega
  obtain ⟨s', outs, a1, a2, a3⟩ := C38_exact hs hcs hend h ⟨by rw [hN, ht]; exact hn, by rw [hst]; simp⟩
  refine ⟨s', outs, a1, a2, ?_⟩
  intro c cd hcd
  rw [a3 c cd hcd, hN]
  unfold total
  rw [ht, hst, spent_nil]
  have := Nat.div_add_mod n t.sizes.increment
  have hm := Nat.mod_lt n (by omega : 0 < t.sizes.increment)
  rw [Nat.mul_comm] at this
  omega

/-- For examples: a check of `Ordinary`. -/
def ordinaryCheck (p : Params) (t : State α σ ρ κ) (n : Nat) : Bool :=
  !p.realTime && !p.highConsistency && decide (8000 ≤ p.rate ∧ p.rate ≤ 192000) &&
    decide (t.sizes.pitchScale = 1) && decide (1 / 2 ^ 20 ≤ t.sizes.timeRatio ∧ t.sizes.timeRatio ≤ 2 ^ 20) &&
    t.outputIncrements.all (fun i => decide (i.natAbs < t.sizes.window)) &&
    decide (1 ≤ t.sizes.increment) &&
    (List.range (n + 2)).all fun j => decide (spent t.sizes t.outputIncrements j ≤ t.sizes.window / 2 + target t.sizes n) ||
      decide (1 ≤ j ∧ t.sizes.window / 2 + n < (j - 1) * t.sizes.increment + t.sizes.window)

omit [Zero α] [Add α] [Sub α] in
theorem ordinary_of_check {p : Params} {t : State α σ ρ κ} {n : Nat} (h : ordinaryCheck p t n = true) : Ordinary p t n := by
  unfold ordinaryCheck at h
  simp only [Bool.and_eq_true, Bool.not_eq_true', Bool.or_eq_true, decide_eq_true_eq, List.all_eq_true, List.mem_range] at h
  obtain ⟨⟨⟨⟨⟨⟨⟨h1, h2⟩, h4⟩, h5⟩, h6⟩, h7⟩, h8⟩, h9⟩ := h
  refine ⟨h1, h2, h4, h5, h6, h7, ?_⟩
  intro j hj
  have hb : j < n + 2 := by
    by_contra hc
    have := hj (j - 1) (by omega)
    have : j - 1 ≤ (j - 1) * t.sizes.increment := Nat.le_mul_of_pos_right _ (by omega)
    omega
  rcases h9 j hb with h | h
  · exact h
  · have := hj (j - 1) (by omega)
    omega

/-- A stretcher for short windows at 8000 Hz, offline. -/
def Ex.short : Params := { rate := 8000, windowShort := true }

/-- Blocks for an example. -/
def Ex.block (n : Nat) : List (Frame Int) := List.replicate n fun c => c

theorem Ex.joined (m n : Nat) : Ex.block m ++ Ex.block n = Ex.block (m + n) := List.replicate_append_replicate

theorem Ex.block_length (n : Nat) : (Ex.block n).length = n := List.length_replicate ..

/-- C38 is false of the code: of 60 samples, studied and at a ratio of 1/2, half a window of 256 is made, and not 30 samples (`writeOutput` does not limit
the write in which the output to be left out ends). -/
theorem C38_violated : ¬ C38_statement := by
  intro h
  have hrun : (create Ex.short demo (.fin (1 / 2)) (.fin 1)).bind (fun s₀ => (run Ex.short demo s₀ [.study (Ex.block 60) true]).bind fun x => (prologue demo x.1).bind fun t =>
      (run Ex.short demo x.1 [.process (Ex.block 60) true, .available, .retrieve 1000]).map fun y => (decide (x.1.mode = .studying), decide (t.sizes.timeRatio = 1 / 2), (delivered y.2 0).length)) =
      some (true, true, 128) := by decide +kernel
  obtain ⟨s₀, h1, h2⟩ := Option.bind_eq_some_iff.mp hrun
  obtain ⟨⟨s, o⟩, h3, h4⟩ := Option.bind_eq_some_iff.mp h2
  obtain ⟨t, h5, h6⟩ := Option.bind_eq_some_iff.mp h4
  obtain ⟨⟨s', outs⟩, h7, h8⟩ := Option.map_eq_some_iff.mp h6
  simp only [Prod.mk.injEq, decide_eq_true_eq] at h8
  have := h Ex.short demo s t s' (Ex.block 60) true [.available, .retrieve 1000] outs rfl
    ⟨⟨_, _, s₀, [.study (Ex.block 60) true], o, h1, h3⟩, Or.inr h8.1, h5⟩
    (by intro c hc; simp at hc; rcases hc with rfl | rfl <;> trivial) rfl h7 0
  rw [h8.2.2, h8.2.1, show (given [Call.process (Ex.block 60) true, .available, .retrieve 1000]).length = 60 from rfl] at this
  revert this
  decide +kernel

/-- A case to which C38, C73 and C74 apply: 300 samples, studied, at a ratio of 3/2. -/
theorem Ex.applies : ∃ s t : State Int Unit Unit Unit, Prepared Ex.short demo s t ∧ Ordinary Ex.short t 300 ∧ Fits t.sizes t.outputIncrements (target t.sizes 300) ∧ t.outputIncrements ≠ [] ∧ t.sizes.timeRatio = 3 / 2 := by
  have hrun : (create Ex.short demo (.fin (3 / 2)) (.fin 1)).bind (fun s₀ => (run Ex.short demo s₀ [.study (Ex.block 300) true]).bind fun x => (prologue demo x.1).map fun t =>
      (decide (x.1.mode = .studying), ordinaryCheck Ex.short t 300, decide (t.sizes.increment ≤ target t.sizes 300 ∧ ∀ i ∈ t.outputIncrements, i.natAbs ≤ target t.sizes 300), decide (t.outputIncrements ≠ []), decide (t.sizes.timeRatio = 3 / 2))) = some (true, true, true, true, true) := by decide +kernel
  obtain ⟨s₀, h1, h2⟩ := Option.bind_eq_some_iff.mp hrun
  obtain ⟨⟨s, o⟩, h3, h4⟩ := Option.bind_eq_some_iff.mp h2
  obtain ⟨t, h5, h6⟩ := Option.map_eq_some_iff.mp h4
  simp only [Prod.mk.injEq, decide_eq_true_eq] at h6
  exact ⟨s, t, ⟨⟨_, _, s₀, _, o, h1, h3⟩, Or.inr h6.1, h5⟩, ordinary_of_check h6.2.1, ⟨h6.2.2.1.1, h6.2.2.1.2⟩, h6.2.2.2.1, h6.2.2.2.2⟩

/-- Of which 450 samples are heard, given in blocks. -/
example : demoRun Ex.short (3 / 2) 1 [.study (Ex.block 300) true, .process (Ex.block 100) false, .process (Ex.block 200) true, .available, .retrieve 1000] =
    some ([0], [[], [], [], [], [450]]) := by decide +kernel

/-- C38 applied to it. -/
example : ∃ s s' outs, run Ex.short demo s [.process (Ex.block 100) false, .retrieve 50, .process (Ex.block 200) true, .available, .retrieve 1000] = some (s', outs) ∧
    (delivered outs 0).length ≤ 450 := by
  obtain ⟨s, t, h1, h2, h4, _, h3⟩ := Ex.applies
  have hl : (given [Call.process (Ex.block 100) false, .retrieve 50, .process (Ex.block 200) true, .available, .retrieve 1000]).length = 300 := by
    show (Ex.block 100 ++ Ex.block 200).length = 300
    rw [Ex.joined, Ex.block_length]
  obtain ⟨s', outs, a1, a2⟩ := C38_partial (input := Ex.block 100) (final := false) (cs := [.retrieve 50, .process (Ex.block 200) true, .available, .retrieve 1000]) h1
    (by intro c hc; simp at hc; rcases hc with rfl | rfl | rfl | rfl <;> trivial) rfl (by rw [hl]; exact h2) (by rw [hl]; exact h4)
  refine ⟨s, s', outs, a1, le_trans (a2 0 (by decide)) ?_⟩
  rw [h3, show (given [Call.process (Ex.block 100) false, .retrieve 50, .process (Ex.block 200) true, .available, .retrieve 1000]).length = 300 from hl]
  decide +kernel

/-- With no study and a ratio of 1: 300 samples of 300. -/
example : demoRun Ex.short 1 1 [.process (Ex.block 100) false, .process (Ex.block 200) true, .available, .retrieve 1000] = some ([0], [[], [], [], [300]]) := by
  decide +kernel

/-! ## C73 -/

/-- Any call but `reset`. -/
def Going (c : Call α) : Prop := Playing c ∨ Preparing c

/-- **C73** in full: once the end of the input has been given, `available()` gives -1 or a number that is not 0, so that one who waits for
-1 gets on. -/
def C73_statement : Prop :=
  ∀ {α σ ρ κ : Type} [Zero α] [Add α] [Sub α] (p : Params) (env : Env α σ ρ κ) (a b : R3.Dbl) (s₀ s s' : State α σ ρ κ) (cs : List (Call α))
    (outs : List (List (List α))) (n : Int), 1 ≤ p.channels → create p env a b = some s₀ → (∀ c ∈ cs, Going c) → ends cs = true → run p env s₀ cs = some (s, outs) →
    available p env s = some (s', n) → n ≠ 0

/-- **C73 (partial).**  Offline, for an ordinary configuration: after the end, `available()` gives -1 if a channel has nothing left, and otherwise a
positive number, which is not more than any channel has left.  What is missing is real time, of which it is false, and pitch shifting. -/
theorem C73_partial {s t : State α σ ρ κ} (hs : Prepared p env s t) {input : List (Frame α)} {final : Bool} {cs : List (Call α)} (hcs : ∀ c ∈ cs, Playing c)
    (hend : ends (.process input final :: cs) = true) (h : Ordinary p t (given (.process input final :: cs)).length) (hc : 1 ≤ p.channels) :
    ∃ s' outs s'' n, run p env s (.process input final :: cs) = some (s', outs) ∧ available p env s' = some (s'', n) ∧
      ((n = -1 ∧ ∃ cd ∈ s''.chans, cd.outbuf.data = []) ∨ (0 < n ∧ ∀ cd ∈ s''.chans, n ≤ cd.outbuf.data.length)) := by
  have e := given_encoded (p := p) (env := env) (.process input final :: cs)
  have hend' := ends_encoded (p := p) (env := env) (.process input final :: cs)
  simp only [List.map_cons, encodedCall] at e hend'
  have hs' := hs.split h.offline
  obtain ⟨hf, hg⟩ := h.split.fine hs'
  obtain ⟨s', outs, a1, a2⟩ := flow_all (p := p.apart) (hs'.ready h.offline).1 hs.start hf rfl (playing_encoded (p := p) (env := env) hcs)
    (fun _ => by rw [e, List.length_map]; exact hg)
  obtain ⟨s'', b1, b2⟩ := flow_available hf a2
  refine ⟨s', outs.map (decoded p), s'', count s'', ?_, by rw [← available_apart]; exact b1, ?_⟩
  · rw [run_apart (never_before h.offline)]
    simp only [List.map_cons, encodedCall, a1, Option.map_some]
  rw [hend', hend] at b2
  have hall : s''.chans.all (fun cd => cd.outputComplete) = true := by
    rw [List.all_eq_true]
    intro cd hcd
    obtain ⟨c, hc, e⟩ := List.mem_iff_getElem.mp hcd
    have := b2.chans c cd (by rw [List.getElem?_eq_getElem hc, e])
    unfold Between at this
    simp only [if_true] at this
    exact this.complete
  have hne : s''.chans ≠ [] := by
    intro e
    have : s''.chans.length = p.channels := b2.length
    rw [e] at this
    simp at this
    omega
  have hleast : ∀ l : List (Chan α σ ρ), l ≠ [] → (∃ cd ∈ l, cd.outbuf.data.length = least l) ∧ ∀ cd ∈ l, least l ≤ cd.outbuf.data.length := by
    intro l
    induction l with
    | nil => intro h; exact absurd rfl h
    | cons d l ih =>
      intro _
      cases l with
      | nil => exact ⟨⟨d, by simp, rfl⟩, by intro cd hcd; simp at hcd; rw [hcd]; exact le_refl _⟩
      | cons e l =>
        obtain ⟨⟨x, x1, x2⟩, y⟩ := ih (by simp)
        have hl : least (d :: e :: l) = min d.outbuf.data.length (least (e :: l)) := rfl
        rw [hl]
        refine ⟨?_, ?_⟩
        · rcases Nat.le_total d.outbuf.data.length (least (e :: l)) with hh | hh
          · exact ⟨d, by simp, by omega⟩
          · exact ⟨x, List.mem_cons_of_mem _ x1, by omega⟩
        · intro cd hcd
          rcases List.mem_cons.mp hcd with rfl | hcd
          · omega
          · have := y cd hcd; omega
  obtain ⟨⟨x, x1, x2⟩, y⟩ := hleast s''.chans hne
  unfold count
  rw [if_neg hne, b2.sizes, h.pitch]
  simp only [hall, and_true, if_true]
  split
  · rename_i h0
    left
    exact ⟨rfl, x, x1, List.length_eq_zero_iff.mp (by omega)⟩
  · right
    refine ⟨by omega, fun cd hcd => ?_⟩
    have := y cd hcd
    omega

/-- A stretcher at 8000 Hz, in real time. -/
def Ex.live : Params := { rate := 8000, realTime := true }

/-- C73 is false of the code: in real time, after 10 samples of input, half a window of which is never reached, `available()` gives 0 for ever. -/
theorem C73_violated : ¬ C73_statement := by
  intro h
  have hrun : (create Ex.live demo (.fin 1) (.fin 1)).bind (fun s => (run Ex.live demo s [.process (List.replicate 10 fun c => c) true]).bind fun x =>
      (available Ex.live demo x.1).map fun x => x.2) = some 0 := by decide +kernel
  obtain ⟨s, h1, h2⟩ := Option.bind_eq_some_iff.mp hrun
  obtain ⟨⟨s', outs⟩, h3, h4⟩ := Option.bind_eq_some_iff.mp h2
  obtain ⟨⟨s'', n⟩, h5, h6⟩ := Option.map_eq_some_iff.mp h4
  exact h Ex.live demo (.fin 1) (.fin 1) s s' s'' _ outs n (by decide) h1 (by intro c hc; simp at hc; rw [hc]; exact Or.inl trivial) rfl h3 h5 h6

/-! ## C74 -/

/-- **C74** in full: what is heard of a channel when all is done is determined by the input, and does not depend on how it was divided, nor on what was
retrieved when. -/
def C74_statement : Prop :=
  ∀ {α σ ρ κ : Type} [Zero α] [Add α] [Sub α] (p : Params) (env : Env α σ ρ κ) (s t : State α σ ρ κ) (i₁ i₂ : List (Frame α)) (f₁ f₂ : Bool)
    (cs₁ cs₂ : List (Call α)) (s₁ s₂ : State α σ ρ κ) (outs₁ outs₂ : List (List (List α))), p.realTime = false → Prepared p env s t →
    (∀ c ∈ cs₁, Playing c) → (∀ c ∈ cs₂, Playing c) → ends (.process i₁ f₁ :: cs₁) = true → ends (.process i₂ f₂ :: cs₂) = true →
    given (.process i₁ f₁ :: cs₁) = given (.process i₂ f₂ :: cs₂) → run p env s (.process i₁ f₁ :: cs₁) = some (s₁, outs₁) →
    run p env s (.process i₂ f₂ :: cs₂) = some (s₂, outs₂) → (∀ cd ∈ s₁.chans, cd.outbuf.data = []) → (∀ cd ∈ s₂.chans, cd.outbuf.data = []) →
    ∀ c, c < p.channels → delivered outs₁ c = delivered outs₂ c

/-- **C74 (partial).**  Offline, for an ordinary configuration and channels apart: there is for every input one result, and whatever the division of the input into blocks,
whatever else is called (`available`, `retrieve`, further calls of `process`), what has been retrieved of each channel and what is
left to be retrieved make up that result. -/
theorem C74_partial (hap : Apart p) {s t : State α σ ρ κ} (hs : Prepared p env s t) (all : List (Frame α)) (h : Ordinary p t all.length) :
    ∃ heard : Nat → List α, ∀ (input : List (Frame α)) (final : Bool) (cs : List (Call α)), (∀ c ∈ cs, Playing c) → ends (.process input final :: cs) = true →
      given (.process input final :: cs) = all →
      ∃ s' outs, run p env s (.process input final :: cs) = some (s', outs) ∧ s'.chans.length = p.channels ∧
        ∀ (c : Nat) cd, s'.chans[c]? = some cd → delivered outs c ++ cd.outbuf.data = heard c := by
  refine ⟨fun c => output p env t.sizes t.outputIncrements (initial env t c) (all.map (prepared p env c)), ?_⟩
  intro input final cs hcs hend hall
  obtain ⟨s', outs, a1, a2, a3⟩ := ordinary_run hap hs hcs hend (by rw [hall]; exact h)
  rw [hall] at a3
  exact ⟨s', outs, a1, a2, fun c cd hc => (a3 c cd hc).2⟩

/-- C74 is false of the code if the input has not been studied: of 380 samples at a ratio of 1/4, 95 are heard if they are given at once, but 448 if they
are given as 370 and 10 (the increments are not stretched without study, and only once the end is known is the output limited; a channel that has
already given more is not limited at all). -/
theorem C74_violated : ¬ C74_statement := by
  intro h
  have hrun : (create Ex.short demo (.fin (1 / 4)) (.fin 1)).bind (fun s => (prologue demo s).bind fun t =>
      (run Ex.short demo s [.process (Ex.block 380) true, .available, .retrieve 1000]).bind fun y =>
      (run Ex.short demo s [.process (Ex.block 370) false, .process (Ex.block 10) true, .available, .retrieve 1000]).map fun z =>
        (decide (s.mode = .justCreated), (delivered y.2 0).length, (delivered z.2 0).length, y.1.chans.map fun cd => cd.outbuf.data.length, z.1.chans.map fun cd => cd.outbuf.data.length)) =
      some (true, 95, 448, [0], [0]) := by decide +kernel
  obtain ⟨s, h1, h2⟩ := Option.bind_eq_some_iff.mp hrun
  obtain ⟨t, h3, h4⟩ := Option.bind_eq_some_iff.mp h2
  obtain ⟨⟨s₁, o₁⟩, h5, h6⟩ := Option.bind_eq_some_iff.mp h4
  obtain ⟨⟨s₂, o₂⟩, h7, h8⟩ := Option.map_eq_some_iff.mp h6
  simp only [Prod.mk.injEq, decide_eq_true_eq] at h8
  have empty : ∀ l : List (Chan Int Unit Unit), (l.map fun cd => cd.outbuf.data.length) = [0] → ∀ cd ∈ l, cd.outbuf.data = [] := by
    intro l hl cd hcd
    have : cd.outbuf.data.length ∈ l.map fun cd => cd.outbuf.data.length := List.mem_map_of_mem hcd
    rw [hl] at this
    exact List.length_eq_zero_iff.mp (by simpa using this)
  have := h Ex.short demo s t (Ex.block 380) (Ex.block 370) true false [.available, .retrieve 1000] [.process (Ex.block 10) true, .available, .retrieve 1000]
    s₁ s₂ o₁ o₂ rfl ⟨⟨_, _, s, [], [], h1, rfl⟩, Or.inl h8.1, h3⟩ (by intro c hc; simp at hc; rcases hc with rfl | rfl <;> trivial)
    (by intro c hc; simp at hc; rcases hc with rfl | rfl | rfl <;> trivial) rfl rfl (Ex.joined 370 10).symm h5 h7 (empty _ h8.2.2.2.1) (empty _ h8.2.2.2.2) 0 (by decide)
  have := congrArg List.length this
  rw [h8.2.1, h8.2.2.1] at this
  omega

end
end Verif.R2
