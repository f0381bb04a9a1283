import Verif.R2OfflineProps
/-!
# The faster engine: the frames at the end of the input (C40)
-/
namespace Verif.R2
open Verif.Round Verif.StretchCalc

variable {α σ ρ κ : Type}

/-- What there would be to be heard if the samples missing from the last frames were zero: as `output`, but the frames are taken from the input with zeros after it. -/
def silentTail [Zero α] (p : Params) (env : Env α σ ρ κ) (z : Sizes) (incs : List Int) (x₀ : Syn α σ) (input : List α) : List α :=
  let X := padded z input ++ List.replicate z.window 0
  let x := (synAt env z incs x₀ X (frames z input.length)).1
  (hearDrain env z incs (startSkip p z) (target z input.length) x.fill x (hearAt env z incs x₀ (startSkip p z) (target z input.length) X (frames z input.length))).1

/-- With zeros after the input there is no frame that is not full. -/
theorem silentTail_full [Zero α] (z : Sizes) (input : List α) (j : Nat) (hj : j < frames z input.length) :
    (((padded z input ++ List.replicate z.window 0).drop (j * z.increment)).take z.window).length = z.window := by
  unfold frames at hj
  have h1 : j * z.increment ≤ input.length / z.increment * z.increment := Nat.mul_le_mul_right _ (by omega)
  have h2 := Nat.div_mul_le_self input.length z.increment
  rw [List.length_take, List.length_drop, List.length_append, padded_length, List.length_replicate]
  omega

theorem synAt_prefix (env : Env α σ ρ κ) (z : Sizes) (incs : List Int) (x₀ : Syn α σ) (X : List α) {j : Nat} : ∀ {k : Nat}, j ≤ k →
    ∃ more, (synAt env z incs x₀ X k).2 = (synAt env z incs x₀ X j).2 ++ more := by
  intro k
  induction k with
  | zero => intro h; exact ⟨[], by rw [Nat.le_zero.mp h, List.append_nil]⟩
  | succ k ih =>
    intro h
    rcases Nat.lt_or_ge k j with h' | h'
    · obtain rfl : j = k + 1 := by omega
      exact ⟨[], (List.append_nil _).symm⟩
    · obtain ⟨more, e⟩ := ih h'
      refine ⟨more ++ (frameStep env z incs ((X.drop (k * z.increment)).take z.window) (synAt env z incs x₀ X k).1).2, ?_⟩
      show (synAt env z incs x₀ X k).2 ++ _ = _
      rw [e, List.append_assoc]

theorem take_common {T skip n : Nat} (l m m' : List α) (h : n + skip ≤ l.length) :
    (((l ++ m).drop skip).take T).take n = (((l ++ m').drop skip).take T).take n := by
  rw [List.drop_append_of_le_length (by omega), List.drop_append_of_le_length (by omega), List.take_take, List.take_take,
    List.take_append_of_le_length (by rw [List.length_drop]; omega), List.take_append_of_le_length (by rw [List.length_drop]; omega)]

/-- What is heard of the full frames does not depend on what comes after them. -/
theorem heard_full [Zero α] (p : Params) (env : Env α σ ρ κ) {z : Sizes} {incs : List Int} {x₀ : Syn α σ} (h0 : x₀.count = 0) (hf : x₀.fill ≤ z.window) (input : List α)
    (hT : Fits z incs (target z input.length)) (h1 : 1 ≤ z.increment) {j : Nat} (hj : ∀ i, i < j → i * z.increment + z.window ≤ z.window / 2 + input.length) :
    (output p env z incs x₀ input).take (spent z incs j - startSkip p z) = (silentTail p env z incs x₀ input).take (spent z incs j - startSkip p z) := by
  have hT1 : 1 ≤ target z input.length := le_trans h1 hT.inc
  have hjf : j ≤ frames z input.length := by
    unfold frames
    cases j with
    | zero => exact Nat.zero_le _
    | succ j =>
      have := hj j (by omega)
      have : j ≤ input.length / z.increment := (Nat.le_div_iff_mul_le (by omega)).mpr (by omega)
      omega
  rw [output_fits p env _ _ hT h1]
  unfold silentTail emission
  simp only
  rw [hearAt_fits env hT hT1, hearDrain_fits env hT hT1]
  have happ := synAt_append env z incs x₀ (padded z input) (List.replicate z.window 0) j (by intro i hi; rw [padded_length]; exact hj i hi)
  obtain ⟨m1, e1⟩ := synAt_prefix env z incs x₀ (padded z input) hjf
  obtain ⟨m2, e2⟩ := synAt_prefix env z incs x₀ (padded z input ++ List.replicate z.window 0) hjf
  have hlen := (synAt_facts env (incs := incs) h0 hf (padded z input) j).1
  rw [show List.replicate (z.window / 2) 0 ++ input = padded z input from rfl, e1, e2, happ, List.append_assoc, List.append_assoc]
  rcases Nat.lt_or_ge (spent z incs j) (startSkip p z) with h | h
  · rw [Nat.sub_eq_zero_of_le h.le, List.take_zero, List.take_zero]
  · exact take_common _ _ _ (by omega)

section
variable [Zero α] [Add α] [Sub α] {p : Params} {env : Env α σ ρ κ}

/-- **C40** in full: offline, in an ordinary configuration, what is heard is what would be heard if the samples missing from the last frames were zero. -/
def C40_statement : Prop :=
  ∀ {α σ ρ κ : Type} [Zero α] [Add α] [Sub α] (p : Params) (env : Env α σ ρ κ) (s t s' : State α σ ρ κ) (input : List (Frame α)) (final : Bool)
    (cs : List (Call α)) (outs : List (List (List α))), Apart p → Prepared p env s t → (∀ c ∈ cs, Playing c) → ends (.process input final :: cs) = true →
    Ordinary p t (given (.process input final :: cs)).length → run p env s (.process input final :: cs) = some (s', outs) →
    ∀ c cd, s'.chans[c]? = some cd →
      delivered outs c ++ cd.outbuf.data = silentTail p env t.sizes t.outputIncrements (initial env t c) ((given (.process input final :: cs)).map (prepared p env c))

/-- **C40 (partial).**  It is so as far as the frames reach of which no sample is missing: all that is heard of the first `j` frames, if they are full, is what would be heard if the
input were followed by zeros.  What is missing is the frames at the end, for which it is false. -/
theorem C40_partial (hap : Apart p) {s t : State α σ ρ κ} (hs : Prepared p env s t) {input : List (Frame α)} {final : Bool} {cs : List (Call α)} (hcs : ∀ c ∈ cs, Playing c)
    (hend : ends (.process input final :: cs) = true) (h : Ordinary p t (given (.process input final :: cs)).length)
    (hT : Fits t.sizes t.outputIncrements (target t.sizes (given (.process input final :: cs)).length)) {j : Nat}
    (hj : ∀ i, i < j → i * t.sizes.increment + t.sizes.window ≤ t.sizes.window / 2 + (given (.process input final :: cs)).length) :
    ∃ s' outs, run p env s (.process input final :: cs) = some (s', outs) ∧ s'.chans.length = p.channels ∧
      ∀ (c : Nat) cd, s'.chans[c]? = some cd →
        (delivered outs c ++ cd.outbuf.data).take (spent t.sizes t.outputIncrements j - t.sizes.window / 2) =
          (silentTail p env t.sizes t.outputIncrements (initial env t c) ((given (.process input final :: cs)).map (prepared p env c))).take
            (spent t.sizes t.outputIncrements j - t.sizes.window / 2) := by
  obtain ⟨s', outs, a1, a2, a3⟩ := ordinary_run hap hs hcs hend h
  obtain ⟨hf, _⟩ := h.fine hs
  refine ⟨s', outs, a1, a2, ?_⟩
  intro c cd hcd
  obtain ⟨_, b⟩ := flow_start (hs.ready h.offline).1 hs.start hf
  rw [(a3 c cd hcd).2, ← startSkip_plain hf.plain]
  exact heard_full p env (b c).1 (b c).2 _ (by rw [List.length_map]; exact hT) hf.inc (by rw [List.length_map]; exact hj)

/-- For an example: an environment that gives the last sample of the frame last analysed. -/
def lastSample : Env Int Int Unit Unit where
  specInit := 0
  specReset := fun _ => 0
  specSizes := fun s _ _ => s
  analyse := fun _ xs => (xs.getLastD 0, fun i => xs.getD i 0)
  synthesise := fun s f _ _ _ => (s, f)
  emit := fun s _ => s
  shift := fun s _ _ => s
  rsInit := ()
  rsReset := id
  resample := fun r room xs ratio _ => (r, (List.replicate ((xs.length : Rat) * ratio).floor.toNat 1).take room)
  effective := fun _ x => x
  curveInit := fun _ => ()
  curveReset := id
  curveSizes := fun k _ => k
  curve := fun k _ => (k, 0, false)
  studyCurve := fun k s _ => (k, s, fun _ => 0, 0, false)
  halve := fun x => x / 2
  mixdown := fun _ f => f 0

/-- Ones, for an example. -/
def Ex.ones (n : Nat) : List (Frame Int) := List.replicate n fun _ => 1

/-- C40 is false of the code: 300 ones are followed, in the frame buffer, by ones of the frame before (`processChunks` takes what there is, and leaves the rest of the
frame buffer as it was). -/
theorem C40_violated : ¬ C40_statement := by
  intro h
  have hrun : (create Ex.short lastSample (.fin 1) (.fin 1)).bind (fun s => (prologue lastSample s).bind fun t =>
      (run Ex.short lastSample s [.process (Ex.ones 300) true, .available, .retrieve 1000]).bind fun y => (y.1.chans[0]?).map fun cd =>
        (decide (s.mode = .justCreated), ordinaryCheck Ex.short t 300,
          decide (delivered y.2 0 ++ cd.outbuf.data = silentTail Ex.short lastSample t.sizes t.outputIncrements (initial lastSample t 0) ((Ex.ones 300).map (prepared Ex.short lastSample 0))))) =
      some (true, true, false) := by decide +kernel
  obtain ⟨s, h1, h2⟩ := Option.bind_eq_some_iff.mp hrun
  obtain ⟨t, h3, h4⟩ := Option.bind_eq_some_iff.mp h2
  obtain ⟨⟨s', outs⟩, h5, h6⟩ := Option.bind_eq_some_iff.mp h4
  obtain ⟨cd, h7, h8⟩ := Option.map_eq_some_iff.mp h6
  simp only [Prod.mk.injEq, decide_eq_true_eq, decide_eq_false_iff_not] at h8
  refine h8.2.2 (h Ex.short lastSample s t s' (Ex.ones 300) true [.available, .retrieve 1000] outs (Or.inl rfl) ⟨⟨_, _, s, [], [], h1, rfl⟩, Or.inl h8.1, h3⟩
    (by intro c hc; simp at hc; rcases hc with rfl | rfl <;> trivial) rfl ?_ h5 0 cd h7)
  rw [show (given [Call.process (Ex.ones 300) true, .available, .retrieve 1000]).length = 300 from List.length_replicate ..]
  exact ordinary_of_check h8.2.1

/-- A case to which C40 applies (that of `Ex.applies`), with two full frames. -/
example : ∃ s t : State Int Unit Unit Unit, Prepared Ex.short demo s t ∧ Ordinary Ex.short t 300 ∧ Fits t.sizes t.outputIncrements (target t.sizes 300) ∧
    ∀ i, i < 2 → i * t.sizes.increment + t.sizes.window ≤ t.sizes.window / 2 + 300 := by
  have hrun : (create Ex.short demo (.fin (3 / 2)) (.fin 1)).bind (fun s₀ => (run Ex.short demo s₀ [.study (Ex.block 300) true]).bind fun x => (prologue demo x.1).map fun t =>
      (decide (x.1.mode = .studying), ordinaryCheck Ex.short t 300, decide (t.sizes.increment ≤ target t.sizes 300 ∧ ∀ i ∈ t.outputIncrements, i.natAbs ≤ target t.sizes 300),
        decide (t.sizes.increment + t.sizes.window ≤ t.sizes.window / 2 + 300))) = some (true, true, true, true) := by decide +kernel
  obtain ⟨s₀, h1, h2⟩ := Option.bind_eq_some_iff.mp hrun
  obtain ⟨⟨s, o⟩, h3, h4⟩ := Option.bind_eq_some_iff.mp h2
  obtain ⟨t, h5, h6⟩ := Option.map_eq_some_iff.mp h4
  simp only [Prod.mk.injEq, decide_eq_true_eq] at h6
  refine ⟨s, t, ⟨⟨_, _, s₀, _, o, h1, h3⟩, Or.inr h6.1, h5⟩, ordinary_of_check h6.2.1, ⟨h6.2.2.1.1, h6.2.2.1.2⟩, ?_⟩
  intro i hi
  have : i * t.sizes.increment ≤ 1 * t.sizes.increment := Nat.mul_le_mul_right _ (by omega)
  omega

end
end Verif.R2
