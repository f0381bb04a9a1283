import Verif.R2LevelProps
import Verif.R2Gain
import Verif.R2OfflineProps
import Verif.R2UnityProps
/-!
# Whether all output of the faster engine is made of numbers (C100)

Samples are real numbers or not numbers (`none`); one is made when `writeChunk` divides by a window accumulator that is 0 (there is no guard against that, StretcherProcess.cpp:1054).
-/
namespace Verif.R2
open Verif.Round Verif.StretchCalc

variable {ρ κ : Type}

instance numZero : Zero (Option ℝ) := ⟨some 0⟩
noncomputable instance numAdd : Add (Option ℝ) := ⟨fun x y => x.bind fun x => y.map fun y => x + y⟩
noncomputable instance numSub : Sub (Option ℝ) := ⟨fun x y => x.bind fun x => y.map fun y => x - y⟩

/-- `realEnv`, the quotient not being a number where the divisor is 0.  (The audio given is made of numbers; what is analysed is never anything else, so `getD` is never needed.) -/
noncomputable def numEnv (f : Spectra) (q : R2Modify.Conf) (base : Env (Option ℝ) Spec ρ κ) : Env (Option ℝ) Spec ρ κ :=
  { base with
    specInit := ⟨fun _ => 0, R2Modify.create, fun _ => 0, fun i => if i = 0 then 1 else 0⟩
    specReset := Spec.reset
    specSizes := fun s _ _ => s.setSizes
    analyse := fun s frame => ((s.analyse f (frame.map (·.getD 0))).1, fun i => some ((s.analyse f (frame.map (·.getD 0))).2 i))
    synthesise := fun s flt phaseIncrement _ reset =>
      ((s.synthesise f q (fun i => (flt i).getD 0) phaseIncrement reset).1, fun i => some ((s.synthesise f q (fun i => (flt i).getD 0) phaseIncrement reset).2 i))
    emit := fun s i => if s.wacc i = 0 then none else some (s.acc i / s.wacc i)
    shift := fun s fill d => { s with acc := moved fill d s.acc, wacc := moved fill d s.wacc }
    halve := Option.map (· / 2) }

theorem area_pos {n : Nat} (hn : 2 ≤ n) : 0 < area n := by
  unfold area
  refine div_pos (Finset.sum_pos' (fun i _ => hann_nonneg n i) ⟨1, Finset.mem_range.mpr (by omega), hann_pos (by omega) (by omega)⟩) (by exact_mod_cast (by omega : 0 < n))

/-- The window accumulator is filled without gaps. -/
structure Filled (fill : Nat) (s : Spec) : Prop where
  pos : ∀ i < fill, 0 < s.wacc i
  nonneg : ∀ i, 0 ≤ s.wacc i

section
variable {f : Spectra} {q : R2Modify.Conf} {base : Env (Option ℝ) Spec ρ κ} {z : Sizes} {incs : List Int}

theorem filled_add {n fill : Nat} {s : Spec} (h : Filled fill s) (h1 : 1 ≤ fill) (hf : fill ≤ n) (hn : 2 ≤ n) (flt : Nat → ℝ) : Filled n (s.add n flt) := by
  have ha := area_pos hn
  have key : ∀ i, 0 ≤ hann n i * (area n * (3 / 2)) := fun i => mul_nonneg (hann_nonneg n i) (by linarith)
  constructor
  · intro i hi
    show 0 < if i < n then s.wacc i + hann n i * (area n * (3 / 2)) else s.wacc i
    rw [if_pos hi]
    by_cases h0 : i = 0
    · subst h0
      have := h.pos 0 (by omega)
      have := key 0
      linarith
    · have := h.nonneg i
      have := mul_pos (hann_pos (by omega) hi) (show 0 < area n * (3 / 2) by linarith)
      linarith
  · intro i
    show 0 ≤ if i < n then s.wacc i + hann n i * (area n * (3 / 2)) else s.wacc i
    have := h.nonneg i
    have := key i
    split <;> linarith

theorem filled_moved {fill d : Nat} {s : Spec} (h : Filled fill s) : Filled (fill - d) { s with acc := moved fill d s.acc, wacc := moved fill d s.wacc } := by
  constructor
  · intro i hi
    show 0 < moved fill d s.wacc i
    rw [moved, if_pos (by omega)]
    exact h.pos _ (by omega)
  · intro i
    show 0 ≤ moved fill d s.wacc i
    simp only [moved]
    split
    · exact h.nonneg _
    · split
      · exact le_rfl
      · exact h.nonneg _

theorem filled_emit {n fill : Nat} {s : Spec} (h : Filled fill s) (hn : n ≤ fill) : ∀ x ∈ (List.range n).map ((numEnv f q base).emit s), x.isSome = true := by
  intro x hx
  obtain ⟨i, hi, rfl⟩ := List.mem_map.mp hx
  have := h.pos i (by have := List.mem_range.mp hi; omega)
  show (if s.wacc i = 0 then none else some (s.acc i / s.wacc i)).isSome = true
  rw [if_neg this.ne']
  rfl

/-- The state of the synthesis between frames; before the first the accumulator counts as empty, but there is a 1 in it to divide by. -/
def Sound (w : Nat) (x : Syn (Option ℝ) Spec) : Prop := ∃ n, 1 ≤ n ∧ n ≤ w ∧ x.fill ≤ n ∧ Filled n x.spec

theorem sound_frame (hq : q.fftSize = z.window) (hw : 2 ≤ z.window) (hs : ∀ k, (pick z incs k).2.shift < z.window) (frame : List (Option ℝ)) {x : Syn (Option ℝ) Spec} (h : Sound z.window x) :
    Sound z.window (frameStep (numEnv f q base) z incs frame x).1 ∧ ∀ y ∈ (frameStep (numEnv f q base) z incs frame x).2, y.isSome = true := by
  obtain ⟨n, h1, h2, h3, h4⟩ := h
  unfold frameStep
  simp only
  set a := (numEnv f q base).analyse x.spec ((List.range z.window).map fun i => frame.getD i (x.flt i)) with ha
  have fa : Filled n a.1 := ⟨h4.pos, h4.nonneg⟩
  set b := (numEnv f q base).synthesise a.1 a.2 (pick z incs x.count).2.phase (pick z incs x.count).2.shift (pick z incs x.count).2.reset with hb
  have fb : Filled z.window b.1 := by
    have := filled_add (n := q.fftSize) (s := { a.1 with mod := R2Modify.chunk Real.pi a.1.mod ⟨q, (pick z incs x.count).2.phase, (pick z incs x.count).2.reset, a.1.mod.phase⟩ })
      ⟨fa.pos, fa.nonneg⟩ h1 (by omega) (by omega)
      (cut q.fftSize (resynthesised f q { a.1 with mod := R2Modify.chunk Real.pi a.1.mod ⟨q, (pick z incs x.count).2.phase, (pick z incs x.count).2.reset, a.1.mod.phase⟩ } fun i => (a.2 i).getD 0))
    rw [hq] at this
    rw [← hq] at this ⊢
    exact this
  have hm : max x.fill z.window = z.window := by omega
  have := hs x.count
  rw [hm]
  refine ⟨⟨z.window - (pick z incs x.count).2.shift, by omega, by omega, le_rfl, filled_moved fb⟩, filled_emit fb (by omega)⟩

theorem sound_at (hq : q.fftSize = z.window) (hw : 2 ≤ z.window) (hs : ∀ k, (pick z incs k).2.shift < z.window) {x₀ : Syn (Option ℝ) Spec} (h : Sound z.window x₀) (X : List (Option ℝ)) :
    ∀ j, Sound z.window (synAt (numEnv f q base) z incs x₀ X j).1
  | 0 => h
  | j + 1 => (sound_frame hq hw hs _ (sound_at hq hw hs h X j)).1

theorem trim_mem {α : Type} {skip T n : Nat} {out : List α} {x : α} (h : x ∈ (trim skip T n out).1) : x ∈ out := by
  unfold trim at h
  split at h
  · split at h
    · exact List.mem_of_mem_take h
    · exact h
  · split at h
    · cases h
    · exact List.mem_of_mem_drop h

theorem hear_numbers {skip T : Nat} {w : List (Option ℝ) × Nat} {out : List (Option ℝ)} (h1 : ∀ x ∈ w.1, x.isSome = true) (h2 : ∀ x ∈ out, x.isSome = true) :
    ∀ x ∈ (hearStep skip T w out).1, x.isSome = true := by
  intro x hx
  rcases List.mem_append.mp hx with hx | hx
  · exact h1 x hx
  · exact h2 x (trim_mem hx)

theorem hearAt_numbers (hq : q.fftSize = z.window) (hw : 2 ≤ z.window) (hs : ∀ k, (pick z incs k).2.shift < z.window) {x₀ : Syn (Option ℝ) Spec} (h : Sound z.window x₀) (skip T : Nat) (X : List (Option ℝ)) :
    ∀ j, ∀ x ∈ (hearAt (numEnv f q base) z incs x₀ skip T X j).1, x.isSome = true
  | 0 => fun x hx => by cases hx
  | j + 1 => hear_numbers (hearAt_numbers hq hw hs h skip T X j) (sound_frame hq hw hs _ (sound_at hq hw hs h X j)).2

theorem hearDrain_numbers (skip T : Nat) : ∀ (n : Nat) (x : Syn (Option ℝ) Spec) (w : List (Option ℝ) × Nat), Filled x.fill x.spec → (∀ y ∈ w.1, y.isSome = true) →
    ∀ y ∈ (hearDrain (numEnv f q base) z incs skip T n x w).1, y.isSome = true
  | 0, _, _, _, hw => hw
  | n + 1, x, w, hx, hw => by
    unfold hearDrain
    split
    · exact hw
    · have hd : drainBy z incs x ≤ x.fill := min_le_left ..
      have fa : Filled x.fill ((numEnv f q base).analyse x.spec ((List.range z.window).map x.flt)).1 := ⟨hx.pos, hx.nonneg⟩
      refine hearDrain_numbers skip T n _ _ ?_ (hear_numbers hw ?_)
      · exact filled_moved fa
      · exact filled_emit fa hd

theorem output_numbers {p : Params} (hq : q.fftSize = z.window) (hw : 2 ≤ z.window) (hs : ∀ k, (pick z incs k).2.shift < z.window) {x₀ : Syn (Option ℝ) Spec} (h : Sound z.window x₀) (input : List (Option ℝ)) :
    ∀ x ∈ output p (numEnv f q base) z incs x₀ input, x.isSome = true := by
  refine hearDrain_numbers _ _ _ _ _ ?_ (hearAt_numbers hq hw hs h _ _ _ _)
  obtain ⟨n, _, _, h3, h4⟩ := sound_at hq hw hs h (padded z input) (frames z input.length)
  exact ⟨fun i hi => h4.pos i (by omega), h4.nonneg⟩

end

/-- **C100** in full: offline, only numbers come out if only numbers went in, whatever was set before.  (The resampler is assumed to give numbers, and studying to leave the window accumulator alone.) -/
def C100_statement : Prop :=
  ∀ {ρ κ : Type} (f : Spectra) (q : R2Modify.Conf) (base : Env (Option ℝ) Spec ρ κ) (p : Params) (a b : R3.Dbl) (s t : State (Option ℝ) Spec ρ κ) (cs : List (Call (Option ℝ))) (outs : List (List (List (Option ℝ)))),
    p.realTime = false → (∀ r room l ratio final, ∀ x ∈ (base.resample r room l ratio final).2, x.isSome = true) → (∀ c s l, (base.studyCurve c s l).2.1.wacc = s.wacc) → create p (numEnv f q base) a b = some s → run p (numEnv f q base) s cs = some (t, outs) → q.fftSize = t.sizes.window →
    (∀ c ∈ cs, match c with | .study input _ | .process input _ => ∀ fr ∈ input, ∀ c, (fr c).isSome = true | _ => True) →
    ∀ out ∈ outs, ∀ channel ∈ out, ∀ x ∈ channel, x.isSome = true

/-- **C100**, the part that is true: offline, without pitch shift, if each chunk is given less than a window of output, only numbers come out.  Missing are the cases in which a chunk is given a window or more (those
with exactly a window are where it fails), pitch shifts and real time. -/
theorem C100_partial {f : Spectra} {q : R2Modify.Conf} {base : Env (Option ℝ) Spec ρ κ} {p : Params} (hap : Apart p) {s t : State (Option ℝ) Spec ρ κ} (hs : Prepared p (numEnv f q base) s t)
    (hq : q.fftSize = t.sizes.window) {input : List (Frame (Option ℝ))} {final : Bool} {cs : List (Call (Option ℝ))} (hcs : ∀ c ∈ cs, Playing c) (hend : ends (.process input final :: cs) = true)
    (h : Ordinary p t (given (.process input final :: cs)).length) :
    ∃ s' outs, run p (numEnv f q base) s (.process input final :: cs) = some (s', outs) ∧ ∀ c < p.channels, ∀ x ∈ delivered outs c, x.isSome = true := by
  obtain ⟨s', outs, a1, a2, a3⟩ := ordinary_run hap hs hcs hend h
  refine ⟨s', outs, a1, ?_⟩
  intro c hc x hx
  have hlt' : c < s'.chans.length := by rw [a2]; exact hc
  obtain ⟨hf, _⟩ := h.fine hs
  obtain ⟨_, b⟩ := flow_start (hs.ready h.offline).1 hs.start hf
  obtain ⟨_, _, b3, _⟩ := prologue_clean (hs.ready h.offline).1 hs.start
  have hlt : c < t.chans.length := by rw [b3]; exact hc
  have hx0 : ∃ x, (initial (numEnv f q base) t c).spec = Spec.reset x := by
    obtain ⟨a, b, s₀, pre, o, h1, h2⟩ := hs.history
    have := fresh_start h.offline h1 h2 hs.mode hs.start t.chans[c] (List.getElem_mem hlt)
    unfold initial
    rw [List.getElem?_eq_getElem hlt]
    exact this
  have hfill : (initial (numEnv f q base) t c).fill = 0 := by
    have := ((prologue_clean (hs.ready h.offline).1 hs.start).2.2.2 t.chans[c] (List.getElem_mem hlt)).1.fill
    unfold initial
    rw [List.getElem?_eq_getElem hlt]
    exact this
  have hw := hf.window
  have hi := hf.inc
  obtain ⟨y, hy⟩ := hx0
  have hsound : Sound t.sizes.window (initial (numEnv f q base) t c) := by
    refine ⟨1, le_rfl, by omega, by omega, ?_⟩
    rw [hy]
    constructor
    · intro i hi
      show (0 : ℝ) < if i = 0 then 1 else 0
      rw [if_pos (by omega)]
      exact one_pos
    · intro i
      show (0 : ℝ) ≤ if i = 0 then 1 else 0
      split <;> norm_num
  have hm : x ∈ delivered outs c ++ s'.chans[c].outbuf.data := List.mem_append_left _ hx
  rw [(a3 c s'.chans[c] (List.getElem?_eq_getElem hlt')).2] at hm
  exact output_numbers hq (by omega) (fun k => pick_lt hf k) hsound _ x hm

/-! ## A case in which the output is not all numbers -/

/-- Whether a sample is a number. -/
inductive Ex.Flag where
  | yes | no
deriving DecidableEq

def Ex.Flag.both : Ex.Flag → Ex.Flag → Ex.Flag
  | .yes, .yes => .yes
  | _, _ => .no

instance : Zero Ex.Flag := ⟨.yes⟩
instance : Add Ex.Flag := ⟨Ex.Flag.both⟩
instance : Sub Ex.Flag := ⟨Ex.Flag.both⟩

def Ex.flag : Option ℝ → Ex.Flag
  | some _ => .yes
  | none => .no

/-- The rest of an environment. -/
noncomputable def Ex.still : Env (Option ℝ) Spec Unit Unit where
  specInit := ⟨fun _ => 0, R2Modify.create, fun _ => 0, fun _ => 0⟩
  specReset := id
  specSizes := fun s _ _ => s
  analyse := fun s _ => (s, fun _ => 0)
  synthesise := fun s f _ _ _ => (s, f)
  emit := fun _ _ => some 1
  shift := fun s _ _ => s
  rsInit := ()
  rsReset := id
  resample := fun r _ xs _ _ => (r, xs.map fun x => some (x.getD 0))
  effective := fun _ x => x
  curveInit := fun _ => ()
  curveReset := id
  curveSizes := fun k _ => k
  curve := fun k _ => (k, 0, false)
  studyCurve := fun k s _ => (k, s, fun _ => some 0, 0, false)
  halve := fun x => x
  mixdown := fun _ f => f 0

/-- Any audio of 3000 samples in two blocks. -/
example (f : Spectra) (x : Nat → ℝ) : ∃ s s' : State (Option ℝ) Spec Unit Unit, ∃ outs,
    run Ex.usual (numEnv f ⟨44100, 2048, 341, 1, true, false, false, 600, 1200, 12000⟩ Ex.still) s
      [.process ((List.range 1000).map fun i _ => some (x i)) false, .process ((List.range 2000).map fun i _ => some (x (1000 + i))) true, .retrieve 3000] = some (s', outs) ∧
    ∀ y ∈ delivered outs 0, y.isSome = true := by
  have hz : calculateSizes Ex.usual 0 (.fin 1) (.fin 1) = some ⟨1, 1, 341, 2048, 2048⟩ := by decide +kernel
  obtain ⟨s, t, h1, h2, h3⟩ := created (env := numEnv f ⟨44100, 2048, 341, 1, true, false, false, 600, 1200, 12000⟩ Ex.still) hz (show baseFftSize Ex.usual = some 2048 by decide +kernel)
  have hg : (given [Call.process ((List.range 1000).map fun i (_ : Nat) => some (x i)) false, .process ((List.range 2000).map fun i _ => some (x (1000 + i))) true, .retrieve 3000]).length = 3000 := by
    show (List.append _ _).length = _
    rw [List.append_eq, List.length_append, List.length_map, List.length_range]
    show 1000 + ((List.range 2000).map fun i (_ : Nat) => some (x (1000 + i))).length = _
    rw [List.length_map, List.length_range]
  have ho : Ordinary Ex.usual t 3000 := by
    refine ⟨rfl, rfl, by decide, by rw [h2], by rw [h2]; norm_num, by rw [h3]; simp, ?_⟩
    rw [h2, h3]
    intro j hj
    have : j ≤ 6 := by
      by_contra hc
      have := hj 6 (by omega)
      simp only at this
      omega
    interval_cases j <;> decide +kernel
  obtain ⟨s', outs, a, b⟩ := C100_partial (input := (List.range 1000).map fun i _ => some (x i)) (final := false)
    (cs := [.process ((List.range 2000).map fun i _ => some (x (1000 + i))) true, .retrieve 3000]) (Or.inl rfl) h1 (by rw [h2])
    (by intro c hc; simp only [List.mem_cons, List.not_mem_nil, or_false] at hc; rcases hc with rfl | rfl <;> trivial) rfl (by rw [hg]; exact ho)
  exact ⟨s, s', outs, a, b 0 (by decide)⟩

/-- The same, window accumulators known not to be negative. -/
noncomputable def Ex.positive (f : Spectra) (q : R2Modify.Conf) (hq : 2 ≤ q.fftSize) : Env (Option ℝ) { s : Spec // ∀ i, 0 ≤ s.wacc i } Unit Unit :=
  let env := numEnv f q Ex.still
  { specInit := ⟨env.specInit, fun i => by show (0 : ℝ) ≤ if i = 0 then 1 else 0; split <;> norm_num⟩
    specReset := fun s => ⟨env.specReset s.1, fun i => by show (0 : ℝ) ≤ if i = 0 then 1 else 0; split <;> norm_num⟩
    specSizes := fun s w n => ⟨env.specSizes s.1 w n, s.2⟩
    analyse := fun s l => (⟨(env.analyse s.1 l).1, s.2⟩, (env.analyse s.1 l).2)
    synthesise := fun s flt i j r => (⟨(env.synthesise s.1 flt i j r).1, by
      intro k
      show 0 ≤ if k < q.fftSize then s.1.wacc k + hann q.fftSize k * (area q.fftSize * (3 / 2)) else s.1.wacc k
      have h1 := s.2 k
      have h2 := mul_nonneg (hann_nonneg q.fftSize k) (show 0 ≤ area q.fftSize * (3 / 2) by have := area_pos hq; linarith)
      split <;> linarith⟩, (env.synthesise s.1 flt i j r).2)
    emit := fun s => env.emit s.1
    shift := fun s n d => ⟨env.shift s.1 n d, by
      intro i
      show 0 ≤ moved n d s.1.wacc i
      simp only [moved]
      split
      · exact s.2 _
      · split
        · exact le_rfl
        · exact s.2 _⟩
    rsInit := ()
    rsReset := id
    resample := env.resample
    effective := env.effective
    curveInit := env.curveInit
    curveReset := env.curveReset
    curveSizes := env.curveSizes
    curve := fun k _ => (k, 0, false)
    studyCurve := fun k s _ => (k, s, fun _ => some 0, 0, false)
    halve := env.halve
    mixdown := env.mixdown }

def Ex.included (f : Spectra) (q : R2Modify.Conf) (hq : 2 ≤ q.fftSize) : Hom (Ex.positive f q hq) (numEnv f q Ex.still) where
  val := id
  spec := Subtype.val
  rs := id
  cur := id
  zero := rfl
  add := fun _ _ => rfl
  sub := fun _ _ => rfl
  specInit := rfl
  specReset := fun _ => rfl
  specSizes := fun _ _ _ => rfl
  analyse := fun s l => by rw [List.map_id]; rfl
  synthesise := fun _ _ _ _ _ => rfl
  emit := fun _ _ => rfl
  shift := fun _ _ _ => rfl
  rsInit := rfl
  rsReset := fun _ => rfl
  resample := fun r room l ratio final => by
    rw [List.map_id, List.map_id]
    rfl
  effective := fun _ _ => rfl
  curveInit := fun _ => rfl
  curveReset := fun _ => rfl
  curveSizes := fun _ _ => rfl
  halve := fun _ => rfl
  mixdown := fun _ _ => rfl

/-- What is left if only zeros in the window accumulator are noted, for windows of size `n`. -/
def Ex.zeros (n : Nat) : Env Ex.Flag (Nat → Bool) Unit Unit where
  specInit := fun i => i == 0
  specReset := fun _ i => i == 0
  specSizes := fun s _ _ => s
  analyse := fun s _ => (s, fun _ => .yes)
  synthesise := fun s _ _ _ _ => (fun i => s i || (decide (i < n) && i != 0), fun _ => .yes)
  emit := fun s i => if s i then .yes else .no
  shift := fun s fill d i => if i + d < fill then s (i + d) else if i < fill then false else s i
  rsInit := ()
  rsReset := id
  resample := fun r _ xs _ _ => (r, xs.map fun _ => .yes)
  effective := fun _ x => x
  curveInit := fun _ => ()
  curveReset := id
  curveSizes := fun k _ => k
  curve := fun k _ => (k, 0, false)
  studyCurve := fun k s _ => (k, s, fun _ => .yes, 0, false)
  halve := fun x => x
  mixdown := fun _ f => f 0

open Classical in
noncomputable def Ex.noted (f : Spectra) (q : R2Modify.Conf) (hq : 2 ≤ q.fftSize) : Hom (Ex.positive f q hq) (Ex.zeros q.fftSize) where
  val := Ex.flag
  spec := fun s i => decide (0 < s.1.wacc i)
  rs := id
  cur := id
  zero := rfl
  add := fun x y => by cases x <;> cases y <;> rfl
  sub := fun x y => by cases x <;> cases y <;> rfl
  specInit := by
    funext i
    show decide ((0 : ℝ) < if i = 0 then 1 else 0) = (i == 0)
    by_cases h : i = 0 <;> simp [h]
  specReset := fun s => by
    funext i
    show decide ((0 : ℝ) < if i = 0 then 1 else 0) = (i == 0)
    by_cases h : i = 0 <;> simp [h]
  specSizes := fun _ _ _ => rfl
  analyse := fun _ _ => rfl
  synthesise := fun s flt i j r => by
    refine Prod.ext ?_ rfl
    funext k
    show (decide (0 < s.1.wacc k) || (decide (k < q.fftSize) && k != 0)) = decide (0 < if k < q.fftSize then s.1.wacc k + hann q.fftSize k * (area q.fftSize * (3 / 2)) else s.1.wacc k)
    have h1 := s.2 k
    have ha := area_pos hq
    by_cases hk : k < q.fftSize
    · by_cases h0 : k = 0
      · have : hann q.fftSize 0 = 0 := by simp [hann]
        simp [h0, this]
      · have h2 := mul_pos (hann_pos (by omega) hk) (show 0 < area q.fftSize * (3 / 2) by linarith)
        have : 0 < s.1.wacc k + hann q.fftSize k * (area q.fftSize * (3 / 2)) := by linarith
        simp [hk, h0, this]
    · simp [hk]
  emit := fun s i => by
    show (if decide (0 < s.1.wacc i) = true then Ex.Flag.yes else .no) = Ex.flag (if s.1.wacc i = 0 then none else some (s.1.acc i / s.1.wacc i))
    have h1 := s.2 i
    by_cases h : s.1.wacc i = 0
    · simp [h, Ex.flag]
    · have : 0 < s.1.wacc i := lt_of_le_of_ne h1 (Ne.symm h)
      simp [h, this, Ex.flag]
  shift := fun s n d => by
    funext i
    show decide (0 < moved n d s.1.wacc i) = if i + d < n then decide (0 < s.1.wacc (i + d)) else if i < n then false else decide (0 < s.1.wacc i)
    simp only [moved]
    split
    · rfl
    · split
      · simp
      · rfl
  rsInit := rfl
  rsReset := fun _ => rfl
  resample := fun r room l ratio final => by
    show (r, List.map _ (List.map _ l)) = (r, List.map _ (List.map _ l))
    rw [List.map_map, List.map_map]
    rfl
  effective := fun _ _ => rfl
  curveInit := fun _ => rfl
  curveReset := fun _ => rfl
  curveSizes := fun _ _ => rfl
  halve := fun x => by
    show Ex.flag x = Ex.flag (x.map _)
    cases x <;> rfl
  mixdown := fun _ _ => rfl

/-- A stretcher for 1100 samples, of which the first 170 are to become 1024, and the whole to remain 1100 long. -/
def Ex.squeeze : Params := { rate := 8000 }

def Ex.stretched {α : Type} (x : α) : List (Call α) :=
  [.setKeyFrameMap [(170, 1024)], .study (List.replicate 1100 fun _ => x) true, .process (List.replicate 1100 fun _ => x) true, .retrieve 10000]

/-- What comes out of that: the second chunk is 512 samples after the first, and its window of 512 begins with a zero. -/
theorem Ex.stretched_flags : ((create Ex.squeeze (Ex.zeros 512) (.fin 1) (.fin 1)).bind fun s => run Ex.squeeze (Ex.zeros 512) s (Ex.stretched .yes)).map (fun x => (x.1.sizes.window, x.2)) =
    some (512, [[], [], [], [List.replicate 256 .yes ++ [.no] ++ List.replicate 592 .yes]]) := by
  decide +kernel

theorem C100_violated : ¬ C100_statement := by
  intro h
  let q : R2Modify.Conf := ⟨8000, 512, 85, 1, true, false, false, 600, 1200, 12000⟩
  let f : Spectra := ⟨fun _ => (fun _ => 0, fun _ => 0), fun _ _ _ => 0, id⟩
  have hq : 2 ≤ q.fftSize := by decide
  have e := Ex.stretched_flags
  rw [show Ex.zeros 512 = Ex.zeros q.fftSize from rfl, map_create (Ex.noted f q hq)] at e
  cases hs : create Ex.squeeze (Ex.positive f q hq) (.fin 1) (.fin 1) with
  | none => rw [hs] at e; cases e
  | some s =>
    rw [hs] at e
    simp only [Option.map_some, Option.bind_some] at e
    have r := run_map (Ex.noted f q hq) Ex.squeeze (fun _ _ _ => rfl) (Ex.stretched (some 0)) (fun _ _ _ _ _ _ _ => rfl) s
    rw [show (Ex.stretched (some (0 : ℝ))).map (mapCall (Ex.noted f q hq).val) = Ex.stretched .yes by
      simp only [Ex.stretched, List.map_cons, List.map_nil, mapCall, mapBlock, List.map_replicate]
      rfl] at r
    rw [r] at e
    cases hr : run Ex.squeeze (Ex.positive f q hq) s (Ex.stretched (some 0)) with
    | none => rw [hr] at e; cases e
    | some x =>
      rw [hr] at e
      simp only [Option.map_some, Option.some.injEq, Prod.mk.injEq] at e
      have c := map_create (Ex.included f q hq) Ex.squeeze (.fin 1) (.fin 1)
      rw [hs] at c
      have r' := run_map (Ex.included f q hq) Ex.squeeze (fun _ k l => rfl) (Ex.stretched (some 0)) (fun _ _ _ _ _ _ _ => rfl) s
      rw [hr] at r'
      have := h f q Ex.still Ex.squeeze _ _ _ _ _ _ rfl (by
        intro r room l ratio final x hx
        obtain ⟨y, -, rfl⟩ := List.mem_map.mp hx
        rfl) (fun _ _ _ => rfl) c r' e.1.symm (by
        intro c hc
        simp only [Ex.stretched, List.map_cons, List.map_nil, List.mem_cons, List.not_mem_nil, or_false] at hc
        rcases hc with rfl | rfl | rfl | rfl
        · trivial
        all_goals first | trivial | (
          intro fr hfr c
          simp only [mapBlock, List.map_replicate] at hfr
          rw [(List.mem_replicate.mp hfr).2]
          rfl))
      -- The output at position 256 is not a number.
      obtain ⟨e1, e2⟩ := e
      have hm : (x.2.map (List.map (List.map (Ex.included f q hq).val))) = x.2 := by
        simp [Ex.included]
      rw [hm] at this
      have hall : ∀ out ∈ x.2.map (List.map (List.map (Ex.noted f q hq).val)), ∀ channel ∈ out, ∀ y ∈ channel, y = Ex.Flag.yes := by
        intro out ho channel hch y hy
        obtain ⟨o, h1, rfl⟩ := List.mem_map.mp ho
        obtain ⟨c, h2, rfl⟩ := List.mem_map.mp hch
        obtain ⟨v, h3, rfl⟩ := List.mem_map.mp hy
        have := this o h1 c h2 v h3
        cases v with
        | none => cases this
        | some v => rfl
      rw [e2] at hall
      have := hall [List.replicate 256 .yes ++ [.no] ++ List.replicate 592 .yes] (by simp only [List.mem_cons, true_or, or_true]) _ (List.mem_singleton.mpr rfl) .no
        (List.mem_append_left _ (List.mem_append_right _ (List.mem_singleton.mpr rfl)))
      cases this

end Verif.R2
