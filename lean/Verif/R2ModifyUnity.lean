import Mathlib.Analysis.SpecialFunctions.Trigonometric.Basic
import Mathlib.Algebra.Order.Round
import Mathlib.Data.Rat.Floor
import Verif.R2ModifyProps
/-!
# Phases of the faster engine at unity: C82, C83
-/
set_option linter.unusedSectionVars false
namespace Verif.R2Modify
open Verif.Round Verif.PhaseAdvance

variable {K : Type} [Field K] [LinearOrder K] [IsStrictOrderedRing K] [FloorRing K]

/-! ## From half turns to radians -/

/-- A number of half turns. -/
def up (pi : K) (x : Rat) : K := (x : K) * pi

theorem up_add (pi : K) (x y : Rat) : up pi (x + y) = up pi x + up pi y := by simp [up, add_mul]
theorem up_sub (pi : K) (x y : Rat) : up pi (x - y) = up pi x - up pi y := by simp [up, sub_mul]
theorem up_zero (pi : K) : up pi 0 = 0 := by simp [up]

theorem up_lt {pi : K} (h : 0 < pi) {x y : Rat} : up pi x < up pi y ↔ x < y := by
  unfold up
  rw [mul_lt_mul_iff_left₀ h]
  exact Rat.cast_lt

theorem up_abs {pi : K} (h : 0 < pi) (x : Rat) : |up pi x| = up pi |x| := by
  unfold up
  rw [abs_mul, abs_of_pos h, ← Rat.cast_abs]

theorem princarg_up {pi : K} (h : 0 < pi) (x : Rat) : princarg pi (up pi x) = up pi (princarg 1 x) := by
  unfold princarg mod up
  have : ((x : K) * pi + pi) / (-2 * pi) = (((x + 1) / (-2 * 1) : Rat) : K) := by
    push_cast
    field_simp
  rw [this, Rat.floor_cast]
  push_cast
  ring

/-- The variables of the loop, with phases in radians. -/
def Loop.up (pi : K) (s : Loop Rat) : Loop K where
  phase := fun i => R2Modify.up pi (s.phase i)
  prevPhase := fun i => R2Modify.up pi (s.prevPhase i)
  prevError := fun i => R2Modify.up pi (s.prevError i)
  unwrapped := fun i => R2Modify.up pi (s.unwrapped i)
  prevInstability := R2Modify.up pi s.prevInstability
  prevDirection := s.prevDirection
  distance := s.distance
  fullReset := s.fullReset

/-- A channel, with phases in radians. -/
def Chan.up (pi : K) (c : Chan Rat) : Chan K where
  phase := fun i => R2Modify.up pi (c.phase i)
  prevPhase := fun i => R2Modify.up pi (c.prevPhase i)
  prevError := fun i => R2Modify.up pi (c.prevError i)
  unwrapped := fun i => R2Modify.up pi (c.unwrapped i)
  unchanged := c.unchanged
  unityResetLow := c.unityResetLow

/-- A chunk, with phases in radians. -/
def Frame.up (pi : K) (f : Frame Rat) : Frame K := ⟨f.conf, f.outputIncrement, f.phaseReset, fun i => R2Modify.up pi (f.phase i)⟩

/-- An event, with phases in radians. -/
def Event.up (pi : K) : Event Rat → Event K
  | .frame f => .frame (f.up pi)
  | .reset => .reset
  | .sizes => .sizes

theorem omega_up (pi : K) (q : Conf) (i : Nat) : omega pi q i = up pi (omega 1 q i) := by
  unfold omega up
  push_cast
  ring

theorem perr_up {pi : K} (h : 0 < pi) (q : Conf) (s : Loop Rat) (i : Nat) : perr pi q (s.up pi) i = up pi (perr 1 q s i) := by
  unfold perr
  rw [← princarg_up h, up_sub, up_add, omega_up]
  rfl

theorem instability_up {pi : K} (h : 0 < pi) (q : Conf) (s : Loop Rat) (i : Nat) :
    instability pi q (s.up pi) i = (up pi (instability 1 q s i).1, (instability 1 q s i).2) := by
  unfold instability
  rw [perr_up h]
  show (|up pi _ - up pi _|, decide (up pi _ > up pi _)) = _
  rw [← up_sub, up_abs h]
  simp only [gt_iff_lt, up_lt h]

theorem inherits_up {pi : K} (h : 0 < pi) (q : Conf) (b : Bands) (s : Loop Rat) (i : Nat) : inherits pi q b (s.up pi) i = inherits 1 q b s i := by
  unfold inherits
  rw [instability_up h]
  simp only [Loop.up, gt_iff_lt, up_lt h]
  congr!

theorem advance_up {pi : K} (h : 0 < pi) (q : Conf) (out : Nat) (s : Loop Rat) (i : Nat) :
    advance pi q out (s.up pi) i = up pi (advance 1 q out s i) := by
  unfold advance
  rw [perr_up h, omega_up, ← up_add]
  unfold up
  push_cast
  ring

theorem outphase_up {pi : K} (h : 0 < pi) (q : Conf) (b : Bands) (out : Nat) (s : Loop Rat) (i : Nat) :
    outphase pi q b out (s.up pi) i = up pi (outphase 1 q b out s i) := by
  unfold outphase
  rw [inherits_up h, advance_up h]
  split
  · simp only [Loop.up]
    unfold up
    push_cast
    ring
  · rw [up_add]; rfl

theorem update_up (pi : K) (f : Nat → Rat) (i : Nat) (x : Rat) :
    Function.update (fun j => up pi (f j)) i (up pi x) = fun j => up pi (Function.update f i x j) := by
  funext j
  by_cases hj : j = i
  · subst hj; simp
  · simp [hj]

theorem store_up (pi : K) (s : Loop Rat) (i : Nat) (e o : Rat) : store (s.up pi) i (up pi e) (up pi o) = (store s i e o).up pi := by
  simp only [store, Loop.up, update_up]

theorem step_up {pi : K} (h : 0 < pi) (q : Conf) (b : Bands) (out i : Nat) (s : Loop Rat) :
    step pi q b out i (s.up pi) = (step 1 q b out i s).up pi := by
  have e : ∀ (s : Loop Rat) (x : Bool), ({ s.up pi with fullReset := x } : Loop K) = ({ s with fullReset := x } : Loop Rat).up pi := fun _ _ => rfl
  unfold step
  simp only [e]
  split
  · have : (0 : K) = up pi 0 := (up_zero pi).symm
    rw [this]
    show ({ store (Loop.up pi _) i (up pi 0) (up pi _) with distance := 0 } : Loop K) = _
    rw [store_up]
    rfl
  · rw [perr_up h, outphase_up h, store_up, inherits_up h, instability_up h]
    rfl

theorem loop_up {pi : K} (h : 0 < pi) (q : Conf) (b : Bands) (out : Nat) : ∀ (i : Nat) (s : Loop Rat),
    loop pi q b out i (s.up pi) = (loop 1 q b out i s).up pi
  | 0, s => step_up h q b out 0 s
  | i + 1, s => by rw [loop, step_up h, loop_up h q b out i]; rfl

theorem chunk_up {pi : K} (h : 0 < pi) (c : Chan Rat) (f : Frame Rat) : chunk pi (c.up pi) (f.up pi) = (chunk 1 c f).up pi := by
  unfold chunk modify
  simp only [Chan.up, Frame.up]
  have e := loop_up h f.conf (bands f.conf c.unityResetLow f.phaseReset) f.outputIncrement (f.conf.fftSize / 2)
    { phase := f.phase, prevPhase := c.prevPhase, prevError := c.prevError, unwrapped := c.unwrapped,
      prevInstability := 0, prevDirection := false, distance := 0, fullReset := f.phaseReset }
  simp only [Loop.up, up_zero] at e
  rw [e]

theorem run_up {pi : K} (h : 0 < pi) : ∀ (l : List (Event Rat)) (c : Chan Rat), run pi (c.up pi) (l.map (Event.up pi)) = (run 1 c l).up pi
  | [], _ => rfl
  | e :: l, c => by
    have h1 : after pi (c.up pi) (e.up pi) = (after 1 c e).up pi := by
      cases e with
      | frame f => exact chunk_up h c f
      | reset => rfl
      | sizes => simp [after, Event.up, setSizes, Chan.up, up_zero]
    show run pi (after pi (c.up pi) (e.up pi)) (l.map (Event.up pi)) = _
    rw [h1, run_up h l]
    rfl

theorem create_up (pi : K) : (create : Chan K) = (create : Chan Rat).up pi := by simp [create, Chan.up, up_zero]

theorem put_up {pi : K} (h : 0 < pi) (c : Chan Rat) (f : Frame Rat) (i : Nat) : put pi (c.up pi) (f.up pi) i = up pi (put 1 c f i) := by
  unfold put
  simp only [chunk_up h]
  exact (apply_ite (up pi) _ _ _).symm

theorem cong_up {pi : K} (h : 0 < pi) {x y : Rat} (hc : Cong pi (up pi x) (up pi y)) : Cong 1 x y := by
  obtain ⟨n, hn⟩ := hc
  refine ⟨n, ?_⟩
  unfold up at hn
  have : ((x - y : Rat) : K) = ((n * (2 * 1) : Rat) : K) := by
    push_cast
    have : ((x : K) - y) * pi = (n * (2 * 1)) * pi := by linear_combination hn
    exact mul_right_cancel₀ h.ne' this
  exact_mod_cast this

/-! ## C82: what is recorded is what is put out -/

/-- A chunk of a stretcher with FFT size `n` and sensible parameters. -/
structure Proper (n : Nat) (f : Frame K) : Prop where
  fft : f.conf.fftSize = n
  inc : 0 < f.conf.increment
  rate : 0 < f.conf.rate

/-- The same for an event. -/
def ProperEvent (n : Nat) : Event K → Prop
  | .frame f => Proper n f
  | _ => True

/-- **C82** in full: after each chunk, the phases from which the next are advanced are those of the frame that has been put out (up to whole turns). -/
def C82_statement : Prop :=
  ∀ (n : Nat) (l : List (Event ℝ)) (f : Frame ℝ) (i : Nat), (∀ e ∈ l, ProperEvent n e) → Proper n f → i ≤ n / 2 →
    Cong Real.pi ((chunk Real.pi (run Real.pi create l) f).unwrapped i) (put Real.pi (run Real.pi create l) f i)

/-- A chunk with independent phases (`OptionPhaseIndependent`), or other sizes; not a reset. -/
def Independent : Event K → Prop
  | .frame f => f.conf.laminar = false
  | .reset => False
  | .sizes => True

/-- As long as frames are unchanged, the recorded phases are those of the input. -/
def Told (pi : K) (n : Nat) (c : Chan K) : Prop := c.unchanged = true → ∀ i ≤ n / 2, Cong pi (c.unwrapped i) (c.prevPhase i)

theorem plain_cong {pi : K} {c : Chan K} {f : Frame K} {i : Nat} (hi : i ≤ f.conf.fftSize / 2) (hl : f.conf.laminar = false) (hinc : 0 < f.conf.increment)
    (ho : f.outputIncrement = f.conf.increment) {d : K} (hc : Cong pi (c.unwrapped i) (c.prevPhase i + d)) (hr : isReset f c i = false) :
    Cong pi ((chunk pi c f).phase i) (f.phase i + d) := by
  have bf := chunk_bin pi c f hi
  rw [bf.plain hr (.inl hl), ho]
  have hne : (f.conf.increment : K) ≠ 0 := by
    have : (0 : K) < f.conf.increment := by exact_mod_cast hinc
    exact this.ne'
  rw [mul_div_cancel₀ _ hne]
  obtain ⟨a, ha⟩ := hc
  obtain ⟨b, hb⟩ := princarg_cong pi (f.phase i - (c.prevPhase i + omega pi f.conf i))
  refine ⟨a + b, ?_⟩
  rw [error]
  push_cast
  linear_combination ha + hb

theorem told_chunk {pi : K} {n : Nat} {c : Chan K} {f : Frame K} (hp : Proper n f) (hl : f.conf.laminar = false) (h : Told pi n c) :
    Told pi n (chunk pi c f) ∧ ∀ i ≤ n / 2, (chunk pi c f).unchanged = true → Cong pi ((chunk pi c f).unwrapped i) (f.phase i) := by
  have key : ∀ i ≤ n / 2, (chunk pi c f).unchanged = true → Cong pi ((chunk pi c f).unwrapped i) (f.phase i) := by
    intro i hi hu
    have hi' : i ≤ f.conf.fftSize / 2 := by rw [hp.fft]; exact hi
    have bf := chunk_bin pi c f hi'
    rw [bf.same]
    cases hr : isReset f c i with
    | true => rw [(bf.reset hr).1]; exact Cong.refl _ _
    | false =>
      rcases (chunk_unchanged hu).2 with ⟨h1, h2⟩ | h1
      · have := plain_cong (d := 0) hi' hl hp.inc h2 (by rw [add_zero]; exact h h1 i hi) hr
        rwa [add_zero] at this
      · rw [h1 i hi'] at hr; simp at hr
  refine ⟨fun hu i hi => ?_, key⟩
  rw [(chunk_bin pi c f (i := i) (by rw [hp.fft]; exact hi)).prevPhase]
  exact key i hi hu

theorem told_run {pi : K} {n : Nat} : ∀ (l : List (Event K)) (c : Chan K), (∀ e ∈ l, ProperEvent n e) → (∀ e ∈ l, Independent e) → Told pi n c →
    Told pi n (run pi c l)
  | [], _, _, _, h => h
  | e :: l, c, h1, h2, h => by
    refine told_run l (after pi c e) (fun e he => h1 e (by simp [he])) (fun e he => h2 e (by simp [he])) ?_
    cases e with
    | frame f => exact (told_chunk (h1 (.frame f) (by simp)) (h2 (.frame f) (by simp)) h).1
    | reset => exact absurd (h2 .reset (by simp)) (by simp [Independent])
    | sizes => exact fun _ i _ => Cong.refl _ _

/-- **C82**, the part that is true: with independent phases and without resets.  Missing: laminar phases (the default), and what comes after `reset`. -/
theorem C82_partial {pi : K} {n : Nat} {l : List (Event K)} {f : Frame K} {i : Nat} (h1 : ∀ e ∈ l, ProperEvent n e) (h2 : ∀ e ∈ l, Independent e)
    (hp : Proper n f) (hl : f.conf.laminar = false) (hi : i ≤ n / 2) :
    Cong pi ((chunk pi (run pi create l) f).unwrapped i) (put pi (run pi create l) f i) := by
  have t := told_run (pi := pi) l create h1 h2 fun _ i _ => Cong.refl _ _
  unfold put
  simp only
  split
  · next h => exact (told_chunk hp hl t).2 i hi h
  · rw [(chunk_bin pi _ f (i := i) (by rw [hp.fft]; exact hi)).same]; exact Cong.refl _ _

/-! ### Where it is false -/

/-- A small stretcher, for examples: 16 bins at 44.1 kHz. -/
def Ex.conf : Conf := { rate := 44100, fftSize := 16, increment := 4 }

/-- Two frames at unity: the second has the phases of two bins a little behind. -/
def Ex.first : Frame Rat := ⟨Ex.conf, 4, false, fun _ => 0⟩
/-- The second of them. -/
def Ex.second : Frame Rat := ⟨Ex.conf, 4, false, fun i => if i = 7 then -1 / 4 else if i = 6 then 1 / 2 else 0⟩

theorem Ex.apart : (chunk 1 (run 1 (create : Chan Rat) [.frame Ex.first]) Ex.second).unwrapped 6 = 13 / 16 ∧
    put 1 (run 1 (create : Chan Rat) [.frame Ex.first]) Ex.second 6 = 1 / 2 := by decide +kernel

theorem not_cong : ¬ Cong (1 : Rat) (13 / 16) (1 / 2) := by
  rintro ⟨n, hn⟩
  have h : (32 * n : Rat) = 5 := by linarith
  have : (32 * n : Int) = 5 := by exact_mod_cast h
  omega

/-- **C82** is false: with laminar phases, a stretcher at unity puts frames out as they are but records other phases. -/
theorem C82_violated : ¬ C82_statement := by
  intro h
  have := h 16 [.frame (Ex.first.up Real.pi)] (Ex.second.up Real.pi) 6 (by simp [ProperEvent]; constructor <;> simp [Frame.up, Ex.first, Ex.conf])
    (by constructor <;> simp [Frame.up, Ex.second, Ex.conf]) (by norm_num)
  have e := run_up (K := ℝ) Real.pi_pos [.frame Ex.first] create
  rw [← create_up] at e
  have e : run Real.pi create [.frame (Ex.first.up Real.pi)] = _ := e
  rw [e, chunk_up Real.pi_pos, put_up Real.pi_pos] at this
  have := cong_up Real.pi_pos this
  rw [Ex.apart.1, Ex.apart.2] at this
  exact not_cong this

/-- The stretcher of `Ex.conf` with independent phases, stretching to twice the length, and at unity. -/
def Ex.twice : Frame Rat := ⟨{ Ex.conf with ratio := 2, laminar := false }, 8, false, fun i => if i = 7 then -1 / 2 else 0⟩
/-- At unity. -/
def Ex.unity : Frame Rat := ⟨{ Ex.conf with laminar := false }, 4, false, fun _ => 0⟩

theorem Ex.apart_reset : (chunk 1 (run 1 (create : Chan Rat) [.frame Ex.twice, .reset]) Ex.unity).unwrapped 7 = 23 / 2 ∧
    put 1 (run 1 (create : Chan Rat) [.frame Ex.twice, .reset]) Ex.unity 7 = 0 := by decide +kernel

theorem not_cong' : ¬ Cong (1 : Rat) (23 / 2) 0 := by
  rintro ⟨n, hn⟩
  have h : (4 * n : Rat) = 23 := by linarith
  have : (4 * n : Int) = 23 := by exact_mod_cast h
  omega

/-- Nor is it true with independent phases after `reset`, which sets the flag but leaves the phases. -/
theorem C82_violated_reset : ¬ ∀ (n : Nat) (l : List (Event ℝ)) (f : Frame ℝ) (i : Nat), (∀ e ∈ l, ProperEvent n e) → Proper n f → i ≤ n / 2 →
    (∀ e ∈ l, e = .reset ∨ Independent e) → f.conf.laminar = false →
    Cong Real.pi ((chunk Real.pi (run Real.pi create l) f).unwrapped i) (put Real.pi (run Real.pi create l) f i) := by
  intro h
  have := h 16 [.frame (Ex.twice.up Real.pi), .reset] (Ex.unity.up Real.pi) 7
    (by simp [ProperEvent]; constructor <;> simp [Frame.up, Ex.twice, Ex.conf])
    (by constructor <;> simp [Frame.up, Ex.unity, Ex.conf]) (by norm_num) (by simp [Independent, Frame.up, Ex.twice]) rfl
  have e := run_up (K := ℝ) Real.pi_pos [.frame Ex.twice, .reset] create
  rw [← create_up] at e
  have e : run Real.pi create [.frame (Ex.twice.up Real.pi), .reset] = _ := e
  rw [e, chunk_up Real.pi_pos, put_up Real.pi_pos] at this
  have := cong_up Real.pi_pos this
  rw [Ex.apart_reset.1, Ex.apart_reset.2] at this
  exact not_cong' this

/-! ## C83: back to unity -/

/-- The channel after the first `t` of these chunks. -/
def upTo (pi : K) (c : Chan K) (g : Nat → Frame K) : Nat → Chan K
  | 0 => c
  | t + 1 => chunk pi (upTo pi c g t) (g t)

/-- Chunks at unity: ratio 1 and the same distance in the output as in the input, no phase resets. -/
structure AtUnity (n : Nat) (f : Frame K) : Prop extends Proper n f where
  ratio : f.conf.ratio = 1
  same : f.outputIncrement = f.conf.increment
  smooth : f.phaseReset = false

/-- **C83** in full: when the ratio has come back to 1 and stays there, then some time later the frames put out have the phases of the input. -/
def C83_statement : Prop :=
  ∀ (n : Nat) (l : List (Event ℝ)) (g : Nat → Frame ℝ), (∀ e ∈ l, ProperEvent n e) → (∀ t, AtUnity n (g t)) → (∀ t, (g t).conf = (g 0).conf) →
    ∃ T, ∀ t ≥ T, ∀ i ≤ n / 2, Cong Real.pi (put Real.pi (upTo Real.pi (run Real.pi create l) g t) (g t) i) ((g t).phase i)

theorem AtUnity.unity {n : Nat} {f : Frame K} (h : AtUnity n f) : f.conf.unity = true := by
  simp [Conf.unity, h.ratio]

theorem AtUnity.isReset {n : Nat} {f : Frame K} (h : AtUnity n f) (c : Chan K) (i : Nat) :
    isReset f c i = !(decide (lrint (c.unityResetLow * n / f.conf.rate) < i) && decide (i < n / 2)) := by
  simp only [R2Modify.isReset, bands, h.unity, h.smooth, resetThis, h.fft, Bool.not_false, Bool.and_self, if_true, Bool.true_and]
  have : decide ((i : Int) < ((n / 2 : Nat) : Int)) = decide (i < n / 2) := by
    rw [decide_eq_decide]; exact Int.ofNat_lt
  rw [this]

/-- With independent phases, from the first chunk at unity on, the bins that it resets have the phases of the input. -/
theorem unity_low {pi : K} {n : Nat} {c : Chan K} {g : Nat → Frame K} (hu : ∀ t, AtUnity n (g t)) (hg : ∀ t, (g t).conf = (g 0).conf)
    (hl : (g 0).conf.laminar = false) (hlow : c.unityResetLow = 16000) {i : Nat} (hi : i ≤ n / 2)
    (hb : (i : Int) ≤ lrint (16000 * n / (g 0).conf.rate) ∨ i = n / 2) (t : Nat) :
    Cong pi (put pi (upTo pi c g t) (g t) i) ((g t).phase i) := by
  have step : ∀ (c : Chan K) (f : Frame K), AtUnity n f → f.conf.laminar = false →
      (isReset f c i = true ∨ Cong pi (c.unwrapped i) (c.prevPhase i)) →
      Cong pi ((chunk pi c f).phase i) (f.phase i) ∧ Cong pi ((chunk pi c f).unwrapped i) ((chunk pi c f).prevPhase i) := by
    intro c f h hl hc
    have hi' : i ≤ f.conf.fftSize / 2 := by rw [h.fft]; exact hi
    have bf := chunk_bin pi c f hi'
    have : Cong pi ((chunk pi c f).phase i) (f.phase i) := by
      cases hr : isReset f c i with
      | true => rw [(bf.reset hr).1]; exact Cong.refl _ _
      | false =>
        have := plain_cong (pi := pi) (c := c) (d := 0) hi' hl h.inc h.same (by
          rw [add_zero]; exact hc.resolve_left (by simp [hr])) hr
        rwa [add_zero] at this
    exact ⟨this, by rw [bf.same, bf.prevPhase]; exact this⟩
  have hl' : ∀ t, (g t).conf.laminar = false := fun t => by rw [hg t]; exact hl
  have h0 : isReset (g 0) c i = true := by
    rw [(hu 0).isReset, hlow]
    rcases hb with h | h
    · have : ¬ lrint (16000 * n / (g 0).conf.rate) < (i : Int) := by omega
      simp [this]
    · simp [h]
  have all : ∀ t, Cong pi ((chunk pi (upTo pi c g t) (g t)).phase i) ((g t).phase i) ∧
      Cong pi ((upTo pi c g (t + 1)).unwrapped i) ((upTo pi c g (t + 1)).prevPhase i) := by
    intro t
    induction t with
    | zero => exact step c (g 0) (hu 0) (hl' 0) (.inl h0)
    | succ t ih => exact step (upTo pi c g (t + 1)) (g (t + 1)) (hu (t + 1)) (hl' _) (.inr ih.2)
  unfold put
  simp only
  split
  · exact Cong.refl _ _
  · exact (all t).1

/-- **C83**, the part that is true: with independent phases, after a chunk at another ratio, all bins up to 16 kHz and the topmost have the
phases of the input from the first chunk at unity on.  Missing: the bins between, and laminar phases. -/
theorem C83_partial {pi : K} {n : Nat} {l : List (Event K)} {f : Frame K} (hf : 1 / 1000000 ≤ |f.conf.ratio - 1|) {g : Nat → Frame K}
    (hu : ∀ t, AtUnity n (g t)) (hg : ∀ t, (g t).conf = (g 0).conf) (hl : (g 0).conf.laminar = false) {i : Nat} (hi : i ≤ n / 2)
    (hb : (i : Int) ≤ lrint (16000 * n / (g 0).conf.rate) ∨ i = n / 2) (t : Nat) :
    Cong pi (put pi (upTo pi (run pi create (l ++ [.frame f])) g t) (g t) i) ((g t).phase i) := by
  refine unity_low hu hg hl ?_ hi hb t
  have : f.conf.unity = false := by simpa [Conf.unity] using hf
  rw [run, List.foldl_append]
  generalize List.foldl (after pi) create l = c
  show nextLow f.conf c.unityResetLow = 16000
  rw [nextLow, this]
  rfl

/-- **C83** is false: the phases above 16 kHz (except that of the topmost bin) are never put right. -/
theorem C83_violated : ¬ C83_statement := by
  intro h
  obtain ⟨T, hT⟩ := h 16 [.frame (Ex.twice.up Real.pi)] (fun _ => Ex.unity.up Real.pi)
    (by simp [ProperEvent]; constructor <;> simp [Frame.up, Ex.twice, Ex.conf])
    (fun _ => by constructor <;> (try constructor) <;> simp [Frame.up, Ex.unity, Ex.conf]) (fun _ => rfl)
  have hu : AtUnity 16 (Ex.unity.up Real.pi) := by constructor <;> (try constructor) <;> simp [Frame.up, Ex.unity, Ex.conf]
  have e := run_up (K := ℝ) Real.pi_pos [.frame Ex.twice] create
  rw [← create_up] at e
  have e : run Real.pi create [.frame (Ex.twice.up Real.pi)] = _ := e
  rw [e] at hT
  have s0 : (run 1 (create : Chan Rat) [.frame Ex.twice]).unchanged = false ∧ (run 1 (create : Chan Rat) [.frame Ex.twice]).unwrapped 7 = 7 ∧
      (run 1 (create : Chan Rat) [.frame Ex.twice]).prevPhase 7 = -1 / 2 ∧ (run 1 (create : Chan Rat) [.frame Ex.twice]).unityResetLow = 16000 := by
    decide +kernel
  generalize run 1 (create : Chan Rat) [.frame Ex.twice] = c at *
  have inv : ∀ t, (upTo Real.pi (c.up Real.pi) (fun _ => Ex.unity.up Real.pi) t).unchanged = false ∧
      (upTo Real.pi (c.up Real.pi) (fun _ => Ex.unity.up Real.pi) t).unityResetLow ≤ 16000 ∧
      Cong Real.pi ((upTo Real.pi (c.up Real.pi) (fun _ => Ex.unity.up Real.pi) t).unwrapped 7)
        ((upTo Real.pi (c.up Real.pi) (fun _ => Ex.unity.up Real.pi) t).prevPhase 7 + -1 / 2 * Real.pi) ∧
      Cong Real.pi ((chunk Real.pi (upTo Real.pi (c.up Real.pi) (fun _ => Ex.unity.up Real.pi) t) (Ex.unity.up Real.pi)).phase 7)
        ((Ex.unity.up Real.pi).phase 7 + -1 / 2 * Real.pi) := by
    have go : ∀ d : Chan ℝ, d.unityResetLow ≤ 16000 → Cong Real.pi (d.unwrapped 7) (d.prevPhase 7 + -1 / 2 * Real.pi) →
        Cong Real.pi ((chunk Real.pi d (Ex.unity.up Real.pi)).phase 7) ((Ex.unity.up Real.pi).phase 7 + -1 / 2 * Real.pi) := by
      intro d h1 h2
      refine plain_cong (by simp [Frame.up, Ex.unity, Ex.conf]) rfl hu.inc hu.same h2 ?_
      rw [hu.isReset]
      have hr : (Ex.unity.up Real.pi).conf.rate = 44100 := rfl
      have : lrint (d.unityResetLow * (16 : Nat) / 44100) ≤ lrint (16000 * 16 / 44100) := by
        refine lrint_mono ?_
        push_cast
        exact div_le_div_of_nonneg_right (by linarith) (by norm_num)
      have h6 : lrint (16000 * 16 / 44100) = 6 := by decide +kernel
      rw [hr]
      have h7 : lrint (d.unityResetLow * (16 : Nat) / 44100) < ((7 : Nat) : Int) := by rw [h6] at this; push_cast at this ⊢; omega
      simp only [h7, decide_true, Bool.true_and]
      decide
    intro t
    induction t with
    | zero =>
      have h2 : Cong Real.pi ((c.up Real.pi).unwrapped 7) ((c.up Real.pi).prevPhase 7 + -1 / 2 * Real.pi) := by
        refine ⟨4, ?_⟩
        simp only [Chan.up, up, s0.2.1, s0.2.2.1]
        push_cast
        ring
      exact ⟨s0.1, le_of_eq s0.2.2.2, h2, go _ (le_of_eq s0.2.2.2) h2⟩
    | succ t ih =>
      have bf := chunk_bin Real.pi (upTo Real.pi (c.up Real.pi) (fun _ => Ex.unity.up Real.pi) t) (Ex.unity.up Real.pi) (i := 7)
        (by simp [Frame.up, Ex.unity, Ex.conf])
      have h1 : (upTo Real.pi (c.up Real.pi) (fun _ => Ex.unity.up Real.pi) (t + 1)).unityResetLow ≤ 16000 := by
        show nextLow _ _ ≤ 16000
        rw [nextLow, hu.unity, if_pos rfl]
        linarith [ih.2.1]
      have h2 : Cong Real.pi ((upTo Real.pi (c.up Real.pi) (fun _ => Ex.unity.up Real.pi) (t + 1)).unwrapped 7)
          ((upTo Real.pi (c.up Real.pi) (fun _ => Ex.unity.up Real.pi) (t + 1)).prevPhase 7 + -1 / 2 * Real.pi) := by
        show Cong _ ((chunk _ _ _).unwrapped 7) ((chunk _ _ _).prevPhase 7 + _)
        rw [bf.same, bf.prevPhase]
        exact ih.2.2.2
      exact ⟨chunk_changed hu.smooth (.inl ih.1), h1, h2, go _ h1 h2⟩
  have := hT T le_rfl 7 (by norm_num)
  obtain ⟨i1, _, _, i4⟩ := inv T
  unfold put at this
  simp only [chunk_changed hu.smooth (.inl i1), Bool.false_eq_true, if_false] at this
  obtain ⟨m, hm⟩ := i4.symm.trans this
  have hp := Real.pi_pos
  have : ((4 * m : Int) : ℝ) = (-1 : Int) := by
    push_cast
    have : (4 * (m : ℝ)) * Real.pi = -1 * Real.pi := by linear_combination -2 * hm
    exact mul_right_cancel₀ hp.ne' this
  have : 4 * m = -1 := by exact_mod_cast this
  omega

/-! ## Examples -/

/-- Hypotheses of `C81_steady`: a tone a quarter turn per increment above bin 5, stretched by varying amounts. -/
example : ∃ f0 f1 f : Frame Rat, ∃ l : List (Frame Rat), l.length = 2 ∧ f0.conf.fftSize = 16 ∧
    (∀ g ∈ f1 :: l ++ [f], Moving 16 4 g) ∧ Steady 1 (11 / 4) 5 f0 (f1 :: l ++ [f]) ∧ f1.outputIncrement ≠ 4 ∧
    put 1 (chunks 1 create (f0 :: f1 :: l)) f 5 = put 1 (chunk 1 create f0) f1 5 + (9 + 8 + 7) / 4 * (11 / 4) := by
  let q : Conf := { Ex.conf with ratio := 2 }
  refine ⟨⟨q, 8, true, fun _ => 0⟩, ⟨q, 7, false, fun _ => 3 / 4⟩, ⟨q, 7, false, fun _ => 1⟩,
    [⟨q, 9, false, fun _ => -1 / 2⟩, ⟨q, 8, false, fun _ => 1 / 4⟩], rfl, rfl, ?_, ?_, by decide, by decide +kernel⟩
  · intro g hg
    simp only [List.cons_append, List.nil_append, List.mem_cons, List.not_mem_nil, or_false] at hg
    rcases hg with h | h | h | h <;> subst h <;> constructor <;> decide +kernel
  · refine ⟨⟨-1, ?_⟩, ⟨-2, ?_⟩, ⟨-1, ?_⟩, ⟨-1, ?_⟩, trivial⟩ <;> norm_num

/-- Hypotheses of `C82_partial`: a run that leaves unity. -/
example : (∀ e ∈ [Event.frame Ex.unity, .frame Ex.unity], ProperEvent 16 e) ∧ (∀ e ∈ [Event.frame Ex.unity, .frame Ex.unity], Independent e) ∧
    Proper 16 Ex.twice ∧ put 1 (run 1 create [Event.frame Ex.unity, .frame Ex.unity]) Ex.twice 7 = 15 := by
  refine ⟨?_, ?_, ⟨rfl, by decide, by decide +kernel⟩, by decide +kernel⟩
  · intro e he
    simp at he
    subst he
    exact ⟨rfl, by decide, by decide +kernel⟩
  · intro e he
    simp at he
    subst he
    rfl

/-- Hypotheses of `C83_partial`. -/
example : AtUnity 16 Ex.unity ∧ 1 / 1000000 ≤ |Ex.twice.conf.ratio - 1| ∧ lrint (16000 * (16 : Nat) / Ex.unity.conf.rate) = 6 ∧
    (run 1 create [.frame Ex.twice]).unwrapped 5 ≠ (run 1 create [.frame Ex.twice]).prevPhase 5 :=
  ⟨⟨⟨rfl, by decide, by decide +kernel⟩, rfl, rfl, rfl⟩, by decide +kernel, by decide +kernel, by decide +kernel⟩

end Verif.R2Modify
