import Verif.FFTReal
/-!
# The Fourier transforms do what they say

C79: every call to the built-in FFT, in any order and with any contents of the arrays,
gives the discrete Fourier transform (or its inverse times the size); the slow transform
gives the same.  C80: the inverse of the forward transform is the input times the size.
-/
namespace Verif.FFT
open Verif.MovingMedian (setAt)
open Finset
open scoped ComplexConjugate

/-- The array with `n` entries given by `f`. -/
def tabulate {α : Type} (n : Nat) (f : Nat → α) : List α := (List.range n).map f

theorem holds_tabulate {α : Type} (n : Nat) (f : Nat → α) : Holds (tabulate n f) n f :=
  ⟨by simp [tabulate], fun i hi => by simp [tabulate, hi]⟩

theorem Holds.eq {α : Type} {l : List α} {n : Nat} {f : Nat → α} (h : Holds l n f) :
    l = tabulate n f := h.ext (holds_tabulate n f)

/-- Entry `i` of an array (0 outside). -/
def at0 (l : List ℝ) (i : Nat) : ℝ := l.getD i 0

theorem at0_get {l : List ℝ} {n : Nat} (h : l.length = n) : ∀ i < n, l[i]? = some (at0 l i) := by
  intro i hi
  subst h
  simp [at0, List.getD, hi]

theorem holds_at0 {l : List ℝ} {n : Nat} (h : l.length = n) : Holds l n (at0 l) :=
  ⟨h, at0_get h⟩

/-- The arrays of a call have the lengths that `FFT.h` asks for: the size of the transform
for samples, half of it and one for bins. -/
def Fits (n : Nat) : Call → Prop
  | .forward x re im => x.length = n ∧ re.length = n / 2 + 1 ∧ im.length = n / 2 + 1
  | .forwardPolar x m p => x.length = n ∧ m.length = n / 2 + 1 ∧ p.length = n / 2 + 1
  | .forwardMagnitude x m => x.length = n ∧ m.length = n / 2 + 1
  | .inverse re im x => x.length = n ∧ re.length = n / 2 + 1 ∧ im.length = n / 2 + 1
  | .inversePolar m p x => x.length = n ∧ m.length = n / 2 + 1 ∧ p.length = n / 2 + 1
  | .inverseCepstral m x => x.length = n ∧ m.length = n / 2 + 1

/-- What a call is to fill its arrays with. -/
noncomputable def answer (n : Nat) : Call → List (List ℝ)
  | .forward x _ _ => [tabulate (n / 2 + 1) fun k => (spectrum n (at0 x) k).re,
      tabulate (n / 2 + 1) fun k => (spectrum n (at0 x) k).im]
  | .forwardPolar x _ _ => [tabulate (n / 2 + 1) fun k => ‖spectrum n (at0 x) k‖,
      tabulate (n / 2 + 1) fun k => (spectrum n (at0 x) k).arg]
  | .forwardMagnitude x _ => [tabulate (n / 2 + 1) fun k => ‖spectrum n (at0 x) k‖]
  | .inverse re im _ => [tabulate n (resum n fun k => ⟨at0 re k, at0 im k⟩)]
  | .inversePolar m p _ =>
    [tabulate n (resum n fun k => at0 m k * Complex.exp (at0 p k * Complex.I))]
  | .inverseCepstral m _ => [tabulate n (resum n fun k => (Real.log (at0 m k + 0.000001) : ℝ))]

theorem norm_eq_sqrt (z : ℂ) : ‖z‖ = Real.sqrt (z.re * z.re + z.im * z.im) := by
  rw [Complex.norm_def, Complex.normSq_apply]

theorem toPolar_holds {n : Nat} {c d mag phase : List ℝ} {z : Nat → ℂ} (h : Carries c d n z)
    (hm : mag.length = n) (hp : phase.length = n) :
    ∃ mag' phase', times n (toPolarOne c d) (mag, phase) = some (mag', phase') ∧
      Holds mag' n (fun k => ‖z k‖) ∧ Holds phase' n (fun k => (z k).arg) := by
  obtain ⟨⟨m', p'⟩, e, h1, h2⟩ := times_inv (n := n) (body := toPolarOne c d) (s := (mag, phase))
    (fun i s => Holds s.1 n (fun k => if k < i then ‖z k‖ else at0 mag k) ∧
      Holds s.2 n (fun k => if k < i then (z k).arg else at0 phase k)) (by
      rintro i hi ⟨m, p⟩ ⟨h1, h2⟩
      obtain ⟨m1, e1, p1⟩ := h1.extend hi (norm_eq_sqrt (z i)).symm
      obtain ⟨m2, e2, p2⟩ := h2.extend hi rfl
      refine ⟨(m1, m2), ?_, p1, p2⟩
      simp only at e1 e2
      simp only [toPolarOne, h.re.get hi, h.im.get hi, e1, e2, Option.bind_eq_bind, Option.bind_some])
    ⟨by simpa using holds_at0 hm, by simpa using holds_at0 hp⟩
  exact ⟨m', p', e, h1.congr fun i hi => by rw [if_pos hi], h2.congr fun i hi => by rw [if_pos hi]⟩

theorem toMagnitude_holds {n : Nat} {c d mag : List ℝ} {z : Nat → ℂ} (h : Carries c d n z)
    (hm : mag.length = n) :
    ∃ mag', times n (toMagnitudeOne c d) mag = some mag' ∧ Holds mag' n (fun k => ‖z k‖) := by
  obtain ⟨m', e, h1⟩ := times_inv (n := n) (body := toMagnitudeOne c d) (s := mag)
    (fun i s => Holds s n (fun k => if k < i then ‖z k‖ else at0 mag k)) (by
      rintro i hi m h1
      obtain ⟨m1, e1, p1⟩ := h1.extend hi (norm_eq_sqrt (z i)).symm
      refine ⟨m1, ?_, p1⟩
      simp only [toMagnitudeOne, h.re.get hi, h.im.get hi, e1, Option.bind_eq_bind, Option.bind_some])
    (by simpa using holds_at0 hm)
  exact ⟨m', e, h1.congr fun i hi => by rw [if_pos hi]⟩

theorem toCartesian_carries {n : Nat} {mag phase a b : List ℝ} (hm : mag.length = n)
    (hp : phase.length = n) (ha : a.length = n) (hb : b.length = n) :
    ∃ a' b', times n (toCartesianOne mag phase) (a, b) = some (a', b') ∧
      Carries a' b' n (fun k => at0 mag k * Complex.exp (at0 phase k * Complex.I)) := by
  obtain ⟨⟨m', p'⟩, e, h1, h2⟩ := times_inv (n := n) (body := toCartesianOne mag phase) (s := (a, b))
    (fun i s => Holds s.1 n (fun k => if k < i then Real.cos (at0 phase k) * at0 mag k else at0 a k) ∧
      Holds s.2 n (fun k => if k < i then Real.sin (at0 phase k) * at0 mag k else at0 b k)) (by
      rintro i hi ⟨m, p⟩ ⟨h1, h2⟩
      obtain ⟨m1, e1, p1⟩ := h1.extend hi rfl
      obtain ⟨m2, e2, p2⟩ := h2.extend hi rfl
      refine ⟨(m1, m2), ?_, p1, p2⟩
      simp only at e1 e2
      simp only [toCartesianOne, at0_get hm i hi, at0_get hp i hi, e1, e2, Option.bind_eq_bind,
        Option.bind_some])
    ⟨by simpa using holds_at0 ha, by simpa using holds_at0 hb⟩
  refine ⟨m', p', e, h1.congr fun i hi => ?_, h2.congr fun i hi => ?_⟩
  · rw [if_pos hi, Complex.re_ofReal_mul, Complex.exp_ofReal_mul_I_re, mul_comm]
  · rw [if_pos hi, Complex.im_ofReal_mul, Complex.exp_ofReal_mul_I_im, mul_comm]

theorem log_carries {n : Nat} {mag a b : List ℝ} (hm : mag.length = n)
    (ha : a.length = n) (hb : b.length = n) :
    ∃ a' b', times n (logOne mag) (a, b) = some (a', b') ∧
      Carries a' b' n (fun k => ((Real.log (at0 mag k + 0.000001) : ℝ) : ℂ)) := by
  obtain ⟨⟨m', p'⟩, e, h1, h2⟩ := times_inv (n := n) (body := logOne mag) (s := (a, b))
    (fun i s => Holds s.1 n (fun k => if k < i then Real.log (at0 mag k + 0.000001) else at0 a k) ∧
      Holds s.2 n (fun k => if k < i then 0 else at0 b k)) (by
      rintro i hi ⟨m, p⟩ ⟨h1, h2⟩
      obtain ⟨m1, e1, p1⟩ := h1.extend hi rfl
      obtain ⟨m2, e2, p2⟩ := h2.extend hi rfl
      refine ⟨(m1, m2), ?_, p1, p2⟩
      simp only at e1 e2
      simp only [logOne, at0_get hm i hi, e1, e2, Option.bind_eq_bind, Option.bind_some])
    ⟨by simpa using holds_at0 ha, by simpa using holds_at0 hb⟩
  refine ⟨m', p', e, h1.congr fun i hi => ?_, h2.congr fun i hi => ?_⟩
  · rw [if_pos hi, Complex.ofReal_re]
  · rw [if_pos hi, Complex.ofReal_im]

theorem call_spec {b : Nat} {o : Builtin} (ho : Valid b o) {k : Call} (hk : Fits (2 ^ (b + 1)) k) :
    ∃ o', call o k = some (o', answer (2 ^ (b + 1)) k) ∧ Valid b o' := by
  have hh : 2 ^ (b + 1) / 2 = 2 ^ b := by rw [pow_succ]; omega
  cases k with
  | forward x re im =>
    obtain ⟨hx, hre, him⟩ := hk
    rw [hh] at hre him
    obtain ⟨o', re', im', e, v, _, _, c⟩ := transformF_spec ho (at0_get hx) hre him
    refine ⟨o', ?_, v⟩
    rw [call, e, answer, c.re.eq, c.im.eq, hh]
    rfl
  | forwardPolar x m p =>
    obtain ⟨hx, hm, hp⟩ := hk
    rw [hh] at hm hp
    obtain ⟨o', re', im', e, v, _, _, c⟩ := transformF_spec ho (at0_get hx) ho.c ho.d
    obtain ⟨m', p', e2, h1, h2⟩ := toPolar_holds c hm hp
    refine ⟨{ o' with c := re', d := im' }, ?_, ⟨v.size, v.half, v.table, v.sincos, v.sincosR,
      v.vr, v.vi, v.a, v.b, c.re.1, c.im.1⟩⟩
    simp only [call, forwardPolar, e, v.half, e2, Option.bind_eq_bind, Option.bind_some,
      Option.map_some, answer, h1.eq, h2.eq, hh]
  | forwardMagnitude x m =>
    obtain ⟨hx, hm⟩ := hk
    rw [hh] at hm
    obtain ⟨o', re', im', e, v, _, _, c⟩ := transformF_spec ho (at0_get hx) ho.c ho.d
    obtain ⟨m', e2, h1⟩ := toMagnitude_holds c hm
    refine ⟨{ o' with c := re', d := im' }, ?_, ⟨v.size, v.half, v.table, v.sincos, v.sincosR,
      v.vr, v.vi, v.a, v.b, c.re.1, c.im.1⟩⟩
    simp only [call, forwardMagnitude, e, v.half, e2, Option.bind_eq_bind, Option.bind_some,
      Option.map_some, answer, h1.eq, hh]
  | inverse re im x =>
    obtain ⟨hx, hre, him⟩ := hk
    rw [hh] at hre him
    obtain ⟨o', x', e, v, c⟩ := transformI_spec (ro := x) (X := fun k => ⟨at0 re k, at0 im k⟩) ho
      ⟨holds_at0 hre, holds_at0 him⟩ hx
    refine ⟨o', ?_, v⟩
    rw [call, e, answer, c.eq]
    rfl
  | inversePolar m p x =>
    obtain ⟨hx, hm, hp⟩ := hk
    rw [hh] at hm hp
    obtain ⟨a', b', e1, c1⟩ := toCartesian_carries hm hp ho.a ho.b
    have ho' : Valid b { o with a := a', b := b' } := ⟨ho.size, ho.half, ho.table, ho.sincos,
      ho.sincosR, ho.vr, ho.vi, c1.re.1, c1.im.1, ho.c, ho.d⟩
    obtain ⟨o', x', e, v, c⟩ := transformI_spec (ro := x) ho' c1 hx
    refine ⟨o', ?_, v⟩
    rw [← ho.half] at e1
    simp only [call, inversePolar, e1, Option.bind_eq_bind, Option.bind_some, e,
      Option.map_some, answer, c.eq]
  | inverseCepstral m x =>
    obtain ⟨hx, hm⟩ := hk
    rw [hh] at hm
    obtain ⟨a', b', e1, c1⟩ := log_carries hm ho.a ho.b
    have ho' : Valid b { o with a := a', b := b' } := ⟨ho.size, ho.half, ho.table, ho.sincos,
      ho.sincosR, ho.vr, ho.vi, c1.re.1, c1.im.1, ho.c, ho.d⟩
    obtain ⟨o', x', e, v, c⟩ := transformI_spec (ro := x) ho' c1 hx
    refine ⟨o', ?_, v⟩
    rw [← ho.half] at e1
    simp only [call, inverseCepstral, e1, Option.bind_eq_bind, Option.bind_some, e,
      Option.map_some, answer, c.eq]

theorem run_spec {b : Nat} {o : Builtin} (ho : Valid b o) {ks : List Call}
    (hk : ∀ k ∈ ks, Fits (2 ^ (b + 1)) k) :
    ∃ o', run o ks = some (o', ks.map (answer (2 ^ (b + 1)))) ∧ Valid b o' := by
  induction ks generalizing o with
  | nil => exact ⟨o, rfl, ho⟩
  | cons k ks ih =>
    obtain ⟨o1, e1, v1⟩ := call_spec ho (hk k (List.mem_cons_self ..))
    obtain ⟨o2, e2, v2⟩ := ih v1 fun k' h => hk k' (List.mem_cons_of_mem _ h)
    refine ⟨o2, ?_, v2⟩
    simp only [run, e1, e2, Option.bind_eq_bind, Option.bind_some, List.map_cons]

/-- **C79** (built-in FFT).  For every size that is a power of two, every sequence of calls
stays within the arrays and gives the discrete Fourier transform of its input, or the
inverse times the size, whatever was computed before and whatever the arrays to be filled
held. -/
theorem C79_builtin {b : Nat} (hb : b < 31) {ks : List Call}
    (hk : ∀ k ∈ ks, Fits (2 ^ (b + 1)) k) :
    ∃ o o', make (2 ^ (b + 1)) = some o ∧
      run o ks = some (o', ks.map (answer (2 ^ (b + 1)))) := by
  obtain ⟨o, e, v⟩ := make_valid hb
  obtain ⟨o', e', _⟩ := run_spec v hk
  exact ⟨o, o', e, e'⟩

/-! ### The slow transform -/

theorem addUp_sum {x : List ℝ} {n : Nat} (hx : x.length = n) (t : Nat → ℝ) (r : ℝ) :
    addUp x t n r = some (r + ∑ j ∈ range n, at0 x j * t j) := by
  obtain ⟨s, e, p⟩ := times_inv (n := n) (s := r)
    (body := fun j re => x[j]?.map fun v => re + v * t j)
    (fun i s => s = r + ∑ j ∈ range i, at0 x j * t j) (by
      rintro i hi s rfl
      refine ⟨_, by rw [at0_get hx i hi]; rfl, ?_⟩
      rw [sum_range_succ]; ring) (by simp)
  rw [addUp, e, p]

theorem takeOff_sum {x : List ℝ} {n : Nat} (hx : x.length = n) (t : Nat → ℝ) (r : ℝ) :
    takeOff x t n r = some (r - ∑ j ∈ range n, at0 x j * t j) := by
  obtain ⟨s, e, p⟩ := times_inv (n := n) (s := r)
    (body := fun j im => x[j]?.map fun v => im - v * t j)
    (fun i s => s = r - ∑ j ∈ range i, at0 x j * t j) (by
      rintro i hi s rfl
      refine ⟨_, by rw [at0_get hx i hi]; rfl, ?_⟩
      rw [sum_range_succ]; ring) (by simp)
  rw [takeOff, e, p]

theorem angle_turn (n i j : Nat) : angle n i j = ((i * j : Nat) : ℝ) * (2 * Real.pi / n) := by
  rw [angle]; push_cast; ring

theorem spectrum_parts (n : Nat) (x : Nat → ℝ) (i : Nat) :
    (spectrum n x i).re = ∑ j ∈ range n, x j * Real.cos (angle n i j) ∧
    (spectrum n x i).im = -∑ j ∈ range n, x j * Real.sin (angle n i j) := by
  rw [spectrum_turn]
  constructor
  · rw [Complex.re_sum]
    refine sum_congr rfl fun j _ => ?_
    rw [Complex.re_ofReal_mul, angle_turn]
    rfl
  · rw [Complex.im_sum, ← sum_neg_distrib]
    refine sum_congr rfl fun j _ => ?_
    rw [Complex.im_ofReal_mul, angle_turn]
    simp only [turn]; ring

/-- **C79** (slow transform, forward). -/
theorem C79_dft_forward {n : Nat} {x re im : List ℝ} (hx : x.length = n)
    (hr : re.length = n / 2 + 1) (hi : im.length = n / 2 + 1) :
    ∃ re' im', dftForward n x re im = some (re', im') ∧
      answer n (.forward x re im) = [re', im'] := by
  obtain ⟨⟨re', im'⟩, e, h1, h2⟩ := times_inv (n := n / 2 + 1) (body := dftForwardOne n x)
    (s := (re, im))
    (fun i s => Holds s.1 (n / 2 + 1) (fun k => if k < i then (spectrum n (at0 x) k).re else at0 re k) ∧
      Holds s.2 (n / 2 + 1) (fun k => if k < i then (spectrum n (at0 x) k).im else at0 im k)) (by
      rintro i hi ⟨m, p⟩ ⟨h1, h2⟩
      have := spectrum_parts n (at0 x) i
      obtain ⟨m1, e1, p1⟩ := h1.extend hi rfl
      obtain ⟨m2, e2, p2⟩ := h2.extend hi rfl
      refine ⟨(m1, m2), ?_, p1, p2⟩
      simp only [this.1, this.2] at e1 e2
      simp only [dftForwardOne, addUp_sum hx, takeOff_sum hx, Option.bind_eq_bind, Option.bind_some,
        zero_add, zero_sub, e1, e2])
    ⟨by simpa using holds_at0 hr, by simpa using holds_at0 hi⟩
  refine ⟨re', im', e, ?_⟩
  rw [answer, ← (h1.congr fun i hi => by rw [if_pos hi]).eq, ← (h2.congr fun i hi => by rw [if_pos hi]).eq]

theorem mirror_carries {n : Nat} (hn : 0 < n) {re im t0 t1 : List ℝ} (hr : re.length = n / 2 + 1)
    (hi : im.length = n / 2 + 1) (h0 : t0.length = n) (h1 : t1.length = n) :
    ∃ t0' t1', times (max n (n / 2 + 1)) (mirrorOne n re im) (t0, t1) = some (t0', t1') ∧
      Carries t0' t1' n (mirrored n fun k => ⟨at0 re k, at0 im k⟩) := by
  have hmax : max n (n / 2 + 1) = n := by omega
  rw [hmax]
  set X : Nat → ℂ := fun k => ⟨at0 re k, at0 im k⟩ with hX
  obtain ⟨⟨t0', t1'⟩, e, p0, p1⟩ := times_inv (n := n) (body := mirrorOne n re im)
    (s := (t0, t1))
    (fun i s => Holds s.1 n (fun k => if k < i then (mirrored n X k).re else at0 t0 k) ∧
      Holds s.2 n (fun k => if k < i then (mirrored n X k).im else at0 t1 k)) (by
      rintro i hlt ⟨m, p⟩ ⟨h1, h2⟩
      by_cases hc : i < n / 2 + 1
      · have hm : mirrored n X i = X i := by rw [mirrored, if_pos (by omega)]
        obtain ⟨m1, e1, p1⟩ := h1.extend hlt rfl
        obtain ⟨m2, e2, p2⟩ := h2.extend hlt rfl
        refine ⟨(m1, m2), ?_, p1, p2⟩
        rw [hm] at e1 e2
        simp only [hX] at e1 e2
        simp only [mirrorOne, if_pos hc, at0_get hr i hc, at0_get hi i hc, Option.bind_eq_bind,
          Option.bind_some, e1, e2]
      · have hm : mirrored n X i = conj (X (n - i)) := by rw [mirrored, if_neg (by omega)]
        obtain ⟨m1, e1, p1⟩ := h1.extend hlt rfl
        obtain ⟨m2, e2, p2⟩ := h2.extend hlt rfl
        refine ⟨(m1, m2), ?_, p1, p2⟩
        rw [hm] at e1 e2
        simp only [Complex.conj_re, Complex.conj_im, hX] at e1 e2
        simp only [mirrorOne, if_neg hc, at0_get hr (n - i) (by omega),
          at0_get hi (n - i) (by omega), Option.bind_eq_bind, Option.bind_some, e1, e2])
    ⟨by simpa using holds_at0 h0, by simpa using holds_at0 h1⟩
  exact ⟨t0', t1', e, p0.congr fun i hi => by rw [if_pos hi], p1.congr fun i hi => by rw [if_pos hi]⟩

theorem resum_parts (n : Nat) (X : Nat → ℂ) (i : Nat) :
    resum n X i = ∑ k ∈ range n, (mirrored n X k).re * Real.cos (angle n i k) -
      ∑ k ∈ range n, (mirrored n X k).im * Real.sin (angle n i k) := by
  rw [resum_turn, Complex.re_sum, ← sum_sub_distrib]
  refine sum_congr rfl fun k _ => ?_
  rw [Complex.mul_re, angle_turn]
  simp only [turn]; ring

/-- **C79** (slow transform, inverse). -/
theorem C79_dft_inverse {n : Nat} (hn : 0 < n) {re im t0 t1 x : List ℝ}
    (hr : re.length = n / 2 + 1) (hi : im.length = n / 2 + 1) (h0 : t0.length = n)
    (h1 : t1.length = n) (hx : x.length = n) :
    ∃ t0' t1' x', dftInverse n t0 t1 re im x = some (t0', t1', x') ∧ t0'.length = n ∧
      t1'.length = n ∧ answer n (.inverse re im x) = [x'] := by
  obtain ⟨t0', t1', e1, c⟩ := mirror_carries hn hr hi h0 h1
  set X : Nat → ℂ := fun k => ⟨at0 re k, at0 im k⟩ with hX
  have g0 : ∀ k ∈ range n, at0 t0' k = (mirrored n X k).re := fun k hk => by
    have := c.re.get (mem_range.mp hk)
    rw [at0_get c.re.1 k (mem_range.mp hk)] at this
    exact Option.some.inj this
  have g1 : ∀ k ∈ range n, at0 t1' k = (mirrored n X k).im := fun k hk => by
    have := c.im.get (mem_range.mp hk)
    rw [at0_get c.im.1 k (mem_range.mp hk)] at this
    exact Option.some.inj this
  obtain ⟨x', e, p⟩ := times_inv (n := n) (body := dftInverseOne n t0' t1') (s := x)
    (fun i s => Holds s n (fun k => if k < i then resum n X k else at0 x k)) (by
      rintro i hlt s hs
      obtain ⟨m1, e1, p1⟩ := hs.extend hlt rfl
      refine ⟨m1, ?_, p1⟩
      have s0 : ∑ k ∈ range n, at0 t0' k * Real.cos (angle n i k) =
          ∑ k ∈ range n, (mirrored n X k).re * Real.cos (angle n i k) :=
        sum_congr rfl fun k hk => by rw [g0 k hk]
      have s1 : ∑ k ∈ range n, at0 t1' k * Real.sin (angle n i k) =
          ∑ k ∈ range n, (mirrored n X k).im * Real.sin (angle n i k) :=
        sum_congr rfl fun k hk => by rw [g1 k hk]
      rw [resum_parts, ← s0, ← s1] at e1
      simp only [dftInverseOne, addUp_sum c.re.1, takeOff_sum c.im.1, Option.bind_eq_bind,
        Option.bind_some, zero_add, e1])
    (by simpa using holds_at0 hx)
  refine ⟨t0', t1', x', ?_, c.re.1, c.im.1, ?_⟩
  · simp only [dftInverse, e1, Option.bind_eq_bind, Option.bind_some, e]
  · rw [answer, ← (p.congr fun i hi => by rw [if_pos hi]).eq]

/-! ### There and back -/

theorem mirrored_spectrum {n : Nat} (x : Nat → ℝ) {k : Nat} (hk : k < n) :
    mirrored n (spectrum n x) k = spectrum n x k := by
  rw [mirrored]
  split
  · rfl
  · rw [spectrum_turn, spectrum_turn, map_sum]
    refine sum_congr rfl fun j _ => ?_
    rw [turn_back one_sq (by omega) hk.le, map_mul, Complex.conj_conj, Complex.conj_ofReal]

theorem turn_inj {n i j : Nat} (hi : i < n) (hj : j < n) (h : turn (-1) n i = turn (-1) n j) :
    i = j := by
  have hp := Complex.isPrimitiveRoot_exp n (by omega)
  have e : ∀ m, turn (-1) n m = Complex.exp (2 * Real.pi * Complex.I / n) ^ m := by
    intro m
    rw [turn_exp', ← Complex.exp_nat_mul]
    congr 1; ring
  rw [e, e] at h
  exact hp.pow_inj hi hj h

theorem resum_spectrum {n : Nat} (x : Nat → ℝ) {j : Nat} (hj : j < n) :
    resum n (spectrum n x) j = n * x j := by
  have hn : 0 < n := by omega
  rw [resum_turn]
  have e1 : ∑ k ∈ range n, mirrored n (spectrum n x) k * turn (-1) n (j * k) =
      ∑ i ∈ range n, (x i : ℂ) * ∑ k ∈ range n, (turn 1 n i * turn (-1) n j) ^ k := by
    rw [sum_congr rfl fun k hk => by rw [mirrored_spectrum x (mem_range.mp hk), spectrum_turn, sum_mul],
      sum_comm]
    refine sum_congr rfl fun i _ => ?_
    rw [mul_sum]
    refine sum_congr rfl fun k _ => ?_
    rw [Nat.mul_comm k i, turn_pow one_sq, turn_pow neg_sq', mul_pow]
    ring
  rw [e1, sum_eq_single j]
  · have : turn 1 n j * turn (-1) n j = 1 := by
      rw [← turn_conj]; exact turn_norm one_sq n j
    simp only [this, one_pow, sum_const, card_range, nsmul_eq_mul, mul_one]
    rw [Complex.re_ofReal_mul, Complex.natCast_re]
    ring
  · intro i hi hij
    have hi := mem_range.mp hi
    have hne : turn 1 n i * turn (-1) n j ≠ 1 := by
      intro h
      apply hij
      apply turn_inj hi hj
      have h2 : turn 1 n i * turn (-1) n i = 1 := by
        rw [← turn_conj]; exact turn_norm one_sq n i
      have h3 : turn 1 n i ≠ 0 := left_ne_zero_of_mul_eq_one h2
      exact mul_left_cancel₀ h3 (h2.trans h.symm)
    have hpow : (turn 1 n i * turn (-1) n j) ^ n = 1 := by
      rw [mul_pow, ← turn_pow one_sq, ← turn_pow neg_sq', Nat.mul_comm i, Nat.mul_comm j,
        turn_wrap one_sq hn, turn_wrap neg_sq' hn, one_mul]
    have := geom_sum_mul (turn 1 n i * turn (-1) n j) n
    rw [hpow, sub_self] at this
    rcases mul_eq_zero.mp this with h | h
    · rw [h, mul_zero]
    · exact absurd (sub_eq_zero.mp h) hne
  · intro h; exact absurd (mem_range.mpr hj) h

theorem tabulate_at0 {n : Nat} {f : Nat → ℝ} {i : Nat} (hi : i < n) : at0 (tabulate n f) i = f i := by
  have := (holds_tabulate n f).get hi
  rw [at0_get (holds_tabulate n f).1 i hi] at this
  exact Option.some.inj this

theorem resum_congr {n : Nat} {X Y : Nat → ℂ} (h : ∀ k < n / 2 + 1, X k = Y k) (j : Nat) :
    resum n X j = resum n Y j := by
  rw [resum, resum]
  congr 1
  refine sum_congr rfl fun k hk => ?_
  have := mem_range.mp hk
  rw [mirrored, mirrored]
  split
  · rw [h k (by omega)]
  · rw [h (n - k) (by omega)]

/-- What forward transforms give is what inverse transforms take. -/
theorem answer_back {n : Nat} {x re im y : List ℝ} (hx : x.length = n) :
    ∃ a b, answer n (.forward x re im) = [a, b] ∧ a.length = n / 2 + 1 ∧ b.length = n / 2 + 1 ∧
      answer n (.inverse a b y) = [x.map ((n : ℝ) * ·)] := by
  refine ⟨_, _, rfl, (holds_tabulate _ _).1, (holds_tabulate _ _).1, ?_⟩
  rw [answer]
  congr 1
  symm
  refine Holds.eq ⟨by rw [List.length_map, hx], fun i hi => ?_⟩
  rw [resum_congr (Y := spectrum n (at0 x)) (fun k hk => by
    rw [tabulate_at0 hk, tabulate_at0 hk]), resum_spectrum _ hi, List.getElem?_map, at0_get hx i hi]
  rfl

theorem answer_back_polar {n : Nat} {x m p y : List ℝ} (hx : x.length = n) :
    ∃ a b, answer n (.forwardPolar x m p) = [a, b] ∧ a.length = n / 2 + 1 ∧
      b.length = n / 2 + 1 ∧ answer n (.inversePolar a b y) = [x.map ((n : ℝ) * ·)] := by
  refine ⟨_, _, rfl, (holds_tabulate _ _).1, (holds_tabulate _ _).1, ?_⟩
  rw [answer]
  congr 1
  symm
  refine Holds.eq ⟨by rw [List.length_map, hx], fun i hi => ?_⟩
  rw [resum_congr (Y := spectrum n (at0 x)) (fun k hk => by
    rw [tabulate_at0 hk, tabulate_at0 hk, Complex.norm_mul_exp_arg_mul_I]), resum_spectrum _ hi,
    List.getElem?_map, at0_get hx i hi]
  rfl

theorem run_append {o : Builtin} : ∀ (ks ls : List Call), run o (ks ++ ls) =
    (run o ks).bind fun (o', outs) => (run o' ls).map fun (o'', outs') => (o'', outs ++ outs')
  | [], ls => by simp [run]
  | k :: ks, ls => by
    rw [List.cons_append, run, run]
    cases h : call o k with
    | none => rfl
    | some r =>
      obtain ⟨o1, out⟩ := r
      simp only [Option.bind_eq_bind, Option.bind_some]
      rw [run_append ks ls]
      cases run o1 ks with
      | none => rfl
      | some r2 =>
        obtain ⟨o2, outs⟩ := r2
        simp only [Option.bind_some]
        cases run o2 ls with
        | none => rfl
        | some r3 => rfl

/-- **C80** (there and back).  A frame that is transformed and transformed back is the frame
times the size of the transform, whatever else the FFT object was used for before and in
between. -/
theorem C80_round_trip {b : Nat} (hb : b < 31) {before between : List Call} {x re im y : List ℝ}
    (h1 : ∀ k ∈ before, Fits (2 ^ (b + 1)) k) (h2 : ∀ k ∈ between, Fits (2 ^ (b + 1)) k)
    (hx : x.length = 2 ^ (b + 1)) (hy : y.length = 2 ^ (b + 1)) (hre : re.length = 2 ^ b + 1)
    (him : im.length = 2 ^ b + 1) :
    ∃ o o1 o2 outs outs2 re' im', make (2 ^ (b + 1)) = some o ∧
      run o (before ++ [.forward x re im]) = some (o1, outs ++ [[re', im']]) ∧
      run o1 (between ++ [.inverse re' im' y]) =
        some (o2, outs2 ++ [[x.map ((2 : ℝ) ^ (b + 1) * ·)]]) := by
  have hh : 2 ^ (b + 1) / 2 = 2 ^ b := by rw [pow_succ]; omega
  obtain ⟨o, eo, v⟩ := make_valid hb
  obtain ⟨a, c, ea, la, lc, eb⟩ := answer_back (re := re) (im := im) (y := y) hx
  obtain ⟨o1, e1, v1⟩ := run_spec (ks := before ++ [.forward x re im]) v (by
    intro k hk
    rcases List.mem_append.mp hk with h | h
    · exact h1 k h
    · rw [List.mem_singleton.mp h]; exact ⟨hx, by rw [hh]; exact hre, by rw [hh]; exact him⟩)
  obtain ⟨o2, e2, _⟩ := run_spec (ks := between ++ [.inverse a c y]) v1 (by
    intro k hk
    rcases List.mem_append.mp hk with h | h
    · exact h2 k h
    · rw [List.mem_singleton.mp h]; exact ⟨hy, la, lc⟩)
  refine ⟨o, o1, o2, before.map (answer (2 ^ (b + 1))), between.map (answer (2 ^ (b + 1))), a, c, eo, ?_, ?_⟩
  · rw [e1, List.map_append, List.map_singleton, ea]
  · rw [e2, List.map_append, List.map_singleton, eb]
    norm_num

/-- **C80** (there and back in polar form, as the stretchers do it). -/
theorem C80_polar {b : Nat} (hb : b < 31) {before between : List Call} {x m p y : List ℝ}
    (h1 : ∀ k ∈ before, Fits (2 ^ (b + 1)) k) (h2 : ∀ k ∈ between, Fits (2 ^ (b + 1)) k)
    (hx : x.length = 2 ^ (b + 1)) (hy : y.length = 2 ^ (b + 1)) (hm : m.length = 2 ^ b + 1)
    (hp : p.length = 2 ^ b + 1) :
    ∃ o o1 o2 outs outs2 mag phase, make (2 ^ (b + 1)) = some o ∧
      run o (before ++ [.forwardPolar x m p]) = some (o1, outs ++ [[mag, phase]]) ∧
      run o1 (between ++ [.inversePolar mag phase y]) =
        some (o2, outs2 ++ [[x.map ((2 : ℝ) ^ (b + 1) * ·)]]) := by
  have hh : 2 ^ (b + 1) / 2 = 2 ^ b := by rw [pow_succ]; omega
  obtain ⟨o, eo, v⟩ := make_valid hb
  obtain ⟨a, c, ea, la, lc, eb⟩ := answer_back_polar (m := m) (p := p) (y := y) hx
  obtain ⟨o1, e1, v1⟩ := run_spec (ks := before ++ [.forwardPolar x m p]) v (by
    intro k hk
    rcases List.mem_append.mp hk with h | h
    · exact h1 k h
    · rw [List.mem_singleton.mp h]; exact ⟨hx, by rw [hh]; exact hm, by rw [hh]; exact hp⟩)
  obtain ⟨o2, e2, _⟩ := run_spec (ks := between ++ [.inversePolar a c y]) v1 (by
    intro k hk
    rcases List.mem_append.mp hk with h | h
    · exact h2 k h
    · rw [List.mem_singleton.mp h]; exact ⟨hy, la, lc⟩)
  refine ⟨o, o1, o2, before.map (answer (2 ^ (b + 1))), between.map (answer (2 ^ (b + 1))), a, c, eo, ?_, ?_⟩
  · rw [e1, List.map_append, List.map_singleton, ea]
  · rw [e2, List.map_append, List.map_singleton, eb]
    norm_num

/-- **C80** (there and back, slow transform, any size). -/
theorem C80_dft {n : Nat} (hn : 0 < n) {x re im t0 t1 y : List ℝ} (hx : x.length = n)
    (hre : re.length = n / 2 + 1) (him : im.length = n / 2 + 1) (h0 : t0.length = n)
    (h1 : t1.length = n) (hy : y.length = n) :
    ∃ re' im' t0' t1', dftForward n x re im = some (re', im') ∧
      dftInverse n t0 t1 re' im' y = some (t0', t1', x.map ((n : ℝ) * ·)) := by
  obtain ⟨re', im', e1, a1⟩ := C79_dft_forward hx hre him
  obtain ⟨a, c, ea, la, lc, eb⟩ := answer_back (re := re) (im := im) (y := y) hx
  rw [ea] at a1
  obtain ⟨rfl, rfl⟩ : a = re' ∧ c = im' := by simpa using a1
  obtain ⟨t0', t1', x', e2, _, _, a2⟩ := C79_dft_inverse hn la lc h0 h1 hy
  rw [eb] at a2
  have : x.map ((n : ℝ) * ·) = x' := by simpa using a2
  exact ⟨a, c, t0', t1', e1, by rw [e2, this]⟩

/-! ### Which transform -/

theorem pow_of_and {n : Nat} (hn : 0 < n) (h : n &&& (n - 1) = 0) : ∃ b, n = 2 ^ b := by
  induction n using Nat.strongRecOn with
  | ind n ih =>
    rcases Nat.even_or_odd' n with ⟨m, e | e⟩
    · have hm : 0 < m := by omega
      obtain ⟨b, hb⟩ := ih m (by omega) hm (by
        have h2 : n - 1 = 2 * (m - 1) + 1 := by omega
        have : (n &&& (n - 1)) / 2 = m &&& (m - 1) := by
          rw [h2, e, Nat.and_div_two]
          congr 1 <;> omega
        rw [← this, h])
      exact ⟨b + 1, by rw [e, hb, pow_succ, Nat.mul_comm]⟩
    · have h2 : n - 1 = 2 * m := by omega
      have : (n &&& (n - 1)) / 2 = m := by
        rw [h2, e, Nat.and_div_two]
        have a1 : (2 * m + 1) / 2 = m := by omega
        have a2 : 2 * m / 2 = m := by omega
        rw [a1, a2, Nat.and_self]
      rw [h] at this
      exact ⟨0, by omega⟩

/-- **C79** (choice).  The built-in FFT is only ever used for sizes that it can handle: those
of `C79_builtin`. -/
theorem C79_picked {default : Option Bool} {n : Nat} (hn : 0 < n)
    (h : pickBuiltin default n = true) : ∃ b, n = 2 ^ (b + 1) := by
  have key : (n &&& (n - 1)) = 0 ∧ (n &&& 1) = 0 := by
    unfold pickBuiltin at h
    simp only at h
    split at h
    · split at h
      · simp_all
      · simp_all
    · simp at h
    · simp_all
  obtain ⟨b, hb⟩ := pow_of_and hn key.1
  cases b with
  | zero => rw [hb] at key; simp at key
  | succ b => exact ⟨b, hb⟩

/-! ### Examples -/

/-- Hypotheses of `C79_builtin` and what it says: an impulse at the second of four samples,
after other calls, gives `1`, `-i`, `-1`. -/
example : ∃ o o' outs, make 4 = some o ∧
    run o [.forwardMagnitude [3, 1, 4, 1] [0, 0, 0], .inverse [1, 2, 3] [0, 5, 0] [7, 7, 7, 7],
      .forward [0, 1, 0, 0] [9, 9, 9] [8, 8, 8]] = some (o', outs ++ [[[1, 0, -1], [0, -1, 0]]]) := by
  obtain ⟨o, o', e, e'⟩ := C79_builtin (b := 1) (by omega)
    (ks := [.forwardMagnitude [3, 1, 4, 1] [0, 0, 0], .inverse [1, 2, 3] [0, 5, 0] [7, 7, 7, 7],
      .forward [0, 1, 0, 0] [9, 9, 9] [8, 8, 8]]) (by
      intro k hk
      simp only [List.mem_cons, List.not_mem_nil, or_false] at hk
      rcases hk with h | h | h <;> subst h <;> simp [Fits])
  refine ⟨o, o', [answer 4 (.forwardMagnitude [3, 1, 4, 1] [0, 0, 0]),
    answer 4 (.inverse [1, 2, 3] [0, 5, 0] [7, 7, 7, 7])], e, e'.trans ?_⟩
  have c1 : Real.cos (2 * Real.pi / 4) = 0 := by
    rw [show 2 * Real.pi / 4 = Real.pi / 2 by ring, Real.cos_pi_div_two]
  have s1 : Real.sin (2 * Real.pi / 4) = 1 := by
    rw [show 2 * Real.pi / 4 = Real.pi / 2 by ring, Real.sin_pi_div_two]
  have c2 : Real.cos (2 * (2 * Real.pi / 4)) = -1 := by
    rw [show 2 * (2 * Real.pi / 4) = Real.pi by ring, Real.cos_pi]
  have s2 : Real.sin (2 * (2 * Real.pi / 4)) = 0 := by
    rw [show 2 * (2 * Real.pi / 4) = Real.pi by ring, Real.sin_pi]
  have sp : ∀ k, spectrum 4 (at0 [0, 1, 0, 0]) k = turn 1 4 k := by
    intro k
    rw [spectrum_turn]
    simp [sum_range_succ, at0]
  have h4 : answer 4 (.forward [0, 1, 0, 0] [9, 9, 9] [8, 8, 8]) = [[1, 0, -1], [0, -1, 0]] := by
    simp only [answer, sp]
    simp [tabulate, List.range_succ, turn, c1, s1, c2, s2]
  simp only [List.map_cons, List.map_nil, show (2 : Nat) ^ (1 + 1) = 4 from rfl, h4]
  rfl

/-- Hypotheses of `C80_polar`: a frame of eight samples. -/
example : ∃ o o1 o2 mag phase, make 8 = some o ∧
    run o [.forwardPolar [1, 2, 3, 4, 5, 6, 7, 8] [0, 0, 0, 0, 0] [0, 0, 0, 0, 0]] =
      some (o1, [[mag, phase]]) ∧
    run o1 [.inverseCepstral [1, 1, 2, 3, 5] [0, 0, 0, 0, 0, 0, 0, 0],
      .inversePolar mag phase [0, 0, 0, 0, 0, 0, 0, 0]] =
        some (o2, [answer 8 (.inverseCepstral [1, 1, 2, 3, 5] [0, 0, 0, 0, 0, 0, 0, 0]),
          [[8, 16, 24, 32, 40, 48, 56, 64]]]) := by
  obtain ⟨o, o1, o2, outs, outs2, m, p, e, e1, e2⟩ := C80_polar (b := 2) (by omega)
    (before := []) (between := [.inverseCepstral [1, 1, 2, 3, 5] [0, 0, 0, 0, 0, 0, 0, 0]])
    (x := [1, 2, 3, 4, 5, 6, 7, 8]) (m := [0, 0, 0, 0, 0]) (p := [0, 0, 0, 0, 0])
    (y := [0, 0, 0, 0, 0, 0, 0, 0]) (by simp) (by
      intro k hk
      rw [List.mem_singleton.mp hk]
      simp [Fits]) rfl rfl rfl rfl
  obtain ⟨o', e', v⟩ := make_valid (b := 2) (by omega)
  rw [e] at e'
  obtain rfl : o = o' := by simpa using e'
  obtain ⟨o1', e1', v1⟩ := run_spec (ks := [.forwardPolar [1, 2, 3, 4, 5, 6, 7, 8] [0, 0, 0, 0, 0]
    [0, 0, 0, 0, 0]]) v (by intro k hk; rw [List.mem_singleton.mp hk]; simp [Fits])
  rw [List.nil_append] at e1
  have q1 := e1.symm.trans e1'
  have hm : outs = [] := by
    have := congrArg (fun r => r.map fun s => s.2.length) q1
    simp at this
    exact this
  subst hm
  have hmp : m.length = 5 ∧ p.length = 5 := by
    simp [answer, tabulate] at q1
    obtain ⟨_, h1, h2⟩ := q1
    rw [h1, h2]; simp
  obtain rfl : o1 = o1' := by
    simpa using congrArg (fun r => r.map fun s => s.1) q1
  obtain ⟨o2', e2', _⟩ := run_spec (ks := [.inverseCepstral [1, 1, 2, 3, 5] [0, 0, 0, 0, 0, 0, 0, 0],
      .inversePolar m p [0, 0, 0, 0, 0, 0, 0, 0]]) v1 (by
    intro k hk
    simp only [List.mem_cons, List.not_mem_nil, or_false] at hk
    rcases hk with h | h <;> subst h
    · simp [Fits]
    · exact ⟨rfl, hmp.1, hmp.2⟩)
  refine ⟨o, o1, o2', m, p, e, e1, ?_⟩
  rw [List.singleton_append] at e2
  have q2 := e2.symm.trans e2'
  have h3 : answer 8 (.inversePolar m p [0, 0, 0, 0, 0, 0, 0, 0]) =
      [[8, 16, 24, 32, 40, 48, 56, 64]] := by
    have := congrArg (fun r => r.bind fun s => s.2.getLast?) q2
    simp only [Option.bind_some, List.getLast?_append, List.getLast?_singleton, Option.some_or,
      List.map_cons, List.map_nil, List.getLast?_cons_cons] at this
    rw [show (8 : Nat) = 2 ^ (2 + 1) from rfl, ← Option.some.inj this]
    norm_num
  rw [e2', List.map_cons, List.map_cons, List.map_nil]
  rw [show (2 : Nat) ^ (2 + 1) = 8 from rfl, h3]

/-- Hypotheses of `C80_dft`: an odd size. -/
example : ∃ re' im' t0' t1', dftForward 3 [1, 2, 3] [0, 0] [0, 0] = some (re', im') ∧
    dftInverse 3 [5, 5, 5] [6, 6, 6] re' im' [0, 0, 0] = some (t0', t1', [3, 6, 9]) := by
  obtain ⟨a, b, c, d, e1, e2⟩ := C80_dft (n := 3) (by omega) (x := [1, 2, 3]) (re := [0, 0])
    (im := [0, 0]) (t0 := [5, 5, 5]) (t1 := [6, 6, 6]) (y := [0, 0, 0]) rfl rfl rfl rfl rfl rfl
  refine ⟨a, b, c, d, e1, e2.trans ?_⟩
  norm_num

/-- Sizes the faster engine uses are transformed by the built-in FFT, others slowly. -/
example : pickBuiltin none 2048 = true ∧ pickBuiltin none 1536 = false ∧
    pickBuiltin none 2 = false ∧ pickBuiltin (some true) 2 = true := by decide

end Verif.FFT
