import Verif.Cli
import Mathlib.Algebra.Order.Field.Basic
import Mathlib.Tactic.Linarith
import Mathlib.Tactic.NormNum
/-!
# Lemmas about the command-line utility
-/
namespace Verif.Cli

variable {σ K : Type} [Field K] [LinearOrder K] [IsStrictOrderedRing K]

theorem clamp_range (x : K) : -1 ≤ clamp x ∧ clamp x ≤ 1 := by
  unfold clamp
  split
  · exact ⟨by linarith [zero_le_one (α := K)], le_rfl⟩
  · split
    · exact ⟨le_rfl, by linarith [zero_le_one (α := K)]⟩
    · exact ⟨not_lt.mp (by assumption), not_lt.mp (by assumption)⟩

theorem clamp_same {x : K} (h : -1 ≤ x) (h' : x ≤ 1) : clamp x = x := by
  unfold clamp
  rw [if_neg (not_lt.mpr h'), if_neg (not_lt.mpr h)]

/-! ## Scaling -/

theorem scale_length (ig : Bool) : ∀ (l : List K) (g : K) (cl : Bool), (scale ig g cl l).2.2.length = l.length := by
  intro l
  induction l with
  | nil => intro g cl; rfl
  | cons x l ih =>
    intro g cl
    unfold scale
    simp only
    split
    · simp [ih]
    · split <;> simp [ih]

/-- Once there is clipping, it stays. -/
theorem scale_stays (ig : Bool) : ∀ (l : List K) (g : K), (scale ig g true l).2.1 = true := by
  intro l
  induction l with
  | nil => intro g; rfl
  | cons x l ih =>
    intro g
    unfold scale
    simp only
    split
    · exact ih _
    · split
      · exact ih _
      · exact ih _

/-- Without clipping, the gain stays and no sample is out of range. -/
theorem scale_clean (ig : Bool) : ∀ (l : List K) (g : K) (cl : Bool), (scale ig g cl l).2.1 = false →
    cl = false ∧ (scale ig g cl l).1 = g ∧ (scale ig g cl l).2.2 = l.map (fun x => clamp (g * x)) ∧ (ig = false → ∀ x ∈ l, -1 ≤ g * x ∧ g * x < 1) := by
  intro l
  induction l with
  | nil => intro g cl h; exact ⟨h, rfl, rfl, fun _ x hx => absurd hx (List.not_mem_nil)⟩
  | cons x l ih =>
    intro g cl h
    unfold scale at h ⊢
    simp only at h ⊢
    split at h
    · rename_i hig
      obtain ⟨a, b, c, d⟩ := ih g cl h
      simp only [hig, if_true]
      rw [hig] at b c
      refine ⟨a, b, ?_, fun h => absurd h (by simp)⟩
      rw [c]; rfl
    · rename_i hig
      split at h
      · rw [scale_stays] at h; cases h
      · rename_i hv
        obtain ⟨a, b, c, d⟩ := ih g cl h
        have hig' : ig = false := by simpa using hig
        rw [if_neg hig, if_neg hv]
        have hr : -1 ≤ g * x ∧ g * x < 1 := ⟨not_lt.mp fun h => hv (Or.inr h), not_le.mp fun h => hv (Or.inl h)⟩
        refine ⟨a, b, ?_, fun _ y hy => ?_⟩
        · rw [c, List.map_cons, clamp_same hr.1 hr.2.le]
        · rcases List.mem_cons.mp hy with rfl | hy
          · exact hr
          · exact d hig' y hy

theorem scale_ignoring : ∀ (l : List K) (g : K) (cl : Bool), (scale true g cl l).2.1 = cl := by
  intro l
  induction l with
  | nil => intro g cl; rfl
  | cons x l ih => intro g cl; unfold scale; simp only [if_true]; exact ih g cl

/-- The gain never grows, and clipping lowers it by at least a thousandth. -/
theorem scale_gain (ig : Bool) : ∀ (l : List K) (g : K) (cl : Bool), 0 < g →
    0 < (scale ig g cl l).1 ∧ (scale ig g cl l).1 ≤ g ∧ (cl = false → (scale ig g cl l).2.1 = true → (scale ig g cl l).1 ≤ 999 / 1000 * g) := by
  intro l
  induction l with
  | nil => intro g cl hg; exact ⟨hg, le_rfl, fun h h' => absurd (h.symm.trans h') (by decide)⟩
  | cons x l ih =>
    intro g cl hg
    unfold scale
    simp only
    split
    · exact ih g cl hg
    · split
      · rename_i hv
        have hx : 1 ≤ g * |x| := by
          rcases hv with hv | hv
          · exact le_trans hv (mul_le_mul_of_nonneg_left (le_abs_self x) hg.le)
          · have : 1 < g * (-x) := by linarith
            exact this.le.trans (mul_le_mul_of_nonneg_left (neg_le_abs x) hg.le)
        have hp : 0 < |x| := by
          rcases (abs_nonneg x).lt_or_eq with h | h
          · exact h
          · rw [← h, mul_zero] at hx
            linarith [zero_lt_one (α := K)]
        have hn : 0 < 999 / 1000 / |x| := div_pos (by norm_num) hp
        have hl : 999 / 1000 / |x| ≤ 999 / 1000 * g := by
          rw [div_le_iff₀ hp, mul_assoc]
          have : (0 : K) ≤ 999 / 1000 := by norm_num
          calc (999 / 1000 : K) = 999 / 1000 * 1 := (mul_one _).symm
            _ ≤ 999 / 1000 * (g * |x|) := mul_le_mul_of_nonneg_left hx this
        obtain ⟨a, b, _⟩ := ih (999 / 1000 / |x|) true hn
        refine ⟨a, b.trans (hl.trans ?_), fun _ _ => b.trans hl⟩
        linarith
      · exact ih g cl hg

theorem scaleAll_length (ig : Bool) (g : K) (cl : Bool) (x : Nat → List K) (n k : Nat) : ((scaleAll ig g cl x n).2.2 k).length = if k < n then (x k).length else 0 := by
  induction n with
  | zero => rfl
  | succ n ih =>
    unfold scaleAll
    simp only
    by_cases h : k = n
    · subst h
      rw [if_pos rfl, scale_length, if_pos (Nat.lt_succ_self _)]
    · rw [if_neg h, ih]
      congr 1
      exact propext ⟨fun h => by omega, fun h => by omega⟩

theorem scaleAll_clean (ig : Bool) (g : K) (cl : Bool) (x : Nat → List K) : ∀ (n : Nat), (scaleAll ig g cl x n).2.1 = false →
    cl = false ∧ (scaleAll ig g cl x n).1 = g ∧ ∀ k, k < n → (scaleAll ig g cl x n).2.2 k = (x k).map (fun x => clamp (g * x)) ∧ (ig = false → ∀ y ∈ x k, -1 ≤ g * y ∧ g * y < 1) := by
  intro n
  induction n with
  | zero => intro h; exact ⟨h, rfl, fun k hk => absurd hk (Nat.not_lt_zero _)⟩
  | succ n ih =>
    intro h
    unfold scaleAll at h ⊢
    simp only at h ⊢
    obtain ⟨a, b, c, d⟩ := scale_clean ig _ _ _ h
    obtain ⟨a', b', c'⟩ := ih a
    refine ⟨a', b.trans b', fun k hk => ?_⟩
    rw [b'] at c d
    by_cases h : k = n
    · subst h
      rw [if_pos rfl, b']
      exact ⟨c, d⟩
    · rw [if_neg h]
      exact c' k (by omega)

theorem scaleAll_ignoring (g : K) (cl : Bool) (x : Nat → List K) : ∀ (n : Nat), (scaleAll true g cl x n).2.1 = cl := by
  intro n
  induction n with
  | zero => rfl
  | succ n ih => unfold scaleAll; simp only; rw [scale_ignoring, ih]

theorem scaleAll_gain (ig : Bool) (g : K) (cl : Bool) (x : Nat → List K) (hg : 0 < g) : ∀ (n : Nat), 0 < (scaleAll ig g cl x n).1 ∧ (scaleAll ig g cl x n).1 ≤ g ∧
    (cl = false → (scaleAll ig g cl x n).2.1 = true → (scaleAll ig g cl x n).1 ≤ 999 / 1000 * g) := by
  intro n
  induction n with
  | zero => exact ⟨hg, le_rfl, fun h h' => absurd (h.symm.trans h') (by decide)⟩
  | succ n ih =>
    unfold scaleAll
    simp only
    obtain ⟨a, b, c⟩ := ih
    obtain ⟨a', b', c'⟩ := scale_gain ig (x n) _ (scaleAll ig g cl x n).2.1 a
    refine ⟨a', b'.trans b, fun h h' => ?_⟩
    by_cases hc : (scaleAll ig g cl x n).2.1 = true
    · exact b'.trans (c h hc)
    · refine (c' (by simpa using hc) h').trans ?_
      exact mul_le_mul_of_nonneg_left b (by norm_num)

/-! ## What happens to the stretcher -/

/-- The calls that give the stretcher something. -/
inductive Event (K : Type) where
  | study (x : Nat → List K) (final : Bool)
  | process (x : Nat → List K) (final : Bool)
  | pitch (v : K)
  | keys

/-- History of a stretcher: what it was told and given, and what was retrieved from it.  It gives each channel as many samples as asked for if so many are available. -/
structure Traced (E : Engine σ K) (ch : Nat) where
  log : σ → List (Event K)
  out : σ → Nat → List K
  log_study : ∀ e x f, log (E.study e x f) = log e ++ [.study x f]
  log_process : ∀ e x f, log (E.process e x f) = log e ++ [.process x f]
  log_pitch : ∀ e v, log (E.setPitchScale e v) = log e ++ [.pitch v]
  log_keys : ∀ e, log (E.setKeyFrameMap e) = log e ++ [.keys]
  log_retrieve : ∀ e n, log (E.retrieve e n).1 = log e
  out_study : ∀ e x f c, c < ch → out (E.study e x f) c = out e c
  out_process : ∀ e x f c, c < ch → out (E.process e x f) c = out e c
  out_pitch : ∀ e v c, c < ch → out (E.setPitchScale e v) c = out e c
  out_keys : ∀ e c, c < ch → out (E.setKeyFrameMap e) c = out e c
  out_retrieve : ∀ e n c, c < ch → out (E.retrieve e n).1 c = out e c ++ (E.retrieve e n).2 c
  length : ∀ e (n : Nat) c, (n : Int) ≤ E.available e → c < ch → ((E.retrieve e n).2 c).length = n

/-- None of the calls said that it was the last. -/
def unfinished (l : List (Event K)) : Prop := ∀ x, Event.process x true ∉ l

variable {E : Engine σ K}

theorem pitches_out {ch : Nat} (T : Traced E ch) (shift : K) (countIn : Nat) {c : Nat} (hc : c < ch) : ∀ (m : List (Nat × K)) (e : σ), T.out (pitches E shift countIn e m).1 c = T.out e c := by
  intro m
  induction m with
  | nil => intro e; rfl
  | cons a m ih =>
    intro e
    obtain ⟨f, v⟩ := a
    unfold pitches
    split
    · rw [ih, T.out_pitch _ _ _ hc]
    · rfl

/-- How many of `n` delivered frames are written, when `pre` had come before the last block. -/
def cut (j : Job σ K) (pre n : Nat) (p : Pass σ K) : Nat := if j.realtime && p.final then max pre (min (j.ideal p.countIn) n) else n

/-- The state of a pass while retrieving: `L` frames were retrieved, `pre` of those written came before the last block. -/
structure Inv (j : Job σ K) (T : Traced E j.channels) (delay : Nat) (ig : Bool) (g : K) (pre L : Nat) (p : Pass σ K) : Prop where
  all : ∀ c, c < j.channels → (T.out p.engine c).length = L
  drop : p.toDrop = delay - L
  pre_le : pre ≤ L - delay
  free : (j.realtime && p.final) = false → p.countOut = L - delay
  fits : (j.realtime && p.final) = true → pre ≤ j.ideal p.countIn → p.countOut = min (j.ideal p.countIn) (L - delay)
  over : (j.realtime && p.final) = true → j.ideal p.countIn < pre → j.ideal p.countIn ≤ p.countOut
  text : p.clipping = false → p.gain = g ∧ ∀ c, c < j.channels → p.written c = (((T.out p.engine c).drop delay).take (cut j pre (L - delay) p)).map (fun x => clamp (g * x)) ∧
    (ig = false → ∀ y ∈ ((T.out p.engine c).drop delay).take (cut j pre (L - delay) p), -1 ≤ g * y ∧ g * y < 1)

theorem Inv.dropOnce {j : Job σ K} {T : Traced E j.channels} {delay : Nat} {ig : Bool} {g : K} {pre L : Nat} {p : Pass σ K} (h : Inv j T delay ig g pre L p) {n : Nat}
    (hn : (n : Int) ≤ E.available p.engine) (hd : n ≤ p.toDrop) : Inv j T delay ig g pre (L + n) { p with engine := (E.retrieve p.engine n).1, toDrop := p.toDrop - n } := by
  have hL : L + n ≤ delay ∨ n = 0 := by
    have := h.drop
    omega
  have e : L + n - delay = L - delay := by
    have := h.drop
    omega
  have hout : ∀ c, c < j.channels → (T.out (E.retrieve p.engine n).1 c).drop delay = (T.out p.engine c).drop delay := by
    intro c hc
    have h1 := h.all c hc
    have h2 := T.length p.engine n c hn hc
    rw [T.out_retrieve _ _ _ hc]
    rcases hL with hL | rfl
    · rw [List.drop_of_length_le (by rw [List.length_append]; omega), List.drop_of_length_le (by omega)]
    · rw [List.length_eq_zero_iff.mp h2, List.append_nil]
  refine ⟨?_, ?_, ?_, ?_, ?_, ?_, ?_⟩
  · intro c hc
    show (T.out (E.retrieve p.engine n).1 c).length = _
    rw [T.out_retrieve _ _ _ hc, List.length_append, h.all c hc, T.length _ _ _ hn hc]
  · have := h.drop
    show p.toDrop - n = delay - (L + n)
    omega
  · rw [e]; exact h.pre_le
  · rw [e]; exact h.free
  · rw [e]; exact h.fits
  · exact h.over
  · intro hc
    obtain ⟨a, b⟩ := h.text hc
    refine ⟨a, fun c hc => ?_⟩
    obtain ⟨b1, b2⟩ := b c hc
    rw [e]
    show p.written c = (((T.out (E.retrieve p.engine n).1 c).drop delay).take (cut j pre (L - delay) p)).map _ ∧ (ig = false → ∀ y ∈ ((T.out (E.retrieve p.engine n).1 c).drop delay).take (cut j pre (L - delay) p), _)
    rw [hout c hc]
    exact ⟨b1, b2⟩

/-- What comes to what is there, and where it is cut off. -/
theorem kept_cut {j : Job σ K} {T : Traced E j.channels} {delay : Nat} {ig : Bool} {g : K} {pre L : Nat} {p : Pass σ K} (h : Inv j T delay ig g pre L p) (hd : p.toDrop = 0) {n : Nat} (hn : 0 < n) :
    cut j pre (L + n - delay) p = cut j pre (L - delay) p + (kept j p n).toNat ∧ (kept j p n).toNat ≤ n ∧ (0 < (kept j p n).toNat → cut j pre (L - delay) p = L - delay) ∧
      ((j.realtime && p.final) = false → (p.countOut + kept j p n).toNat = L + n - delay) ∧
      ((j.realtime && p.final) = true → pre ≤ j.ideal p.countIn → (p.countOut + kept j p n).toNat = min (j.ideal p.countIn) (L + n - delay)) ∧
      ((j.realtime && p.final) = true → j.ideal p.countIn < pre → j.ideal p.countIn ≤ (p.countOut + kept j p n).toNat) := by
  have hdL := h.drop
  have hp := h.pre_le
  rw [hd] at hdL
  unfold cut kept
  by_cases ht : (j.realtime && p.final) = true
  · rw [if_pos ht, if_pos ht, if_pos ht]
    have e : ¬ (j.realtime && p.final) = false := by simp [ht]
    by_cases hI : pre ≤ j.ideal p.countIn
    · have hc := h.fits ht hI
      refine ⟨?_, ?_, ?_, fun h => absurd h e, fun _ _ => ?_, fun _ h => by omega⟩ <;> split <;> omega
    · have hc := h.over ht (by omega)
      refine ⟨?_, ?_, ?_, fun h => absurd h e, fun _ h => absurd h hI, fun _ _ => ?_⟩ <;> split <;> omega
  · have hf : (j.realtime && p.final) = false := by simpa using ht
    rw [if_neg ht, if_neg ht, if_neg ht]
    have hc := h.free hf
    refine ⟨by omega, by omega, fun _ => rfl, fun _ => by omega, fun h => absurd h ht, fun h => absurd h ht⟩

theorem Inv.takeOnce {j : Job σ K} {T : Traced E j.channels} {delay : Nat} {ig : Bool} {g : K} {pre L : Nat} {p : Pass σ K} (h : Inv j T delay ig g pre L p) (ha : E.available p.engine > 0) :
    ∃ L', L ≤ L' ∧ Inv j T delay ig g pre L' (takeOnce E j ig (E.available p.engine).toNat p) := by
  unfold Cli.takeOnce
  simp only
  have hb : 0 < bs := by decide
  split
  · rename_i hd
    exact ⟨_, Nat.le_add_right _ _, h.dropOnce (n := min p.toDrop (min (E.available p.engine).toNat bs)) (by omega) (by omega)⟩
  · rename_i hd
    have hn : 0 < min (E.available p.engine).toNat bs := by omega
    have hna : ((min (E.available p.engine).toNat bs : Nat) : Int) ≤ E.available p.engine := by omega
    generalize min (E.available p.engine).toNat bs = n at hn hna
    obtain ⟨k1, k2, k3, k4, k5, k6⟩ := kept_cut h (by omega) hn
    have hdL := h.drop
    refine ⟨L + n, Nat.le_add_right _ _, ⟨?_, ?_, ?_, k4, k5, k6, ?_⟩⟩
    · intro c hc
      show (T.out (E.retrieve p.engine n).1 c).length = _
      rw [T.out_retrieve _ _ _ hc, List.length_append, h.all c hc, T.length _ _ _ hna hc]
    · show p.toDrop = delay - (L + n)
      omega
    · have := h.pre_le
      omega
    · intro hcl
      simp only at hcl
      obtain ⟨s1, s2, s3⟩ := scaleAll_clean _ _ _ _ _ hcl
      obtain ⟨a, b⟩ := h.text s1
      refine ⟨s2.trans a, fun c hc => ?_⟩
      obtain ⟨s4, s5⟩ := s3 c hc
      obtain ⟨b1, b2⟩ := b c hc
      rw [a] at s4 s5
      have hout : ((T.out (E.retrieve p.engine n).1 c).drop delay).take (cut j pre (L + n - delay) p) =
          ((T.out p.engine c).drop delay).take (cut j pre (L - delay) p) ++ ((E.retrieve p.engine n).2 c).take (kept j p n).toNat := by
        have h1 := h.all c hc
        rw [T.out_retrieve _ _ _ hc, List.drop_append_of_le_length (by omega), k1]
        by_cases hz : (kept j p n).toNat = 0
        · rw [hz, Nat.add_zero, List.take_zero, List.append_nil]
          by_cases hle : cut j pre (L - delay) p ≤ L - delay
          · rw [List.take_append_of_le_length (by rw [List.length_drop]; omega)]
          · exfalso
            have := h.pre_le
            unfold cut at hle
            split at hle <;> omega
        · rw [k3 (by omega), List.take_append, List.length_drop, h1, show L - delay + (kept j p n).toNat - (L - delay) = (kept j p n).toNat by omega,
            List.take_of_length_le (l := (T.out p.engine c).drop delay) (by rw [List.length_drop]; omega), List.take_of_length_le (l := (T.out p.engine c).drop delay) (by rw [List.length_drop]; omega)]
      show p.written c ++ (scaleAll _ _ _ _ _).2.2 c = (((T.out (E.retrieve p.engine n).1 c).drop delay).take (cut j pre (L + n - delay) p)).map _ ∧
        (ig = false → ∀ y ∈ ((T.out (E.retrieve p.engine n).1 c).drop delay).take (cut j pre (L + n - delay) p), _)
      rw [hout, List.map_append, ← b1, a, s4]
      refine ⟨rfl, fun hig y hy => ?_⟩
      rcases List.mem_append.mp hy with hy | hy
      · exact b2 hig y hy
      · exact s5 hig y hy

theorem takeOnce_kept (j : Job σ K) (ig : Bool) (n : Nat) (p : Pass σ K) : (takeOnce E j ig n p).frame = p.frame ∧ (takeOnce E j ig n p).countIn = p.countIn ∧ (takeOnce E j ig n p).map = p.map ∧
    (takeOnce E j ig n p).final = p.final := by
  unfold takeOnce
  simp only
  split <;> exact ⟨rfl, rfl, rfl, rfl⟩

theorem takeOnce_log {j : Job σ K} (T : Traced E j.channels) (ig : Bool) (n : Nat) (p : Pass σ K) : T.log (takeOnce E j ig n p).engine = T.log p.engine := by
  unfold takeOnce
  simp only
  split <;> exact T.log_retrieve _ _

/-- What the retrieving loop leaves alone. -/
theorem drain_kept {j : Job σ K} {ig : Bool} : ∀ {fuel : Nat} {p q : Pass σ K}, drain E j ig fuel p = some q → q.frame = p.frame ∧ q.countIn = p.countIn ∧ q.map = p.map ∧ q.final = p.final ∧
    ¬ E.available q.engine > 0 ∧ ∀ T : Traced E j.channels, T.log q.engine = T.log p.engine := by
  intro fuel
  induction fuel with
  | zero =>
    intro p q h
    unfold drain at h
    split at h
    · cases h
    · cases h; exact ⟨rfl, rfl, rfl, rfl, by assumption, fun _ => rfl⟩
  | succ fuel ih =>
    intro p q h
    unfold drain at h
    split at h
    · obtain ⟨a, b, c, d, e, f⟩ := ih h
      obtain ⟨a', b', c', d'⟩ := takeOnce_kept (E := E) j ig (E.available p.engine).toNat p
      exact ⟨a.trans a', b.trans b', c.trans c', d.trans d', e, fun T => (f T).trans (takeOnce_log T _ _ _)⟩
    · cases h; exact ⟨rfl, rfl, rfl, rfl, by assumption, fun _ => rfl⟩

theorem Inv.drain {j : Job σ K} {T : Traced E j.channels} {delay : Nat} {ig : Bool} {g : K} {pre : Nat} : ∀ {fuel L : Nat} {p q : Pass σ K}, Inv j T delay ig g pre L p →
    drain E j ig fuel p = some q → ∃ L', L ≤ L' ∧ Inv j T delay ig g pre L' q := by
  intro fuel
  induction fuel with
  | zero =>
    intro L p q hi h
    unfold Cli.drain at h
    split at h
    · cases h
    · cases h; exact ⟨L, le_rfl, hi⟩
  | succ fuel ih =>
    intro L p q hi h
    unfold Cli.drain at h
    split at h
    · rename_i ha
      obtain ⟨L1, h1, h2⟩ := hi.takeOnce ha
      obtain ⟨L2, h3, h4⟩ := ih h2 h
      exact ⟨L2, h1.trans h3, h4⟩
    · cases h; exact ⟨L, le_rfl, hi⟩

/-! ## A pass without clipping -/

/-- Between rounds, with more to come. -/
theorem Inv.feed {j : Job σ K} {T : Traced E j.channels} {delay : Nat} {ig : Bool} {g : K} {pre L : Nat} {p : Pass σ K} (h : Inv j T delay ig g pre L p) (hf : p.final = false) :
    Inv j T delay ig g (L - delay) L (feed E j p) := by
  have hr : (j.realtime && p.final) = false := by simp [hf]
  have hc := h.free hr
  have ho : ∀ c, c < j.channels → T.out (Cli.feed E j p).engine c = T.out p.engine c := by
    intro c hc
    show T.out (E.process _ _ _) c = _
    rw [T.out_process _ _ _ _ hc, pitches_out T _ _ hc]
  refine ⟨fun c hc => by rw [ho c hc]; exact h.all c hc, h.drop, le_rfl, fun _ => hc, fun _ hI => ?_, fun _ hI => ?_, ?_⟩
  · show p.countOut = _
    omega
  · show _ ≤ p.countOut
    omega
  · intro hcl
    obtain ⟨a, b⟩ := h.text hcl
    refine ⟨a, fun c hc => ?_⟩
    have e : cut j (L - delay) (L - delay) (Cli.feed E j p) = cut j pre (L - delay) p := by
      have e1 : cut j pre (L - delay) p = L - delay := by unfold cut; rw [if_neg (by simp [hf])]
      rw [e1]
      unfold cut
      split <;> omega
    rw [ho c hc, e]
    exact b c hc

theorem feed_log {j : Job σ K} (T : Traced E j.channels) (p : Pass σ K) : ∃ l, T.log (feed E j p).engine = T.log p.engine ++ l ∧ ((feed E j p).final = false → unfinished l) := by
  have hp : ∀ (m : List (Nat × K)) (e : σ), ∃ l, T.log (pitches E j.frequencyshift p.countIn e m).1 = T.log e ++ l ∧ unfinished l := by
    intro m
    induction m with
    | nil => intro e; exact ⟨[], (List.append_nil _).symm, fun _ => List.not_mem_nil⟩
    | cons a m ih =>
      intro e
      obtain ⟨f, v⟩ := a
      unfold pitches
      split
      · obtain ⟨l, hl, hu⟩ := ih (E.setPitchScale e (j.frequencyshift * v))
        refine ⟨_, by rw [hl, T.log_pitch, List.append_assoc], ?_⟩
        intro x hx
        rcases List.mem_append.mp hx with hx | hx
        · cases List.mem_singleton.mp hx
        · exact hu x hx
      · exact ⟨[], (List.append_nil _).symm, fun _ => List.not_mem_nil⟩
  obtain ⟨l, hl, hu⟩ := hp p.map p.engine
  refine ⟨_, by show T.log (E.process _ _ _) = _; rw [T.log_process, hl, List.append_assoc], ?_⟩
  intro hf x hx
  rcases List.mem_append.mp hx with hx | hx
  · exact hu x hx
  · have := (Event.process.inj (List.mem_singleton.mp hx)).2
    exact absurd (this.trans hf) (by decide)

/-- A finished pass: all frames that were retrieved after the first `delay` ones are written, cut off where `cut` says; `e` is the stretcher before the last block. -/
theorem Inv.loop {j : Job σ K} {T : Traced E j.channels} {delay : Nat} {ig : Bool} {g : K} {fuel : Nat} : ∀ {rounds pre L : Nat} {p d : Pass σ K}, Inv j T delay ig g pre L p → p.final = false → unfinished (T.log p.engine) →
    loop E j ig fuel rounds p = some (.done d) → ∃ (q : Pass σ K) (pre L' : Nat), Inv j T delay ig g pre L' d ∧ d.final = true ∧ d.clipping = false ∧ ¬ E.available d.engine > 0 ∧
      d.countIn = (Cli.feed E j q).countIn ∧ T.log d.engine = T.log (Cli.feed E j q).engine ∧ unfinished (T.log q.engine) ∧ (∀ c, c < j.channels → (T.out q.engine c).length - delay = pre) := by
  intro rounds
  induction rounds with
  | zero => intro pre L p d _ _ _ h; cases h
  | succ rounds ih =>
    intro pre L p d hi hf hu h
    unfold Cli.loop at h
    simp only at h
    obtain ⟨q, h1, h2⟩ := Option.bind_eq_some_iff.mp h
    obtain ⟨_, k2, k3, k4, k5, k6⟩ := drain_kept h1
    obtain ⟨L1, _, hq⟩ := (hi.feed hf).drain h1
    split at h2
    · cases h2
    · rename_i hcl
      split at h2
      · rename_i hfin
        cases h2
        exact ⟨p, L - delay, L1, ⟨hq.all, hq.drop, hq.pre_le, hq.free, hq.fits, hq.over, hq.text⟩, hfin, by simpa using hcl, k5, k2, k6 T, hu, fun c hc => by rw [hi.all c hc]⟩
      · rename_i hfin
        have hq' : Inv j T delay ig g (L - delay) L1 { q with frame := p.frame + ((Cli.feed E j p).countIn - p.countIn) } := ⟨hq.all, hq.drop, hq.pre_le, hq.free, hq.fits, hq.over, hq.text⟩
        obtain ⟨l, hl, hl'⟩ := feed_log T p
        refine ih hq' (by simpa using hfin) ?_ h2
        intro x hx
        rw [show T.log ({ q with frame := p.frame + ((Cli.feed E j p).countIn - p.countIn) } : Pass σ K).engine = T.log q.engine from rfl, k6 T, hl] at hx
        rcases List.mem_append.mp hx with hx | hx
        · exact hu x hx
        · exact hl' (by rw [← k4]; simpa using hfin) x hx

/-! ## The gain -/

/-- The gain in a pass begun with `g`. -/
def Gain (g : K) (p : Pass σ K) : Prop := 0 < p.gain ∧ p.gain ≤ g ∧ (p.clipping = true → p.gain ≤ 999 / 1000 * g) ∧ (p.clipping = false → p.gain = g)

theorem Gain.takeOnce {j : Job σ K} {ig : Bool} {g : K} {p : Pass σ K} (h : Gain g p) (n : Nat) : Gain g (takeOnce E j ig n p) := by
  unfold Cli.takeOnce
  simp only
  split
  · exact h
  · obtain ⟨h1, h2, h3, h4⟩ := h
    obtain ⟨a, b, c⟩ := scaleAll_gain ig p.gain p.clipping (fun c => ((E.retrieve p.engine (min n bs)).2 c).take (kept j p (min n bs)).toNat) h1 j.channels
    refine ⟨a, b.trans h2, fun hc => ?_, fun hc => ?_⟩
    · by_cases hcl : p.clipping = true
      · exact b.trans (h3 hcl)
      · exact (c (by simpa using hcl) hc).trans (mul_le_mul_of_nonneg_left h2 (by norm_num))
    · obtain ⟨x, y, _⟩ := scaleAll_clean _ _ _ _ _ hc
      exact y.trans (h4 x)

theorem Gain.drain {j : Job σ K} {ig : Bool} {g : K} : ∀ {fuel : Nat} {p q : Pass σ K}, Gain g p → drain E j ig fuel p = some q → Gain g q := by
  intro fuel
  induction fuel with
  | zero =>
    intro p q hi h
    unfold Cli.drain at h
    split at h
    · cases h
    · cases h; exact hi
  | succ fuel ih =>
    intro p q hi h
    unfold Cli.drain at h
    split at h
    · exact ih (hi.takeOnce _) h
    · cases h; exact hi

theorem Gain.loop {j : Job σ K} {ig : Bool} {g : K} {fuel : Nat} : ∀ {rounds : Nat} {p d : Pass σ K}, Gain g p → loop E j ig fuel rounds p = some (.clipped d) → Gain g d ∧ d.clipping = true := by
  intro rounds
  induction rounds with
  | zero => intro p d _ h; cases h
  | succ rounds ih =>
    intro p d hi h
    unfold Cli.loop at h
    simp only at h
    obtain ⟨q, h1, h2⟩ := Option.bind_eq_some_iff.mp h
    have hq := Gain.drain (p := feed E j p) (g := g) hi h1
    split at h2
    · rename_i hc; cases h2; exact ⟨hq, hc⟩
    · split at h2
      · cases h2
      · exact ih (p := { q with frame := p.frame + ((feed E j p).countIn - p.countIn) }) hq h2

/-- With clipping ignored there is none. -/
theorem takeOnce_ignoring (j : Job σ K) (n : Nat) (p : Pass σ K) : (takeOnce E j true n p).clipping = p.clipping := by
  unfold takeOnce
  simp only
  split
  · rfl
  · exact scaleAll_ignoring _ _ _ _

theorem drain_ignoring {j : Job σ K} : ∀ {fuel : Nat} {p q : Pass σ K}, drain E j true fuel p = some q → q.clipping = p.clipping := by
  intro fuel
  induction fuel with
  | zero =>
    intro p q h
    unfold drain at h
    split at h
    · cases h
    · cases h; rfl
  | succ fuel ih =>
    intro p q h
    unfold drain at h
    split at h
    · exact (ih h).trans (takeOnce_ignoring _ _ _)
    · cases h; rfl

theorem loop_ignoring {j : Job σ K} {fuel : Nat} : ∀ {rounds : Nat} {p d : Pass σ K}, p.clipping = false → loop E j true fuel rounds p ≠ some (.clipped d) := by
  intro rounds
  induction rounds with
  | zero => intro p d _ h; cases h
  | succ rounds ih =>
    intro p d hc h
    unfold loop at h
    simp only at h
    obtain ⟨q, h1, h2⟩ := Option.bind_eq_some_iff.mp h
    have hq : q.clipping = false := (drain_ignoring h1).trans hc
    rw [if_neg (by simp [hq])] at h2
    split at h2
    · cases h2
    · exact ih (p := { q with frame := p.frame + ((feed E j p).countIn - p.countIn) }) hq h2

/-! ## Passes that differ in gain only -/

/-- The same but for gain, clipping and the values written. -/
structure Alike (p q : Pass σ K) : Prop where
  engine : p.engine = q.engine
  frame : p.frame = q.frame
  countIn : p.countIn = q.countIn
  countOut : p.countOut = q.countOut
  toDrop : p.toDrop = q.toDrop
  map : p.map = q.map
  final : p.final = q.final
  written : ∀ c, (p.written c).length = (q.written c).length

theorem Alike.takeOnce {j : Job σ K} {p q : Pass σ K} (h : Alike p q) (ig ig' : Bool) (n : Nat) : Alike (takeOnce E j ig n p) (takeOnce E j ig' n q) := by
  unfold Cli.takeOnce
  simp only
  rw [h.toDrop]
  split
  · exact ⟨by simp only [h.engine], h.frame, h.countIn, h.countOut, rfl, h.map, h.final, h.written⟩
  · have hk : kept j p (min n bs) = kept j q (min n bs) := by
      unfold kept
      rw [h.final, h.countOut, h.countIn]
    refine ⟨by simp only [h.engine], h.frame, h.countIn, by simp only [h.countOut, hk], rfl, h.map, h.final, fun c => ?_⟩
    simp only [List.length_append, h.written, scaleAll_length, hk, h.engine]

theorem Alike.drain {j : Job σ K} {ig ig' : Bool} : ∀ {fuel : Nat} {p q p' q' : Pass σ K}, Alike p q → drain E j ig fuel p = some p' → drain E j ig' fuel q = some q' → Alike p' q' := by
  intro fuel
  induction fuel with
  | zero =>
    intro p q p' q' hi h h'
    unfold Cli.drain at h h'
    rw [hi.engine] at h
    split at h
    · cases h
    · rw [if_neg (by assumption)] at h'
      cases h; cases h'; exact hi
  | succ fuel ih =>
    intro p q p' q' hi h h'
    unfold Cli.drain at h h'
    rw [hi.engine] at h
    split at h
    · rw [if_pos (by assumption)] at h'
      exact ih (hi.takeOnce ig ig' _) h h'
    · rw [if_neg (by assumption)] at h'
      cases h; cases h'; exact hi

theorem Alike.feed {j : Job σ K} {p q : Pass σ K} (h : Alike p q) : Alike (feed E j p) (feed E j q) := by
  unfold Cli.feed
  simp only
  refine ⟨by simp only [h.engine, h.countIn, h.map, h.frame], h.frame, ?_, h.countOut, h.toDrop, ?_, ?_, h.written⟩ <;> simp only [h.engine, h.countIn, h.map, h.frame]

theorem written_drain {j : Job σ K} {ig : Bool} (c : Nat) : ∀ {fuel : Nat} {p q : Pass σ K}, drain E j ig fuel p = some q → (p.written c).length ≤ (q.written c).length := by
  intro fuel
  induction fuel with
  | zero =>
    intro p q h
    unfold drain at h
    split at h
    · cases h
    · cases h; exact le_rfl
  | succ fuel ih =>
    intro p q h
    unfold drain at h
    split at h
    · refine le_trans ?_ (ih h)
      unfold takeOnce
      simp only
      split
      · exact le_rfl
      · simp only [List.length_append]; omega
    · cases h; exact le_rfl

theorem written_loop {j : Job σ K} {ig : Bool} {fuel : Nat} (c : Nat) : ∀ {rounds : Nat} {p d : Pass σ K}, loop E j ig fuel rounds p = some (.done d) → (p.written c).length ≤ (d.written c).length := by
  intro rounds
  induction rounds with
  | zero => intro p d h; cases h
  | succ rounds ih =>
    intro p d h
    unfold loop at h
    simp only at h
    obtain ⟨q, h1, h2⟩ := Option.bind_eq_some_iff.mp h
    have hq := written_drain (p := feed E j p) c h1
    split at h2
    · cases h2
    · split at h2
      · cases h2; exact hq
      · exact le_trans hq (ih (p := { q with frame := p.frame + ((feed E j p).countIn - p.countIn) }) h2)

/-- A pass that ends with clipping has written no more than one that ends well. -/
theorem Alike.loop {j : Job σ K} {ig ig' : Bool} {fuel : Nat} (c : Nat) : ∀ {rounds : Nat} {p q d d' : Pass σ K}, Alike p q → loop E j ig fuel rounds p = some (.clipped d) →
    loop E j ig' fuel rounds q = some (.done d') → (d.written c).length ≤ (d'.written c).length := by
  intro rounds
  induction rounds with
  | zero => intro p q d d' _ h; cases h
  | succ rounds ih =>
    intro p q d d' hi h h'
    unfold Cli.loop at h h'
    simp only at h h'
    obtain ⟨r, h1, h2⟩ := Option.bind_eq_some_iff.mp h
    obtain ⟨s, h3, h4⟩ := Option.bind_eq_some_iff.mp h'
    have ha := Alike.drain (hi.feed (j := j)) h1 h3
    have e : p.frame + ((Cli.feed E j p).countIn - p.countIn) = q.frame + ((Cli.feed E j q).countIn - q.countIn) := by
      rw [hi.frame, hi.countIn, (hi.feed (E := E) (j := j)).countIn]
    split at h4
    · cases h4
    · split at h4
      · cases h4
        split at h2
        · cases h2; exact (ha.written c).le
        · rw [ha.final, if_pos (by assumption)] at h2
          cases h2
      · split at h2
        · cases h2
          exact (ha.written c).le.trans (written_loop (p := { s with frame := q.frame + ((Cli.feed E j q).countIn - q.countIn) }) c h4)
        · rw [if_neg (by rw [ha.final]; assumption), e] at h2
          exact ih (p := { r with frame := q.frame + ((Cli.feed E j q).countIn - q.countIn) }) (q := { s with frame := q.frame + ((Cli.feed E j q).countIn - q.countIn) })
            ⟨ha.engine, rfl, ha.countIn, ha.countOut, ha.toDrop, ha.map, ha.final, ha.written⟩ h2 h4

end Verif.Cli
