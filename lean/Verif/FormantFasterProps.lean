import Verif.FormantProps
/-! # Formants in the faster engine (C118) -/
namespace Verif.Formant
open Verif.FFT
open Verif.MovingMedian (setAt)
open Finset

/-- The bin a bin takes its envelope from. -/
def source (pitchScale : Rat) (t : Nat) : Nat := (Round.lrint (t * pitchScale)).toNat

theorem source_up {x : Rat} (h : 1 ≤ x) (t : Nat) : t ≤ source x t := by
  have h1 : ((t : Int) : Rat) ≤ t * x := by
    push_cast
    have : (0 : Rat) ≤ t := by positivity
    nlinarith
  have := Round.int_le_lrint h1
  unfold source
  omega

theorem source_down {x : Rat} (h0 : 0 ≤ x) (h : x ≤ 1) (t : Nat) : source x t ≤ t := by
  have h1 : t * x ≤ ((t : Int) : Rat) := by
    push_cast
    have : (0 : Rat) ≤ t := by positivity
    nlinarith
  have := Round.lrint_le_int h1
  unfold source
  omega

theorem lowered_holds {l : List ℝ} {h : Nat} {e : Nat → ℝ} (he : Holds l (h + 1) e) {x : Rat} (hx : 1 ≤ x) :
    ∃ l', lowered h x l = some l' ∧ Holds l' (h + 1) (fun t => if source x t > h then 0 else e (source x t)) := by
  obtain ⟨l', e1, h1⟩ := times_inv (n := h + 1) (s := l) (body := fun target l =>
    let source := (Round.lrint (target * x)).toNat
    if source > h then setAt l target 0
    else do
      let v ← l[source]?
      setAt l target v)
    (fun j m => Holds m (h + 1) (fun t => if t < j then (if source x t > h then 0 else e (source x t)) else e t)) (by
      intro j hj m hm
      have up := source_up hx j
      by_cases hs : source x j > h
      · obtain ⟨m', e2, h2⟩ := hm.set hj 0
        refine ⟨m', ?_, h2.congr fun t ht => ?_⟩
        · have : (Round.lrint (j * x)).toNat > h := hs
          simp only [if_pos this, e2]
        · by_cases htj : t = j
          · subst htj
            rw [Function.update_self, if_pos (by omega), if_pos hs]
          · rw [Function.update_of_ne htj]
            by_cases hlt : t < j
            · rw [if_pos hlt, if_pos (show t < j + 1 by omega)]
            · rw [if_neg hlt, if_neg (show ¬ t < j + 1 by omega)]
      · have hg := hm.get (show source x j < h + 1 by omega)
        rw [if_neg (show ¬ source x j < j by omega)] at hg
        obtain ⟨m', e2, h2⟩ := hm.set hj (e (source x j))
        refine ⟨m', ?_, h2.congr fun t ht => ?_⟩
        · have : ¬ (Round.lrint (j * x)).toNat > h := hs
          have hg : m[(Round.lrint (j * x)).toNat]? = some (e (source x j)) := hg
          simp only [if_neg this, hg, e2, Option.bind_eq_bind, Option.bind_some]
        · by_cases htj : t = j
          · subst htj
            rw [Function.update_self, if_pos (by omega), if_neg hs]
          · rw [Function.update_of_ne htj]
            by_cases hlt : t < j
            · rw [if_pos hlt, if_pos (show t < j + 1 by omega)]
            · rw [if_neg hlt, if_neg (show ¬ t < j + 1 by omega)]) (he.congr fun t _ => by rw [if_neg (by omega)])
  exact ⟨l', e1, h1.congr fun t ht => by rw [if_pos ht]⟩

theorem raised_holds {l : List ℝ} {h : Nat} {e : Nat → ℝ} (he : Holds l (h + 1) e) {x : Rat} (h0 : 0 ≤ x) (hx : x ≤ 1) :
    ∃ l', raised h x l = some l' ∧ Holds l' (h + 1) (fun t => if t = h then e h else e (source x t)) := by
  obtain ⟨l', e1, h1⟩ := times_inv (n := h) (s := l) (body := fun j l => do
    let target := h - j - 1
    let v ← l[(Round.lrint (target * x)).toNat]?
    setAt l target v)
    (fun j m => Holds m (h + 1) (fun t => if h - j ≤ t ∧ t < h then e (source x t) else e t)) (by
      intro j hj m hm
      have down := source_down h0 hx (h - j - 1)
      have hg := hm.get (show source x (h - j - 1) < h + 1 by omega)
      rw [if_neg (by omega)] at hg
      obtain ⟨m', e2, h2⟩ := hm.set (show h - j - 1 < h + 1 by omega) (e (source x (h - j - 1)))
      refine ⟨m', ?_, h2.congr fun t ht => ?_⟩
      · have hg : m[(Round.lrint ((h - j - 1 : Nat) * x)).toNat]? = some (e (source x (h - j - 1))) := hg
        simp only [hg, e2, Option.bind_eq_bind, Option.bind_some]
      · by_cases htj : t = h - j - 1
        · subst htj
          rw [Function.update_self, if_pos (by omega)]
        · rw [Function.update_of_ne htj]
          by_cases hlt : h - j ≤ t ∧ t < h
          · rw [if_pos hlt, if_pos (by omega)]
          · rw [if_neg hlt, if_neg (by omega)]) (he.congr fun t _ => by rw [if_neg (by omega)])
  refine ⟨l', e1, h1.congr fun t ht => ?_⟩
  by_cases hh : t = h
  · rw [if_pos hh, if_neg (by omega), hh]
  · rw [if_neg hh, if_pos (by omega)]

/-- The envelope a bin is given, from that of the frame. -/
noncomputable def given (h : Nat) (e : Nat → ℝ) (pitchScale : Rat) (t : Nat) : ℝ :=
  if 1 < pitchScale then (if source pitchScale t > h then 0 else e (source pitchScale t)) else if t = h then e h else e (source pitchScale t)

/-- The envelope of the faster engine: the square root of the smoothed spectrum. -/
noncomputable def rootEnvelope (n q : Nat) (mag : List ℝ) (k : Nat) : ℝ := Real.sqrt (Real.exp (smoothed n q (logMag mag) k))

theorem root_eq {n q : Nat} (hq : 2 ≤ q) (hn : q ≤ n) (mag : List ℝ) (k : Nat) : Real.exp (half n q (logMag mag) k) = rootEnvelope n q mag k := by
  rw [rootEnvelope, ← half_smoothed hq hn]
  rw [show 2 * half n q (logMag mag) k = half n q (logMag mag) k + half n q (logMag mag) k by ring, Real.exp_add, Real.sqrt_mul_self (Real.exp_pos _).le]

theorem chunk_holds {b rate : Nat} {c : Chunk} (hv : Valid b c.fft) (hm : c.mag.length = 2 ^ b + 1) (hd : c.dblbuf.length = 2 ^ (b + 1)) (he : c.envelope.length = 2 ^ b + 1) (h2 : 2 ≤ rate / 700)
    (hq : rate / 700 ≤ 2 ^ (b + 1)) {x : Rat} (hx : 0 ≤ x) :
    ∃ c', formantShiftChunk rate (2 ^ (b + 1)) x c = some c' ∧ Valid b c'.fft ∧ c'.dblbuf.length = 2 ^ (b + 1) ∧ c'.envelope.length = 2 ^ b + 1 ∧
      c'.mag = tabulate (2 ^ b + 1) (fun t => at0 c.mag t / rootEnvelope (2 ^ (b + 1)) (rate / 700) c.mag t * given (2 ^ b) (rootEnvelope (2 ^ (b + 1)) (rate / 700) c.mag) x t) := by
  have hh : 2 ^ (b + 1) / 2 = 2 ^ b := by rw [pow_succ]; omega
  obtain ⟨o1, cep1, cep2, o2, env2, spare2, e1, e2, e3, v2, l1, _, h3⟩ := envelope_holds hv hm hd he (spare := List.replicate (2 ^ b + 1) 0) List.length_replicate h2 hq
  obtain ⟨env3, e4, h4⟩ := applied_holds h3 le_rfl Real.exp
  have h4 : Holds env3 (2 ^ b + 1) (rootEnvelope (2 ^ (b + 1)) (rate / 700) c.mag) := h4.congr fun k hk => by rw [if_pos hk, root_eq h2 hq]
  obtain ⟨mag1, e5, h5⟩ := combined_holds (holds_at0 hm) h4 (fun u v => u / v)
  obtain ⟨env4, e6, h6⟩ : ∃ env4, (if x > 1 then lowered (2 ^ b) x env3 else raised (2 ^ b) x env3) = some env4 ∧ Holds env4 (2 ^ b + 1) (given (2 ^ b) (rootEnvelope (2 ^ (b + 1)) (rate / 700) c.mag) x) := by
    by_cases h1 : x > 1
    · obtain ⟨l, e, h⟩ := lowered_holds h4 h1.le
      exact ⟨l, by rw [if_pos h1, e], h.congr fun t _ => (if_pos h1).symm⟩
    · obtain ⟨l, e, h⟩ := raised_holds h4 hx (not_lt.mp h1)
      exact ⟨l, by rw [if_neg h1, e], h.congr fun t _ => (if_neg h1).symm⟩
  obtain ⟨mag2, e7, h7⟩ := combined_holds h5 h6 (fun u v => u * v)
  refine ⟨⟨o2, mag2, cep2, env4⟩, ?_, v2, l1, h6.1, h7.eq⟩
  by_cases h1 : x > 1
  · rw [if_pos h1] at e6
    simp only [formantShiftChunk, hh, e1, e2, e3, e4, e5, if_pos h1, e6, e7, Option.bind_eq_bind, Option.bind_some]
  · rw [if_neg h1] at e6
    simp only [formantShiftChunk, hh, e1, e2, e3, e4, e5, if_neg h1, e6, e7, Option.bind_eq_bind, Option.bind_some]

/-- **C118** (what is done).  With formants to be preserved and a pitch shift, for any FFT object that has been in use, any sample rate from 8 to 192 kHz and any power of two as the size (of at least 512, as an int holds): nothing
is accessed outside its array, and each magnitude is multiplied by the square root of the smoothed spectrum of the bin that will be heard where it is (nothing if there is none), over the same where it is; the
highest bin stays if the pitch is lowered.

Missing from the full claim `C118_statement`: the square root, which `C118_violated` shows not to be enough. -/
theorem C118_partial {b : Nat} (hb : 8 ≤ b) (hb' : b < 31) {before : List Call} (hk : ∀ k ∈ before, Fits (2 ^ (b + 1)) k) {o₀ o : Builtin} {outs : List (List (List ℝ))} (hmake : make (2 ^ (b + 1)) = some o₀)
    (hrun : run o₀ before = some (o, outs)) {rate : Nat} (hr0 : 8000 ≤ rate) (hr1 : rate ≤ 192000) {mag dblbuf env : List ℝ} (hm : mag.length = 2 ^ b + 1) (hd : dblbuf.length = 2 ^ (b + 1))
    (he : env.length = 2 ^ b + 1) {pitchScale : Rat} (hp : 0 < pitchScale) :
    ∃ c', shifted true rate (2 ^ (b + 1)) pitchScale ⟨o, mag, dblbuf, env⟩ = some c' ∧ c'.dblbuf.length = 2 ^ (b + 1) ∧ c'.envelope.length = 2 ^ b + 1 ∧ c'.mag.length = 2 ^ b + 1 ∧
      ∀ t ≤ 2 ^ b, at0 c'.mag t =
        if pitchScale = 1 ∨ pitchScale < 1 ∧ t = 2 ^ b then at0 mag t
        else if source pitchScale t ≤ 2 ^ b then
          at0 mag t * Real.sqrt (Real.exp (smoothed (2 ^ (b + 1)) (rate / 700) (logMag mag) (source pitchScale t)) / Real.exp (smoothed (2 ^ (b + 1)) (rate / 700) (logMag mag) t))
        else 0 := by
  by_cases h1 : pitchScale = 1
  · exact ⟨_, if_neg (by simp [h1]), hd, he, hm, fun t _ => by rw [if_pos (Or.inl h1)]⟩
  obtain ⟨o₁, eo, v⟩ := make_valid (b := b) (by omega)
  rw [hmake] at eo
  obtain rfl := Option.some.inj eo
  obtain ⟨o₂, er, v2⟩ := run_spec v hk
  rw [hrun] at er
  simp only [Option.some.injEq, Prod.mk.injEq] at er
  obtain ⟨rfl, _⟩ := er
  have hpow : 2 ^ 9 ≤ 2 ^ (b + 1) := Nat.pow_le_pow_right (by norm_num) (by omega)
  obtain ⟨c', e, _, l1, l2, em⟩ := chunk_holds (rate := rate) (c := ⟨o, mag, dblbuf, env⟩) v2 hm hd he (by omega) (by omega) hp.le
  refine ⟨c', (if_pos ⟨rfl, h1⟩).trans e, l1, l2, by rw [em]; exact (holds_tabulate _ _).1, fun t ht => ?_⟩
  rw [em, at0, List.getD, (holds_tabulate _ _).get (by omega), Option.getD_some]
  have pos : ∀ k, 0 < rootEnvelope (2 ^ (b + 1)) (rate / 700) mag k := fun k => Real.sqrt_pos.mpr (Real.exp_pos _)
  have root : ∀ s, at0 mag t / rootEnvelope (2 ^ (b + 1)) (rate / 700) mag t * rootEnvelope (2 ^ (b + 1)) (rate / 700) mag s =
      at0 mag t * Real.sqrt (Real.exp (smoothed (2 ^ (b + 1)) (rate / 700) (logMag mag) s) / Real.exp (smoothed (2 ^ (b + 1)) (rate / 700) (logMag mag) t)) := by
    intro s
    rw [Real.sqrt_div (Real.exp_pos _).le, ← rootEnvelope, ← rootEnvelope]
    ring
  unfold given
  by_cases hx : 1 < pitchScale
  · rw [if_pos hx, if_neg (show ¬ (pitchScale = 1 ∨ pitchScale < 1 ∧ t = 2 ^ b) from by
      rintro (h | ⟨h, _⟩)
      · exact h1 h
      · exact absurd h (not_lt.mpr hx.le))]
    by_cases hs : source pitchScale t ≤ 2 ^ b
    · rw [if_neg (by omega), if_pos hs, root]
    · rw [if_pos (by omega), if_neg hs, mul_zero]
  · have hx' : pitchScale < 1 := lt_of_le_of_ne (not_lt.mp hx) h1
    rw [if_neg hx]
    by_cases hh : t = 2 ^ b
    · rw [if_pos hh, if_pos (Or.inr ⟨hx', hh⟩), hh, div_mul_cancel₀ _ (pos _).ne']
    · have := source_down hp.le hx'.le t
      rw [if_neg hh, if_neg (show ¬ (pitchScale = 1 ∨ pitchScale < 1 ∧ t = 2 ^ b) from by
        rintro (h | ⟨_, h⟩)
        · exact h1 h
        · exact hh h), if_pos (by omega), root]

/-- Without preservation, or without a pitch shift, nothing is done. -/
theorem C118_unity {preserved : Bool} {rate sz : Nat} {pitchScale : Rat} (h : preserved = false ∨ pitchScale = 1) (c : Chunk) : shifted preserved rate sz pitchScale c = some c :=
  if_neg (by rcases h with h | h <;> simp [h])

/-- C118 in full: as with the finer engine (`C117_smooth`), if the logarithms of the magnitudes (with 0.000001 added) have fewer ripples than the cepstrum is cut off at, so that they are their own envelope, a bin
is given the magnitude of the one that will be heard where it is (but for the 0.000001): the envelope is that of the signal before the shift (RubberBandStretcher.h:332-335). -/
def C118_statement : Prop :=
  ∀ (b : Nat) (_ : 8 ≤ b) (_ : b < 31) (o : Builtin) (_ : make (2 ^ (b + 1)) = some o) (rate : Nat) (_ : 8000 ≤ rate) (_ : rate ≤ 192000) (mag dblbuf env : List ℝ) (_ : mag.length = 2 ^ b + 1)
    (_ : dblbuf.length = 2 ^ (b + 1)) (_ : env.length = 2 ^ b + 1) (pitchScale : Rat) (_ : 1 < pitchScale) (m : Nat) (_ : 1 ≤ m) (_ : m < rate / 700) (_ : Smooth (2 ^ (b + 1)) m (logMag mag))
    (_ : ∀ k ≤ 2 ^ b, 0 ≤ at0 mag k) (t : Nat) (_ : source pitchScale t ≤ 2 ^ b),
    ∃ c', shifted true rate (2 ^ (b + 1)) pitchScale ⟨o, mag, dblbuf, env⟩ = some c' ∧ at0 c'.mag t * (at0 mag t + 0.000001) = at0 mag t * (at0 mag (source pitchScale t) + 0.000001)

/-- What is done to the slope in the middle, an octave up: it should be halved, but it is divided by the square root of 2. -/
theorem Ex.slope_shifted {o : Builtin} (eo : make 1024 = some o) :
    ∃ c', shifted true 44100 1024 2 ⟨o, tabulate 513 (Ex.slope 1024), List.replicate 1024 0, List.replicate 513 0⟩ = some c' ∧ at0 c'.mag 256 = (1 - 0.000001) * Real.sqrt (1 / 2) := by
  obtain ⟨c', e, _, _, _, h⟩ := C118_partial (b := 9) (by norm_num) (by norm_num) (before := []) (by simp) (o₀ := o) (o := o) (outs := []) eo rfl (rate := 44100) (by norm_num) (by norm_num)
    (mag := tabulate 513 (Ex.slope 1024)) (dblbuf := List.replicate 1024 0) (env := List.replicate 513 0) (holds_tabulate _ _).1 List.length_replicate List.length_replicate (pitchScale := 2) (by norm_num)
  have at_slope : ∀ k < 513, at0 (tabulate 513 (Ex.slope 1024)) k = Ex.slope 1024 k := by
    intro k hk
    rw [at0, List.getD, (holds_tabulate _ _).get hk]
    rfl
  refine ⟨c', e, ?_⟩
  have hs : source 2 256 = 512 := by decide +kernel
  have sm : ∀ k ≤ 512, smoothed (2 ^ (9 + 1)) (44100 / 700) (logMag (tabulate 513 (Ex.slope 1024))) k = Real.log (Ex.slope 1024 k + 0.000001) := by
    intro k hk
    have := smoothed_smooth (n := 1024) (m := 2) (q := 63) (by norm_num) (by norm_num) (by norm_num) (Ex.slope_smooth 1024) (k := k) (by omega)
    refine this.trans ?_
    rw [Ex.slope_log 1024 (by omega), Ex.slope, sub_add_cancel, Real.log_exp]
  rw [h 256 (by norm_num), hs, if_neg (by norm_num), if_pos (by norm_num), sm _ (by norm_num), sm _ (by norm_num), at_slope _ (by norm_num), Ex.slope_end, Ex.slope_middle, Real.exp_log (by norm_num),
    Real.exp_log (by norm_num)]
  norm_num

theorem C118_violated : ¬ C118_statement := by
  intro h
  obtain ⟨o, eo, _⟩ := make_valid (b := 9) (by norm_num)
  have at_slope : ∀ k < 513, at0 (tabulate 513 (Ex.slope 1024)) k = Ex.slope 1024 k := by
    intro k hk
    rw [at0, List.getD, (holds_tabulate _ _).get hk]
    rfl
  have hs : source 2 256 = 512 := by decide +kernel
  obtain ⟨c', e, h1⟩ := h 9 (by norm_num) (by norm_num) o eo 44100 (by norm_num) (by norm_num) (tabulate 513 (Ex.slope 1024)) (List.replicate 1024 0) (List.replicate 513 0) (holds_tabulate _ _).1 List.length_replicate
    List.length_replicate 2 (by norm_num) 2 (by norm_num) (by norm_num) (Ex.slope_smooth 1024) (fun k hk => by rw [at_slope k (by omega)]; exact (Ex.slope_pos 1024 k).le) 256 (by rw [hs]; norm_num)
  obtain ⟨c, e2, h2⟩ := Ex.slope_shifted eo
  have : c' = c := Option.some.inj (e.symm.trans e2)
  subst this
  rw [h2, hs, at_slope _ (by norm_num), at_slope _ (by norm_num), Ex.slope_end, Ex.slope_middle] at h1
  have h3 : Real.sqrt (1 / 2) = 1 / 2 := by
    norm_num at h1 ⊢
    linarith
  have h4 := Real.mul_self_sqrt (show (0 : ℝ) ≤ 1 / 2 by norm_num)
  rw [h3] at h4
  norm_num at h4

/-- The hypotheses of `C118_partial` are met, an octave up. -/
example : ∃ o c', make 1024 = some o ∧ shifted true 44100 1024 2 ⟨o, tabulate 513 (Ex.slope 1024), List.replicate 1024 0, List.replicate 513 0⟩ = some c' ∧
    at0 c'.mag 256 = (1 - 0.000001) * Real.sqrt (1 / 2) := by
  obtain ⟨o, eo, _⟩ := make_valid (b := 9) (by norm_num)
  obtain ⟨c', e, h⟩ := Ex.slope_shifted eo
  exact ⟨o, c', eo, e, h⟩

end Verif.Formant
