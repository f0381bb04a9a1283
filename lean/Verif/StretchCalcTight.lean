import Verif.StretchCalcRT
/-!
# C54: without transients the output keeps close to the input
-/
namespace Verif.StretchCalc
open Verif.Round

/-- Calls as the finer engine makes them: constant ratios, frame starts aligned, and an increment that gives at
least five frames of output. -/
structure Aligned (tr pr : Rat) (a : Single) : Prop where
  timeRatio : a.timeRatio = tr
  pitchRatio : a.pitchRatio = pr
  aligned : a.alignFrameStarts = true
  enough : 5 ≤ (a.inIncrement : Rat) * (tr / pr)

theorem clamped_close {m : Nat} {ratio : Rat} {d : Int} (hN : 5 ≤ (m : Rat) * ratio) (hd : |(d : Rat)| ≤ 6) :
    |(clampedIncrement m ratio ((d : Rat) / 4) : Rat) - (m * ratio - d / 4)| ≤ 1 := by
  obtain ⟨d1, d2⟩ := abs_le.mp hd
  unfold clampedIncrement
  simp only
  obtain ⟨a1, a2⟩ := lrint_bounds ((m : Rat) * ratio)
  obtain ⟨b1, b2⟩ := lrint_bounds ((lrint ((m : Rat) * ratio) : Rat) - d / 4)
  obtain ⟨c1, _⟩ := lrint_bounds ((m : Rat) * ratio * (3 / 10))
  obtain ⟨_, e2⟩ := lrint_bounds ((m : Rat) * ratio * 2)
  generalize hA : lrint ((lrint ((m : Rat) * ratio) : Rat) - d / 4) = A at *
  generalize hB : lrint ((m : Rat) * ratio * (3 / 10)) = B at *
  generalize hC : lrint ((m : Rat) * ratio * 2) = C at *
  have h1 : ¬ A < B := by
    intro h
    have : (A : Rat) + 1 ≤ B := by exact_mod_cast h
    linarith
  have h2 : ¬ A > C := by
    intro h
    have : (C : Rat) + 1 ≤ A := by exact_mod_cast h
    linarith
  have h3 : ¬ A < 0 := by
    intro h
    have : (A : Rat) < 0 := by exact_mod_cast h
    linarith
  rw [if_neg h1, if_neg h2, if_neg h3, abs_le]
  constructor <;> linarith

theorem tight_step {s : Calc} {a : Single} {tr pr : Rat} (ha : Aligned tr pr a) (htr : 0 < tr) (hpr : 0 < pr) (hpr4 : pr ≤ 4)
    (hhard : s.useHardPeaks = false) (hk : s.justReset = true ∨ s.prevRatio = tr / pr) (h : |ahead s tr| ≤ 5) :
    |ahead (calculateSingle s a).1 tr| ≤ 5 ∧ (calculateSingle s a).1.checkpoint = s.checkpoint := by
  have hpos : 0 < a.inIncrement := by
    rcases Nat.eq_zero_or_pos a.inIncrement with c | c
    · have := ha.enough
      rw [c] at this
      norm_num at this
    · exact c
  have hcp : checkpointFor s (a.timeRatio / a.pitchRatio) = s.checkpoint := by
    unfold checkpointFor
    rw [ha.timeRatio, ha.pitchRatio]
    rcases hk with hk | hk
    · rw [if_neg (by simp [hk])]
    · rw [if_neg (by simp [hk])]
  have hinc : incrementFor s a.inIncrement = a.inIncrement := by
    unfold incrementFor; rw [if_neg (by omega)]
  have hd := divergence_bounds s a
  have hoff : offset a = 0 := by unfold offset; rw [ha.aligned]; rfl
  rw [hoff, add_zero, ha.timeRatio] at hd
  generalize hD : divergenceFor s.checkpoint s.inFrame s.outFrame tr a.pitchRatio a.analysisWindowSize a.synthesisWindowSize
    a.alignFrameStarts = D at *
  have hD6 : |(D : Rat)| ≤ 6 := by
    have := abs_le.mp hd
    have := abs_le.mp h
    rw [abs_le]
    constructor <;> linarith
  have hDi : ¬ (D > 1000 ∨ D < -1000) ∧ ¬ (D > 100 ∨ D < -100) := by
    obtain ⟨x, y⟩ := abs_le.mp hD6
    have x' : -6 ≤ D := by exact_mod_cast x
    have y' : D ≤ 6 := by exact_mod_cast y
    omega
  have htrans : transientAt s a.df D = false := by
    unfold transientAt; simp [hhard]
  have hout : (calculateSingle s a).1.outFrame = s.outFrame + (clampedIncrement a.inIncrement (tr / pr) ((D : Rat) / 4) : Int) * pr := by
    unfold calculateSingle
    rw [ha.timeRatio, ha.pitchRatio] at hcp
    rw [ha.pitchRatio] at hD
    simp only [ha.timeRatio, ha.pitchRatio, hcp, hinc, hD, htrans, Bool.false_and, Bool.false_eq_true, if_false]
    unfold recoveryFor
    rw [if_neg hDi.1, if_neg hDi.2]
  have hin : (calculateSingle s a).1.inFrame = s.inFrame + a.inIncrement := rfl
  have hc : (calculateSingle s a).1.checkpoint = s.checkpoint := hcp
  refine ⟨?_, hc⟩
  have hcl := clamped_close (d := D) ha.enough hD6
  generalize hI : clampedIncrement a.inIncrement (tr / pr) ((D : Rat) / 4) = I at *
  have key : ahead (calculateSingle s a).1 tr = ahead s tr + I * pr - a.inIncrement * tr := by
    unfold ahead
    rw [hout, hin, hc]
    push_cast
    ring
  rw [key]
  obtain ⟨i1, i2⟩ := abs_le.mp hcl
  obtain ⟨j1, j2⟩ := abs_le.mp hd
  obtain ⟨k1, k2⟩ := abs_le.mp h
  have hmul : (a.inIncrement : Rat) * (tr / pr) * pr = a.inIncrement * tr := by field_simp
  have l1 := mul_le_mul_of_nonneg_right i1 hpr.le
  have l2 := mul_le_mul_of_nonneg_right i2 hpr.le
  have m1 := mul_le_mul_of_nonneg_right j1 hpr.le
  have m2 := mul_le_mul_of_nonneg_right j2 hpr.le
  have n1 := mul_le_mul_of_nonneg_left k1 (show (0 : Rat) ≤ 1 - pr / 4 by linarith)
  have n2 := mul_le_mul_of_nonneg_left k2 (show (0 : Rat) ≤ 1 - pr / 4 by linarith)
  rw [abs_le]
  constructor <;> nlinarith

/-- **C54.**  From a fresh calculator without hard peaks, at constant ratios (the pitch ratio at most four), after
any number of calls that each ask for at least five frames of output: the output produced, after resampling,
is within five frames of input times time ratio. -/
theorem C54_tight {s : Calc} (hs : Fresh s) (hhard : s.useHardPeaks = false) {tr pr : Rat} (htr : 0 < tr) (hpr : 0 < pr) (hpr4 : pr ≤ 4)
    {as : List Single} (hv : ∀ a ∈ as, a.timeRatio = tr ∧ a.pitchRatio = pr ∧ a.alignFrameStarts = true ∧ 5 ≤ (a.inIncrement : Rat) * (tr / pr)) :
    |((results s as).map (fun x => (|x| : Int))).sum * pr - (as.map (fun a => (a.inIncrement : Int))).sum * tr| ≤ 5 := by
  have main : ∀ (as : List Single) (s : Calc), (∀ a ∈ as, Aligned tr pr a) → s.useHardPeaks = false →
      (s.justReset = true ∨ s.prevRatio = tr / pr) → |ahead s tr| ≤ 5 → |ahead (after s as) tr| ≤ 5 ∧ (after s as).checkpoint = s.checkpoint := by
    intro as
    induction as with
    | nil => intro s _ _ _ h; exact ⟨h, rfl⟩
    | cons a as ih =>
      intro s hv hh hk h
      have ha := hv a (by simp)
      obtain ⟨t1, t2⟩ := tight_step ha htr hpr hpr4 hh hk h
      obtain ⟨i1, i2⟩ := ih (calculateSingle s a).1 (fun b hb => hv b (by simp [hb])) hh
        (Or.inr (by show a.timeRatio / a.pitchRatio = _; rw [ha.timeRatio, ha.pitchRatio])) t1
      exact ⟨i1, i2.trans t2⟩
  have hv' : ∀ a ∈ as, Aligned tr pr a := fun a ha => ⟨(hv a ha).1, (hv a ha).2.1, (hv a ha).2.2.1, (hv a ha).2.2.2⟩
  have hz : |ahead s tr| ≤ 5 := by
    unfold ahead
    rw [hs.outFrame, hs.checkpoint, hs.inFrame]
    norm_num
  obtain ⟨h1, h2⟩ := main as s hv' hhard (Or.inl hs.justReset) hz
  have hpos : ∀ a ∈ as, 0 < a.inIncrement := by
    intro a ha
    rcases Nat.eq_zero_or_pos a.inIncrement with c | c
    · have := (hv a ha).2.2.2
      rw [c] at this
      norm_num at this
    · exact c
  obtain ⟨f1, f2⟩ := after_frames pr hpr as s (fun a ha => ⟨(hv a ha).2.1, by rw [(hv a ha).1]; exact htr.le, hpos a ha⟩)
  have hcons : (consumed s as : Rat) = ((as.map (fun a => (a.inIncrement : Int))).sum : Int) := by
    have : ∀ as : List Single, (∀ a ∈ as, 0 < a.inIncrement) → (consumed s as : Int) = (as.map (fun a => (a.inIncrement : Int))).sum := by
      intro as
      induction as with
      | nil => intro _; rfl
      | cons a as ih =>
        intro h
        have i := ih (fun b hb => h b (by simp [hb]))
        have : incrementFor s a.inIncrement = a.inIncrement := by
          unfold incrementFor; rw [if_neg (by have := h a (by simp); omega)]
        simp only [consumed, List.map_cons, List.sum_cons] at i ⊢
        rw [this, Nat.cast_add, i]
    exact_mod_cast this as hpos
  have e : ahead (after s as) tr = ((results s as).map (fun x => (|x| : Int))).sum * pr - (as.map (fun a => (a.inIncrement : Int))).sum * tr := by
    unfold ahead
    rw [h2, f1, f2, hs.outFrame, hs.checkpoint, hs.inFrame]
    unfold produced
    rw [← hcons]
    push_cast
    simp
  rw [← e]
  exact h1

namespace Ex

/-- A calculator as the finer engine makes it (`R3Stretcher.cpp:142-146`): no hard peaks. -/
def soft : Calc := { unit with useHardPeaks := false }

end Ex

/-- Sixty calls at 1001/777 and a pitch ratio of 9/8, where 230.17 frames are due each time: the increment is
corrected to 231 where needed. -/
example : ((results Ex.soft (List.replicate 60 (Ex.aligned (1001 / 777) (9 / 8) 0 201))).filter (· = 230)).length = 51 ∧
    Fresh Ex.soft ∧ Ex.soft.useHardPeaks = false ∧ (5 : Rat) ≤ (201 : Nat) * (1001 / 777 / (9 / 8)) := by
  refine ⟨by decide +kernel, ⟨rfl, rfl, rfl, rfl, rfl⟩, rfl, by norm_num⟩

end Verif.StretchCalc
