import Verif.PhaseUnity
/-! # Channels with the same spectra are given the same phases -/
namespace Verif.PhaseAdvance
open Verif.Guide

variable {K : Type} [Field K] [LinearOrder K] [IsStrictOrderedRing K] [FloorRing K]

omit [IsStrictOrderedRing K] [FloorRing K] in
/-- The channels locked to are the same, or the ones with the same contents. -/
theorem peakChannel_same {cs : List (Chan K)} {xs : List (Input K)} {i j : Nat} (hcs : cs[i]? = cs[j]?) (hxs : xs[i]? = xs[j]?) {ch : Chan K} {x : Input K} (hc : cs[i]? = some ch) (hx : xs[i]? = some x)
    (f : Rat) (k : Nat) {peak prevPeak : Int} (h1 : ch.currentPeaks[k]? = some peak) (h2 : get ch.prevPeaks peak = some prevPeak) :
    (peakChannel cs xs f i k x.guidance prevPeak = none ∧ peakChannel cs xs f j k x.guidance prevPeak = none) ∨
      ∃ a b, peakChannel cs xs f i k x.guidance prevPeak = some a ∧ peakChannel cs xs f j k x.guidance prevPeak = some b ∧ cs[a]? = cs[b]? ∧ xs[a]? = xs[b]? := by
  unfold peakChannel
  by_cases hr : inRange f x.guidance.channelLock = true
  · rw [if_pos hr, if_pos hr]
    have hself : follows f k prevPeak ch x = some true := by
      unfold follows
      rw [if_pos hr]
      simp [h1, h2]
    cases hg : greatestChannel xs k with
    | none => left; exact ⟨rfl, rfl⟩
    | some other =>
      simp only [Option.bind_eq_bind, Option.bind_some]
      by_cases e1 : other = i
      · subst e1
        right
        rw [if_pos rfl]
        by_cases e2 : other = j
        · subst e2; rw [if_pos rfl]; exact ⟨other, other, rfl, rfl, rfl, rfl⟩
        · rw [if_neg e2, hc, hx]
          simp only [Option.bind_some, hself, if_true]
          exact ⟨other, other, rfl, rfl, rfl, rfl⟩
      · rw [if_neg e1]
        by_cases e2 : other = j
        · subst e2
          right
          rw [if_pos rfl, ← hcs, ← hxs, hc, hx]
          simp only [Option.bind_some, hself, if_true]
          exact ⟨other, other, rfl, rfl, rfl, rfl⟩
        · rw [if_neg e2]
          cases ho : cs[other]? with
          | none => left; exact ⟨rfl, rfl⟩
          | some oc =>
            cases hq : xs[other]? with
            | none => left; exact ⟨rfl, rfl⟩
            | some ox =>
              simp only [Option.bind_some]
              cases hf : follows f k prevPeak oc ox with
              | none => left; exact ⟨rfl, rfl⟩
              | some b =>
                right
                cases b with
                | true => exact ⟨other, other, rfl, rfl, rfl, rfl⟩
                | false => exact ⟨i, j, rfl, rfl, hcs, hxs⟩
  · rw [if_neg hr, if_neg hr]
    right
    exact ⟨i, j, rfl, rfl, hcs, hxs⟩

omit [IsStrictOrderedRing K] [FloorRing K] in
theorem binPhase_same (p : Params) (inhop outhop lo : Nat) {cs : List (Chan K)} {xs : List (Input K)} {i j : Nat} (hcs : cs[i]? = cs[j]?) (hxs : xs[i]? = xs[j]?) {ch : Chan K} {x : Input K} (hc : cs[i]? = some ch)
    (hx : xs[i]? = some x) (k : Nat) : binPhase p false inhop outhop lo cs xs i ch x k = binPhase p false inhop outhop lo cs xs j ch x k := by
  have hl : lockedPhase p lo cs xs i k ch x = lockedPhase p lo cs xs j k ch x := by
    unfold lockedPhase
    refine Option.bind_congr fun peak h1 => ?_
    refine Option.bind_congr fun prevPeak h2 => ?_
    rcases peakChannel_same hcs hxs hc hx (freq p k) k h1 h2 with ⟨a, b⟩ | ⟨a, b, h3, h4, h5, h6⟩
    · rw [a, b]
    · rw [h3, h4]
      show Option.bind cs[a]? _ = Option.bind cs[b]? _
      rw [h5]
      refine Option.bind_congr fun pc _ => ?_
      show Option.bind xs[a]? _ = Option.bind xs[b]? _
      rw [h6]
  unfold binPhase sideReset
  simp only [Bool.false_and, Bool.false_eq_true, if_false, hl]

omit [IsStrictOrderedRing K] in
/-- Two channels with the same contents and the same input have the same contents and the same phases afterwards. -/
theorem advance_same {pi : K} {p : Params} {inhop outhop : Nat} {cs cs' : List (Chan K)} {xs : List (Input K)} {outs outs' : List (List K)}
    (h : advance pi p false inhop outhop cs xs outs = some (cs', outs')) {i j : Nat} (hi : i < xs.length) (hcs : cs[i]? = cs[j]?) (hxs : xs[i]? = xs[j]?) (hos : outs[i]? = outs[j]?) :
    cs'[i]? = cs'[j]? ∧ outs'[i]? = outs'[j]? := by
  unfold advance at h
  simp only [Option.bind_eq_bind] at h
  obtain ⟨x0, h0, h⟩ := Option.bind_eq_some_iff.mp h
  obtain ⟨⟨lo, n⟩, hr, h⟩ := Option.bind_eq_some_iff.mp h
  obtain ⟨c1, h1, h⟩ := Option.bind_eq_some_iff.mp h
  obtain ⟨c2, h2, h⟩ := Option.bind_eq_some_iff.mp h
  obtain ⟨os, h3, h⟩ := Option.bind_eq_some_iff.mp h
  obtain ⟨c3, h4, h⟩ := Option.bind_eq_some_iff.mp h
  cases h
  obtain ⟨a1, a2, a3⟩ := each_facts _ _ _ _ h1
  obtain ⟨b1, b2, b3⟩ := each_facts _ _ _ _ h2
  obtain ⟨d1, d2, d3, d4⟩ := eachOut_facts _ _ _ _ _ _ _ _ _ _ _ _ _ _ h3
  obtain ⟨e1, e2, e3⟩ := each_facts _ _ _ _ h4
  have x1 : xs[i]? = some xs[i] := List.getElem?_eq_getElem hi
  have c1' : cs[i]? = some (cs[i]'(by omega)) := List.getElem?_eq_getElem _
  have o1 : outs[i]? = some (outs[i]'(by omega)) := List.getElem?_eq_getElem _
  generalize xs[i] = x at x1
  generalize (cs[i]'(by omega)) = ch at c1'
  generalize (outs[i]'(by omega)) = o at o1
  obtain ⟨m1, f1, g1⟩ := a3 i ch x c1' x1
  obtain ⟨m1', f1', g1'⟩ := a3 j ch x (hcs ▸ c1') (hxs ▸ x1)
  rw [f1] at f1'
  cases f1'
  obtain ⟨m2, f2, g2⟩ := b3 i m1 x g1 x1
  obtain ⟨m2', f2', g2'⟩ := b3 j m1 x g1' (hxs ▸ x1)
  rw [f2] at f2'
  cases f2'
  obtain ⟨o', f3, g3⟩ := d4 i m2 x o g2 x1 o1
  obtain ⟨o'', f3', g3'⟩ := d4 j m2 x o g2' (hxs ▸ x1) (hos ▸ o1)
  have hsame : outPhases pi p false inhop outhop lo n c2 xs (0 + i) m2 x o = outPhases pi p false inhop outhop lo n c2 xs (0 + j) m2 x o := by
    unfold outPhases
    rw [Nat.zero_add, Nat.zero_add, funext (binPhase_same p inhop outhop lo (g2.trans g2'.symm) hxs g2 x1)]
  rw [hsame, f3'] at f3
  cases f3
  obtain ⟨m3, f4, g4⟩ := e3 i m2 (x, o') g2 (by rw [List.getElem?_zip_eq_some]; exact ⟨x1, g3⟩)
  obtain ⟨m3', f4', g4'⟩ := e3 j m2 (x, o') g2' (by rw [List.getElem?_zip_eq_some]; exact ⟨hxs ▸ x1, g3'⟩)
  rw [f4] at f4'
  cases f4'
  exact ⟨g4.trans g4'.symm, g3.trans g3'.symm⟩

end Verif.PhaseAdvance
