import Verif.StretchCalc
import Mathlib.Tactic.NormNum
/-!
# The peaks of the offline stretch profile: properties C18, C50
-/
namespace Verif.StretchCalc
open Verif.Round

/-! ## Sets -/

theorem mem_insertSet (x c : Nat) : ∀ l : List Nat, c ∈ insertSet x l ↔ c = x ∨ c ∈ l := by
  intro l
  induction l with
  | nil => simp [insertSet]
  | cons y l ih =>
    unfold insertSet
    split_ifs with h1 h2
    · simp
    · subst h2; simp
    · simp only [List.mem_cons, ih]; tauto

theorem insertSet_sorted (x : Nat) : ∀ l : List Nat, l.Pairwise (· < ·) → (insertSet x l).Pairwise (· < ·) := by
  intro l
  induction l with
  | nil => intro _; simp [insertSet]
  | cons y l ih =>
    intro h
    obtain ⟨h1, h2⟩ := List.pairwise_cons.mp h
    unfold insertSet
    split_ifs with c1 c2
    · refine List.pairwise_cons.mpr ⟨?_, h⟩
      intro z hz
      rcases List.mem_cons.mp hz with rfl | hz
      · exact c1
      · exact lt_trans c1 (h1 z hz)
    · exact h
    · refine List.pairwise_cons.mpr ⟨?_, ih h2⟩
      intro z hz
      rcases (mem_insertSet x z l).mp hz with rfl | hz
      · omega
      · exact h1 z hz

/-! ## Hard peaks -/

theorem rises_some (df : List Rat) {i : Nat} (h : i < df.length) : ∃ b, rises df i = some b := by
  unfold rises
  rw [List.getElem?_eq_getElem h, List.getElem?_eq_getElem (show i - 1 < df.length by omega)]
  exact ⟨_, rfl⟩

theorem twoRises_some (df : List Rat) {i : Nat} (h : i < df.length) : ∃ b, twoRises df i = some b := by
  unfold twoRises
  rw [List.getElem?_eq_getElem h, List.getElem?_eq_getElem (show i - 1 < df.length by omega),
    List.getElem?_eq_getElem (show i - 2 < df.length by omega)]
  split_ifs
  · exact ⟨_, rfl⟩
  · exact ⟨_, rfl⟩

theorem threeRises_some (df : List Rat) {i : Nat} (h : i < df.length) : ∃ b, threeRises df i = some b := by
  unfold threeRises
  rw [List.getElem?_eq_getElem h, List.getElem?_eq_getElem (show i - 1 < df.length by omega),
    List.getElem?_eq_getElem (show i - 2 < df.length by omega), List.getElem?_eq_getElem (show i - 3 < df.length by omega)]
  split_ifs
  · exact ⟨_, rfl⟩
  · exact ⟨_, rfl⟩

theorem isHard_some (df : List Rat) {i : Nat} (h : i < df.length) : ∃ b, isHard df i = some b := by
  obtain ⟨b, hb⟩ := twoRises_some df h
  obtain ⟨c, hc⟩ := threeRises_some df h
  unfold isHard
  rw [hb, hc, List.getElem?_eq_getElem h, List.getElem?_eq_getElem (show i - 1 < df.length by omega)]
  exact ⟨_, rfl⟩

theorem hardLocation_some (df : List Rat) {i : Nat} (h : i + 1 < df.length) :
    ∃ p, hardLocation df i = some p ∧ p < df.length := by
  unfold hardLocation
  rw [if_pos h, List.getElem?_eq_getElem h, List.getElem?_eq_getElem (show i < df.length by omega)]
  refine ⟨_, rfl, ?_⟩
  split_ifs <;> omega

/-- What holds of a set of candidates. -/
def Good (n : Nat) (cands : List Nat) : Prop := cands.Pairwise (· < ·) ∧ ∀ c ∈ cands, c < n

theorem Good.insert {n p : Nat} {cands : List Nat} (h : Good n cands) (hp : p < n) : Good n (insertSet p cands) := by
  refine ⟨insertSet_sorted p _ h.1, ?_⟩
  intro c hc
  rcases (mem_insertSet p c _).mp hc with rfl | hc
  · exact hp
  · exact h.2 c hc

theorem hardTurn_some (rawDf df : List Rat) (hl : rawDf.length = df.length) (amnesty : Nat) {i : Nat} (h : i + 1 < df.length)
    {cands : List Nat} (hg : Good df.length cands) (prev : Nat) :
    ∃ r, hardTurn rawDf df amnesty i cands prev = some r ∧ Good df.length r.1 := by
  obtain ⟨a, ha⟩ := rises_some df (show i < df.length by omega)
  obtain ⟨b, hb⟩ := isHard_some df (show i < df.length by omega)
  obtain ⟨p, hp, hp'⟩ := hardLocation_some rawDf (i := i) (by omega)
  unfold hardTurn
  rw [ha, hb, hp]
  refine ⟨_, rfl, ?_⟩
  split_ifs
  · exact hg.insert (by omega)
  · exact hg

theorem hardLoop_some (rawDf df : List Rat) (hl : rawDf.length = df.length) (amnesty : Nat) : ∀ (rounds i : Nat) (cands : List Nat) (prev : Nat),
    i + rounds + 1 ≤ df.length → Good df.length cands → ∃ r, hardLoop rawDf df amnesty rounds i cands prev = some r ∧ Good df.length r := by
  intro rounds
  induction rounds with
  | zero => intro i cands prev _ hg; exact ⟨_, rfl, hg⟩
  | succ rounds ih =>
    intro i cands prev h hg
    obtain ⟨r, h1, h2⟩ := hardTurn_some rawDf df hl amnesty (i := i) (by omega) hg prev
    obtain ⟨r', h3, h4⟩ := ih (i + 1) r.1 r.2 (by omega) h2
    refine ⟨r', ?_, h4⟩
    unfold hardLoop
    rw [h1]
    exact h3

/-! ## Soft peaks -/

theorem length_insertSorted (x : Rat) : ∀ l, (insertSorted x l).length = l.length + 1 := by
  intro l
  induction l with
  | nil => rfl
  | cons y l ih => unfold insertSorted; split_ifs <;> simp [ih]

theorem length_sortValues : ∀ l, (sortValues l).length = l.length := by
  intro l
  induction l with
  | nil => rfl
  | cons x l ih => simp [sortValues, length_insertSorted, ih]

theorem threshold_some {win : List Rat} (h : 0 < win.length) : ∃ t, threshold win = some t := by
  unfold threshold
  simp only
  refine ⟨_, List.getElem?_eq_getElem ?_⟩
  rw [length_sortValues]
  split_ifs <;> omega

theorem softTest_some {win : List Rat} {middle : Nat} (t : Rat) (h : middle + 1 < win.length) :
    ∃ b, softTest win middle t = some b ∧ (b = true → ∃ x y z, win[middle]? = some x ∧ win[middle - 1]? = some y ∧
      win[middle + 1]? = some z ∧ y < x ∧ z < x) := by
  unfold softTest
  rw [List.getElem?_eq_getElem h, List.getElem?_eq_getElem (show middle < win.length by omega),
    List.getElem?_eq_getElem (show middle - 1 < win.length by omega)]
  simp only [Option.bind_eq_bind, Option.bind_some]
  split_ifs with c1 c2
  · refine ⟨_, rfl, ?_⟩
    intro hb
    exact ⟨_, _, _, rfl, rfl, rfl, c2, of_decide_eq_true hb⟩
  · exact ⟨_, rfl, by simp⟩
  · exact ⟨_, rfl, by simp⟩

/-- The climb stops where it begins, since the next value is lower. -/
theorem climb_start {win : List Rat} {middle : Nat} {x z : Rat} (h1 : win[middle]? = some x) (h2 : win[middle + 1]? = some z)
    (h : z < x) (rounds : Nat) : climb win middle rounds (middle + 1) middle x = some middle := by
  cases rounds with
  | zero => rfl
  | succ rounds =>
    unfold climb
    rw [h1, h2]
    simp only [Option.bind_eq_bind, Option.bind_some]
    rw [if_neg (by linarith), if_pos h]

/-- An invariant of the window, as the loop goes on. -/
structure WinInv (df : List Rat) (maxsize : Nat) (W : Nat → List Rat → Prop) : Prop where
  long : ∀ i win, W i win → maxsize / 2 + 2 ≤ win.length
  step : ∀ i win, W i win → W (i + 1) (shiftWindow df win (min maxsize win.length ≥ maxsize) (i + min maxsize win.length - maxsize / 2))

theorem softTurn_some {df : List Rat} {maxsize : Nat} (hm : 7 ≤ maxsize) {W : Nat → List Rat → Prop} (hW : WinInv df maxsize W) {Q : Nat → Prop}
    (hQ : ∀ i win, W i win → ∀ x y z, win[maxsize / 2]? = some x → win[maxsize / 2 - 1]? = some y → win[maxsize / 2 + 1]? = some z →
      y < x → z < x → Q i) (minspacing : Nat) {i : Nat} {s : Soft} (hw : W i s.win) (hg : Good df.length s.cands) (hq : ∀ c ∈ s.cands, Q c) :
    ∃ r, softTurn df maxsize minspacing i s = some r ∧ W (i + 1) r.win ∧ Good df.length r.cands ∧ ∀ c ∈ r.cands, Q c := by
  have hl := hW.long i s.win hw
  have hst := hW.step i s.win hw
  have h1 : ¬ maxsize / 2 ≥ min maxsize s.win.length := by omega
  have h2 : ¬ min maxsize s.win.length < 2 := by omega
  unfold softTurn
  simp only
  rw [if_neg h1, if_neg h2]
  obtain ⟨t, ht⟩ := threshold_some (win := s.win.take (min maxsize s.win.length)) (by rw [List.length_take]; omega)
  obtain ⟨b, hb, hb'⟩ := softTest_some (win := s.win) (middle := maxsize / 2) t (by omega)
  have key : ∃ r, softPick df minspacing (min maxsize s.win.length) (maxsize / 2) i s = some r ∧ r.win = s.win ∧ Good df.length r.cands ∧
      ∀ c ∈ r.cands, Q c := by
    unfold softPick
    rw [ht]
    simp only [Option.bind_eq_bind, Option.bind_some, hb]
    split_ifs with c
    · obtain ⟨x, y, z, k1, k2, k3, k4, k5⟩ := hb' c.1
      rw [k1]
      simp only [Option.bind_some]
      rw [climb_start k1 k3 k5]
      have e : i + maxsize / 2 - maxsize / 2 = i := by omega
      refine ⟨_, rfl, ?_⟩
      rw [e]
      have hqi : Q i := hQ i s.win hw x y z k1 k2 k3 k4 k5
      unfold notePeak
      split_ifs with c1 c2
      · exact ⟨rfl, hg, hq⟩
      · refine ⟨rfl, hg.insert (by omega), ?_⟩
        intro c hc
        rcases (mem_insertSet i c _).mp hc with rfl | hc
        · exact hqi
        · exact hq c hc
      · exact ⟨rfl, hg, hq⟩
    · exact ⟨_, rfl, rfl, hg, hq⟩
  obtain ⟨r, k1, k2, k3, k4⟩ := key
  rw [k1]
  refine ⟨_, rfl, ?_, k3, k4⟩
  simp only
  rw [k2]
  exact hst

theorem softLoop_some {df : List Rat} {maxsize : Nat} (hm : 7 ≤ maxsize) {W : Nat → List Rat → Prop} (hW : WinInv df maxsize W) {Q : Nat → Prop}
    (hQ : ∀ i win, W i win → ∀ x y z, win[maxsize / 2]? = some x → win[maxsize / 2 - 1]? = some y → win[maxsize / 2 + 1]? = some z →
      y < x → z < x → Q i) (minspacing : Nat) : ∀ (rounds i : Nat) (s : Soft), W i s.win → Good df.length s.cands → (∀ c ∈ s.cands, Q c) →
    ∃ r, softLoop df maxsize minspacing rounds i s = some r ∧ Good df.length r.cands ∧ ∀ c ∈ r.cands, Q c := by
  intro rounds
  induction rounds with
  | zero => intro i s _ hg hq; exact ⟨_, rfl, hg, hq⟩
  | succ rounds ih =>
    intro i s hw hg hq
    obtain ⟨r, h1, h2, h3, h4⟩ := softTurn_some hm hW hQ minspacing hw hg hq
    obtain ⟨r', k1, k2⟩ := ih (i + 1) r h2 h3 h4
    refine ⟨r', ?_, k2⟩
    unfold softLoop
    rw [h1]
    exact k1

/-! ## Merging -/

/-- What holds of the peaks so far, newest first: decreasing, before the candidates left, and each
from one of the sets. -/
structure Merged (H S : Nat → Prop) (hard soft : List Nat) (peaks : List Peak) : Prop where
  sorted : peaks.Pairwise (fun a b => b.chunk < a.chunk)
  hard : ∀ p ∈ peaks, ∀ c ∈ hard, p.chunk < c
  soft : ∀ p ∈ peaks, ∀ c ∈ soft, p.chunk < c
  from_hard : ∀ p ∈ peaks, p.hard = true → H p.chunk
  from_soft : ∀ p ∈ peaks, p.hard = false → S p.chunk

theorem Merged.push {H S : Nat → Prop} {hard soft hard' soft' : List Nat} {peaks : List Peak} (h : Merged H S hard soft peaks) (p : Peak)
    (h1 : ∀ q ∈ peaks, q.chunk < p.chunk) (h2 : ∀ c ∈ hard', c ∈ hard ∧ p.chunk < c) (h3 : ∀ c ∈ soft', c ∈ soft ∧ p.chunk < c)
    (h4 : p.hard = true → H p.chunk) (h5 : p.hard = false → S p.chunk) : Merged H S hard' soft' (p :: peaks) := by
  refine ⟨List.pairwise_cons.mpr ⟨h1, h.sorted⟩, ?_, ?_, ?_, ?_⟩
  · intro q hq c hc
    rcases List.mem_cons.mp hq with rfl | hq
    · exact (h2 c hc).2
    · exact h.hard q hq c (h2 c hc).1
  · intro q hq c hc
    rcases List.mem_cons.mp hq with rfl | hq
    · exact (h3 c hc).2
    · exact h.soft q hq c (h3 c hc).1
  · intro q hq
    rcases List.mem_cons.mp hq with rfl | hq
    · exact h4
    · exact h.from_hard q hq
  · intro q hq
    rcases List.mem_cons.mp hq with rfl | hq
    · exact h5
    · exact h.from_soft q hq

theorem merge_spec (H S : Nat → Prop) : ∀ (fuel : Nat) (hard soft : List Nat) (peaks : List Peak), hard.Pairwise (· < ·) → soft.Pairwise (· < ·) →
    (∀ c ∈ hard, H c) → (∀ c ∈ soft, S c) → Merged H S hard soft peaks → Merged H S [] [] (merge fuel hard soft peaks) := by
  intro fuel
  induction fuel with
  | zero =>
    intro hard soft peaks _ _ _ _ h
    exact ⟨h.sorted, by simp, by simp, h.from_hard, h.from_soft⟩
  | succ fuel ih =>
    intro hard soft peaks h1 h2 h3 h4 h
    match hard, soft with
    | [], [] => exact h
    | a :: hard, [] =>
      unfold merge
      obtain ⟨s1, s2⟩ := List.pairwise_cons.mp h1
      refine ih _ _ _ s2 (by simp) (fun c hc => h3 c (by simp [hc])) (by simp) ?_
      refine h.push ⟨a, true⟩ (fun q hq => h.hard q hq a (by simp)) (fun c hc => ⟨by simp [hc], s1 c hc⟩) (by simp)
        (fun _ => h3 a (by simp)) (by simp)
    | [], p :: soft =>
      unfold merge
      obtain ⟨s1, s2⟩ := List.pairwise_cons.mp h2
      refine ih _ _ _ (by simp) s2 (by simp) (fun c hc => h4 c (by simp [hc])) ?_
      split_ifs
      · exact ⟨h.sorted, by simp, fun q hq c hc => h.soft q hq c (by simp [hc]), h.from_hard, h.from_soft⟩
      · refine h.push ⟨p, false⟩ (fun q hq => h.soft q hq p (by simp)) (by simp) (fun c hc => ⟨by simp [hc], s1 c hc⟩)
          (by simp) (fun _ => h4 p (by simp))
    | a :: hard, p :: soft =>
      unfold merge
      obtain ⟨s1, s2⟩ := List.pairwise_cons.mp h1
      obtain ⟨t1, t2⟩ := List.pairwise_cons.mp h2
      split_ifs with c1 c2
      · refine ih _ _ _ s2 t2 (fun c hc => h3 c (by simp [hc])) (fun c hc => h4 c (by simp [hc])) ?_
        refine h.push ⟨a, true⟩ (fun q hq => h.hard q hq a (by simp)) (fun c hc => ⟨by simp [hc], s1 c hc⟩)
          (fun c hc => ⟨by simp [hc], by subst c2; exact t1 c hc⟩) (fun _ => h3 a (by simp)) (by simp)
      · refine ih _ _ _ s2 h2 (fun c hc => h3 c (by simp [hc])) h4 ?_
        refine h.push ⟨a, true⟩ (fun q hq => h.hard q hq a (by simp)) (fun c hc => ⟨by simp [hc], s1 c hc⟩)
          (fun c hc => ⟨hc, ?_⟩) (fun _ => h3 a (by simp)) (by simp)
        rcases List.mem_cons.mp hc with rfl | hc
        · show a < c; omega
        · have := t1 c hc; show a < c; omega
      · refine ih _ _ _ h1 t2 h3 (fun c hc => h4 c (by simp [hc])) ?_
        exact ⟨h.sorted, h.hard, fun q hq c hc => h.soft q hq c (by simp [hc]), h.from_hard, h.from_soft⟩
      · refine ih _ _ _ h1 t2 h3 (fun c hc => h4 c (by simp [hc])) ?_
        refine h.push ⟨p, false⟩ (fun q hq => h.soft q hq p (by simp)) (fun c hc => ⟨hc, ?_⟩) (fun c hc => ⟨by simp [hc], t1 c hc⟩)
          (by simp) (fun _ => h4 p (by simp))
        rcases List.mem_cons.mp hc with rfl | hc
        · show p < c; omega
        · have := s1 c hc; show p < c; omega

theorem medianMaxSize_ge (rate inc : Nat) : 7 ≤ medianMaxSize rate inc := by unfold medianMaxSize; omega

theorem smooth_length (df : List Rat) : (smoothDF df).length = df.length := by simp [smoothDF]

/-- Everything about the peaks at once. -/
theorem findPeaks_spec (s : Calc) (rawDf : List Rat) {W : Nat → List Rat → Prop}
    (hW : WinInv (smoothDF rawDf) (medianMaxSize s.sampleRate s.increment) W)
    (h0 : W 0 (firstWindow (smoothDF rawDf) (medianMaxSize s.sampleRate s.increment))) {Q : Nat → Prop}
    (hQ : ∀ i win, W i win → ∀ x y z, win[medianMaxSize s.sampleRate s.increment / 2]? = some x →
      win[medianMaxSize s.sampleRate s.increment / 2 - 1]? = some y → win[medianMaxSize s.sampleRate s.increment / 2 + 1]? = some z →
      y < x → z < x → Q i) :
    ∃ ps, findPeaks s rawDf = some ps ∧ (ps.map (·.chunk)).Pairwise (· < ·) ∧ (∀ p ∈ ps, p.chunk < rawDf.length) ∧
      ∀ p ∈ ps, p.hard = false → Q p.chunk := by
  have hl := smooth_length rawDf
  have hh : ∃ r, hardPeaks s rawDf (smoothDF rawDf) = some r ∧ Good (smoothDF rawDf).length r := by
    unfold hardPeaks
    split_ifs
    · rcases Nat.lt_or_ge (smoothDF rawDf).length 2 with h | h
      · rw [show (smoothDF rawDf).length - 2 = 0 by omega]
        exact ⟨[], rfl, by simp [Good]⟩
      · exact hardLoop_some _ _ hl.symm _ _ _ _ _ (by omega) (by simp [Good])
    · exact ⟨[], rfl, by simp [Good]⟩
  obtain ⟨hard, h1, h2⟩ := hh
  obtain ⟨r, h3, h4, h5⟩ := softLoop_some (medianMaxSize_ge _ _) hW hQ (spacing s.sampleRate s.increment) (smoothDF rawDf).length 0
    { win := firstWindow (smoothDF rawDf) (medianMaxSize s.sampleRate s.increment) } h0 (by simp [Good]) (by simp)
  have hm := merge_spec (fun c => c < rawDf.length) (fun c => c < rawDf.length ∧ Q c) (hard.length + r.cands.length) hard r.cands []
    h2.1 h4.1 (fun c hc => by have := h2.2 c hc; omega) (fun c hc => ⟨by have := h4.2 c hc; omega, h5 c hc⟩)
    ⟨by simp, by simp, by simp, by simp, by simp⟩
  refine ⟨(merge (hard.length + r.cands.length) hard r.cands []).reverse, ?_, ?_, ?_, ?_⟩
  · unfold findPeaks
    simp only
    rw [h1]
    simp only [Option.bind_eq_bind, Option.bind_some]
    rw [h3]
    rfl
  · rw [List.pairwise_map, List.pairwise_reverse]
    exact hm.sorted
  · intro p hp
    rw [List.mem_reverse] at hp
    cases hb : p.hard with
    | true => exact hm.from_hard p hp hb
    | false => exact (hm.from_soft p hp hb).1
  · intro p hp hb
    rw [List.mem_reverse] at hp
    exact (hm.from_soft p hp hb).2

/-! ## C18 -/

/-- C18 in full. -/
def C18_statement : Prop :=
  ∀ (s : Calc), 0 < s.sampleRate → 0 < s.increment → ∀ df : List Rat,
    ∃ ps, findPeaks s df = some ps ∧ (ps.map (·.chunk)).Pairwise (· < ·) ∧ ∀ p ∈ ps, p.chunk < df.length

theorem shift_length (df win : List Rat) (pop : Bool) (n : Nat) (h : 0 < win.length) : win.length ≤ (shiftWindow df win pop n).length := by
  unfold shiftWindow
  cases pop <;> simp
  omega

/-- **C18 (partial).**  The peaks found are in strictly increasing order and within the function, for every
function of other than one value.  Missing: functions of one value, for which the code reads
beyond its window (`C18_violated`). -/
theorem C18_partial (s : Calc) {df : List Rat} (hn : df.length ≠ 1) :
    ∃ ps, findPeaks s df = some ps ∧ (ps.map (·.chunk)).Pairwise (· < ·) ∧ ∀ p ∈ ps, p.chunk < df.length := by
  rcases Nat.eq_zero_or_pos df.length with h | h
  · have : df = [] := List.eq_nil_of_length_eq_zero h
    subst this
    refine ⟨[], ?_, by simp, by simp⟩
    unfold findPeaks hardPeaks
    simp [smoothDF, hardLoop, softLoop, merge]
  · obtain ⟨ps, h1, h2, h3, _⟩ := findPeaks_spec s df (W := fun _ win => medianMaxSize s.sampleRate s.increment / 2 + 2 ≤ win.length)
      (Q := fun _ => True) ⟨fun _ _ h => h, fun i win h => le_trans h (shift_length _ _ _ _ (by omega))⟩
      (by
        have := medianMaxSize_ge s.sampleRate s.increment
        have := smooth_length df
        simp [firstWindow]
        omega) (fun _ _ _ _ _ _ _ _ _ _ _ => trivial)
    exact ⟨ps, h1, h2, h3⟩

namespace Ex
/-- A calculator with a short window, for examples. -/
def coarse (hard : Bool) : Calc := { sampleRate := 44100, increment := 5513, useHardPeaks := hard }
end Ex

/-- Two onsets: a hard and a soft peak, in order. -/
example : findPeaks (Ex.coarse true) [0, 0, 0, 0, 0, 1, 0, 0, 0, 0, 0, 0, 0, 1 / 5, 1 / 2, 1 / 5, 0, 0, 0] = some [⟨5, true⟩, ⟨14, true⟩] := by
  decide +kernel

/-- **C18 is violated** by a function of one value: there is no value after the middle of the window. -/
theorem C18_violated : ¬ C18_statement := by
  intro h
  obtain ⟨ps, h1, _⟩ := h (Ex.coarse true) (by decide) (by decide) [1]
  have : findPeaks (Ex.coarse true) [1] = none := by decide +kernel
  rw [this] at h1
  cases h1

/-! ## C50 -/

/-- Where a function is above both its neighbours; beyond its ends it is zero. -/
def LocalMax (df : List Rat) (i : Nat) : Prop :=
  (if i = 0 then 0 else df.getD (i - 1) 0) < df.getD i 0 ∧ df.getD (i + 1) 0 < df.getD i 0

/-- C50 in full. -/
def C50_statement : Prop :=
  ∀ (s : Calc), 0 < s.sampleRate → 0 < s.increment → ∀ df : List Rat, df.length ≠ 1 →
    ∀ ps, findPeaks s df = some ps → ∀ p ∈ ps, p.hard = false → LocalMax (smoothDF df) p.chunk

/-- The values that pass through a window of even size `2h`. -/
def evenSeq (df : List Rat) (h k : Nat) : Rat := if k < h then 0 else df.getD (k - h) 0

/-- The values that pass through a window of odd size `2h + 1`: one is left out. -/
def oddSeq (df : List Rat) (h k : Nat) : Rat :=
  if k < h then 0 else if k ≤ 2 * h then df.getD (k - h) 0 else df.getD (k - h + 1) 0

theorem first_get (df : List Rat) (m : Nat) (hn : m / 2 ≤ df.length) {j : Nat} (hj : j < m / 2 + m / 2) :
    (firstWindow df m)[j]? = some (evenSeq df (m / 2) j) := by
  unfold firstWindow evenSeq
  split_ifs with c
  · rw [List.getElem?_append_left (by simpa using c)]
    simp [c]
  · rw [List.getElem?_append_right (by simp; omega)]
    have : j - m / 2 < df.length := by omega
    rw [List.length_replicate, List.getElem?_take_of_lt (by omega), List.getElem?_eq_getElem this]
    simp [List.getD, List.getElem?_eq_getElem this]

theorem shift_get_pop (df win : List Rat) (n : Nat) {j : Nat} (hj : j + 1 < win.length) :
    (shiftWindow df win true n)[j]? = win[j + 1]? := by
  unfold shiftWindow
  rw [if_pos rfl, List.getElem?_append_left (by simp; omega), List.getElem?_drop]
  congr 1; omega

theorem shift_get_last (df win : List Rat) (n : Nat) (hl : 0 < win.length) :
    (shiftWindow df win true n)[win.length - 1]? = some (df.getD n 0) := by
  have := hl
  unfold shiftWindow
  rw [if_pos rfl, List.getElem?_append_right (by simp)]
  simp

theorem shift_get_keep (df win : List Rat) (n : Nat) {j : Nat} (hj : j < win.length) :
    (shiftWindow df win false n)[j]? = win[j]? := by
  unfold shiftWindow
  rw [if_neg (by simp), List.getElem?_append_left hj]

theorem shift_get_keep_last (df win : List Rat) (n : Nat) :
    (shiftWindow df win false n)[win.length]? = some (df.getD n 0) := by
  unfold shiftWindow
  rw [if_neg (by simp), List.getElem?_append_right (by simp)]
  simp

/-- The window of even size. -/
def EvenWin (df : List Rat) (h i : Nat) (win : List Rat) : Prop :=
  win.length = 2 * h ∧ ∀ j < 2 * h, win[j]? = some (evenSeq df h (i + j))

theorem evenWin_inv (df : List Rat) {m : Nat} (hm : 7 ≤ m) (he : m % 2 = 0) : WinInv df m (EvenWin df (m / 2)) := by
  have e : 2 * (m / 2) = m := by omega
  constructor
  · intro i win h
    have := h.1
    omega
  · intro i win h
    obtain ⟨h1, h2⟩ := h
    have hmin : min m win.length = m := by omega
    rw [hmin]
    have hp : (decide (m ≥ m)) = true := by simp
    rw [hp]
    refine ⟨?_, ?_⟩
    · unfold shiftWindow; simp; omega
    · intro j hj
      rcases Nat.lt_or_ge (j + 1) win.length with c | c
      · rw [shift_get_pop _ _ _ c, h2 (j + 1) (by omega)]
        congr 2; omega
      · have : j = win.length - 1 := by omega
        rw [this, shift_get_last _ _ _ (by omega)]
        unfold evenSeq
        rw [if_neg (by omega)]
        congr 2; omega

/-- The window of odd size. -/
def OddWin (df : List Rat) (h i : Nat) (win : List Rat) : Prop :=
  (i = 0 ∧ win.length = 2 * h ∧ ∀ j < 2 * h, win[j]? = some (oddSeq df h j)) ∨
  (0 < i ∧ win.length = 2 * h + 1 ∧ ∀ j < 2 * h + 1, win[j]? = some (oddSeq df h (i - 1 + j)))

theorem oddWin_inv (df : List Rat) {m : Nat} (hm : 7 ≤ m) (he : m % 2 = 1) : WinInv df m (OddWin df (m / 2)) := by
  have e : 2 * (m / 2) + 1 = m := by omega
  constructor
  · intro i win h
    rcases h with ⟨_, h, _⟩ | ⟨_, h, _⟩ <;> omega
  · intro i win h
    right
    rcases h with ⟨h0, h1, h2⟩ | ⟨h0, h1, h2⟩
    · have hmin : min m win.length = win.length := by omega
      rw [hmin]
      have hp : (decide (win.length ≥ m)) = false := by simp; omega
      rw [hp]
      refine ⟨by omega, by unfold shiftWindow; simp; omega, ?_⟩
      intro j hj
      rcases Nat.lt_or_ge j win.length with c | c
      · rw [shift_get_keep _ _ _ c, h2 j (by omega)]
        congr 2; omega
      · have : j = win.length := by omega
        rw [this, shift_get_keep_last]
        unfold oddSeq
        rw [if_neg (by omega), if_pos (by omega)]
        congr 2
    · have hmin : min m win.length = m := by omega
      rw [hmin]
      have hp : (decide (m ≥ m)) = true := by simp
      rw [hp]
      refine ⟨by omega, by unfold shiftWindow; simp; omega, ?_⟩
      intro j hj
      rcases Nat.lt_or_ge (j + 1) win.length with c | c
      · rw [shift_get_pop _ _ _ c, h2 (j + 1) (by omega)]
        congr 2; omega
      · have : j = win.length - 1 := by omega
        rw [this, shift_get_last _ _ _ (by omega)]
        unfold oddSeq
        rw [if_neg (by omega), if_neg (by omega)]
        congr 2; omega

/-- **C50 (partial).**  True of every soft peak if the window (a second of chunks, rounded up, and at least
seven) is of even size, and of soft peaks more than two chunks beyond half the window if it is of odd size, for
functions at least half as long as the window.  Missing: earlier peaks for windows of odd
size, and shorter functions (`C50_violated`, `C50_violated_short`). -/
theorem C50_partial (s : Calc) {df : List Rat} (hlong : max 7 ((s.sampleRate : Rat) / s.increment).ceil.toNat / 2 ≤ df.length)
    {ps : List Peak} (hps : findPeaks s df = some ps) {p : Peak} (hp : p ∈ ps) (hsoft : p.hard = false)
    (hsize : max 7 ((s.sampleRate : Rat) / s.increment).ceil.toNat % 2 = 0 ∨
      max 7 ((s.sampleRate : Rat) / s.increment).ceil.toNat / 2 + 2 < p.chunk) :
    LocalMax (smoothDF df) p.chunk := by
  change medianMaxSize s.sampleRate s.increment / 2 ≤ df.length at hlong
  change medianMaxSize s.sampleRate s.increment % 2 = 0 ∨ medianMaxSize s.sampleRate s.increment / 2 + 2 < p.chunk at hsize
  have hm := medianMaxSize_ge s.sampleRate s.increment
  have hl := smooth_length df
  have hfl : (firstWindow (smoothDF df) (medianMaxSize s.sampleRate s.increment)).length =
      2 * (medianMaxSize s.sampleRate s.increment / 2) := by
    simp [firstWindow]; omega
  generalize hM : medianMaxSize s.sampleRate s.increment = m at *
  rcases Nat.mod_two_eq_zero_or_one m with he | ho
  · obtain ⟨ps', h1, _, _, h4⟩ := findPeaks_spec s df (Q := LocalMax (smoothDF df)) (W := EvenWin (smoothDF df) (m / 2))
      (by rw [hM]; exact evenWin_inv _ hm he)
      (by
        rw [hM]
        refine ⟨hfl, fun j hj => ?_⟩
        rw [first_get _ _ (by omega) (by omega)]
        congr 2; omega)
      (by
        rw [hM]
        rintro i win ⟨w1, w2⟩ x y z hx hy hz hyx hzx
        rw [w2 _ (by omega)] at hx hy hz
        cases hx; cases hy; cases hz
        unfold evenSeq at hyx hzx
        rw [if_neg (show ¬ i + m / 2 < m / 2 by omega), show i + m / 2 - m / 2 = i by omega] at hyx hzx
        rw [if_neg (show ¬ i + (m / 2 + 1) < m / 2 by omega), show i + (m / 2 + 1) - m / 2 = i + 1 by omega] at hzx
        refine ⟨?_, hzx⟩
        rcases Nat.eq_zero_or_pos i with c | c
        · rw [if_pos c]; rw [if_pos (by omega)] at hyx; exact hyx
        · rw [if_neg (by omega)]
          rw [if_neg (by omega), show i + (m / 2 - 1) - m / 2 = i - 1 by omega] at hyx
          exact hyx)
    rw [hps] at h1
    cases h1
    exact h4 p hp hsoft
  · obtain ⟨ps', h1, _, _, h4⟩ := findPeaks_spec s df (Q := fun i => m / 2 + 2 < i → LocalMax (smoothDF df) i) (W := OddWin (smoothDF df) (m / 2))
      (by rw [hM]; exact oddWin_inv _ hm ho)
      (by
        rw [hM]
        refine Or.inl ⟨rfl, hfl, fun j hj => ?_⟩
        rw [first_get _ _ (by omega) (by omega)]
        unfold evenSeq oddSeq
        split_ifs <;> first | rfl | omega)
      (by
        rw [hM]
        rintro i win hwin x y z hx hy hz hyx hzx hi
        rcases hwin with ⟨w0, _⟩ | ⟨_, w1, w2⟩
        · omega
        rw [w2 _ (by omega)] at hx hy hz
        cases hx; cases hy; cases hz
        unfold oddSeq at hyx hzx
        rw [if_neg (show ¬ i - 1 + m / 2 < m / 2 by omega), if_neg (show ¬ i - 1 + m / 2 ≤ 2 * (m / 2) by omega),
          show i - 1 + m / 2 - m / 2 + 1 = i by omega] at hyx hzx
        rw [if_neg (show ¬ i - 1 + (m / 2 + 1) < m / 2 by omega), if_neg (show ¬ i - 1 + (m / 2 + 1) ≤ 2 * (m / 2) by omega),
          show i - 1 + (m / 2 + 1) - m / 2 + 1 = i + 1 by omega] at hzx
        rw [if_neg (show ¬ i - 1 + (m / 2 - 1) < m / 2 by omega), if_neg (show ¬ i - 1 + (m / 2 - 1) ≤ 2 * (m / 2) by omega),
          show i - 1 + (m / 2 - 1) - m / 2 + 1 = i - 1 by omega] at hyx
        refine ⟨?_, hzx⟩
        rw [if_neg (by omega)]
        exact hyx)
    rw [hps] at h1
    cases h1
    exact h4 p hp hsoft (by rcases hsize with h | h; omega; exact h)

/-- A soft peak after a hard one; the window is of eight chunks. -/
example : findPeaks (Ex.coarse true) [0, 0, 0, 0, 0, 1 / 5, 1, 1 / 5, 0, 0, 0, 0, 0, 0, 1 / 10, 1 / 5, 1 / 10, 0, 0, 0] =
    some [⟨6, true⟩, ⟨15, false⟩] := by
  decide +kernel

/-- **C50 is violated** when the window is of odd size (here seven chunks): the peak at chunk 3 is reported
at chunk 4, where the function is falling. -/
theorem C50_violated : ¬ C50_statement := by
  intro h
  have := h { sampleRate := 44100, increment := 6300, useHardPeaks := false } (by decide) (by decide)
    [0, 0, 1, 3, 1, 0, 0, 0, 0, 0] (by decide) [⟨4, false⟩] (by decide +kernel) ⟨4, false⟩ (by simp) rfl
  revert this
  unfold LocalMax
  decide +kernel

/-- It is violated too by functions shorter than half the window: the peak at chunk 1 of 3 is reported at
chunk 2. -/
theorem C50_violated_short : ¬ ∀ df : List Rat, df.length ≠ 1 → ∀ ps, findPeaks (Ex.coarse false) df = some ps →
    ∀ p ∈ ps, p.hard = false → LocalMax (smoothDF df) p.chunk := by
  intro h
  have := h [1, 0, 1] (by decide) [⟨2, false⟩] (by decide +kernel) ⟨2, false⟩ (by simp) rfl
  revert this
  unfold LocalMax
  decide +kernel

end Verif.StretchCalc
