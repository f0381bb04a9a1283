import Verif.PhaseSafe
/-!
# Phase locking: C66
-/
namespace Verif.PhaseAdvance
open Verif.Guide

variable {K : Type} [Field K] [LinearOrder K] [IsStrictOrderedRing K] [FloorRing K]

/-! ## Specification -/

/-- The first and last bin of a band; the last is not above the highest bin that the size is used for. -/
def firstBin (p : Params) (b : LockBand) : Nat := (binForFrequency b.f0 p.fftSize p.guide.rate).toNat
def lastBin (p : Params) (highest : Nat) (b : LockBand) : Nat := min (binForFrequency b.f1 p.fftSize p.guide.rate).toNat highest

/-- The bin is one of the band's. -/
def Covers (p : Params) (highest : Nat) (b : LockBand) (i : Nat) : Prop := binForFrequency b.f0 p.fftSize p.guide.rate ≤ i ∧ (i : Int) ≤ binForFrequency b.f1 p.fftSize p.guide.rate ∧ i ≤ highest

/-- Bin `i` belongs to the `j`-th band in use, and to no later one. -/
structure InBand (p : Params) (highest : Nat) (g : Guidance) (j : Nat) (b : LockBand) (i : Nat) : Prop where
  band : g.lockBands[j]? = some b
  covers : Covers p highest b i
  above : ∀ j' b', j' < j → g.lockBands[j']? = some b' → b'.f1 < freq p i
  below : freq p i ≤ b.f1
  later : ∀ j' b', j < j' → g.lockBands[j']? = some b' → ¬ Covers p highest b' i

/-- The bin's phase follows a peak in the same channel. -/
structure Follows (p : Params) (ms : Bool) (inhop outhop : Nat) (xs : List (Input K)) (k : Nat) (x : Input K) (i : Nat) : Prop where
  hops : inhop ≠ outhop
  noReset : ¬ Resets p x i
  noSide : sideReset ms xs (freq p i) k = false
  locked : ¬ Guide.inRange (freq p i) x.guidance.highUnlocked
  alone : ¬ Guide.inRange (freq p i) x.guidance.channelLock

/-- `m` is the peak nearest to `i` among the band's bins. -/
def BandPeak (p : Params) (highest : Nat) (mag : List K) (b : LockBand) (i m : Nat) : Prop :=
  Peak.IsNearest (Peak.IsPeak (fun a b => decide (a > b)) mag (firstBin p b) (lastBin p highest b + 1) b.p) i m

/-- `q` is the peak nearest to `m` among the bins in use, one bin to each side deciding. -/
def PlainPeak (lo n : Nat) (mag : List K) (m q : Nat) : Prop :=
  Peak.IsNearest (Peak.IsPeak (fun a b => decide (a > b)) mag lo (lo + n) 1) m q

/-! ## Peaks -/

theorem isNearest_unique {P : Nat → Prop} {i a b : Nat} (ha : Peak.IsNearest P i a) (hb : Peak.IsNearest P i b) : a = b := by
  obtain ⟨a1, a2⟩ := ha
  obtain ⟨b1, b2⟩ := hb
  have h1 := a2 b b1
  have h2 := b2 a a1
  have e : Peak.dist i a = Peak.dist i b := by omega
  have := h1.2 e
  have := h2.2 e.symm
  omega

theorem isNearest_self {P : Nat → Prop} {i a : Nat} (ha : Peak.IsNearest P i a) : Peak.IsNearest P a a := by
  refine ⟨ha.1, fun r _ => ⟨?_, ?_⟩⟩
  · unfold Peak.dist
    rw [if_pos (le_refl a)]
    omega
  · unfold Peak.dist
    rw [if_pos (le_refl a)]
    split <;> omega

omit [Field K] [IsStrictOrderedRing K] [FloorRing K] in
theorem bandPeaks_at {p : Params} (hr : 0 < p.guide.rate) {lo n : Nat} (hn1 : 1 ≤ n) (hn : lo + n ≤ p.bins) {mag : List K} (hm : p.bins ≤ mag.length) {b : LockBand} (hb : 0 ≤ b.f0)
    {peaks r : List Int} (hl : peaks.length = p.bins) (h : bandPeaks p lo ((lo : Int) + n - 1) mag b peaks = some r) {i : Nat} (i1 : lo ≤ i) (i2 : i < lo + n) :
    (Covers p (lo + n - 1) b i → ∃ q : Nat, r[i]? = some (q : Int) ∧ BandPeak p (lo + n - 1) mag b i q) ∧ (¬ Covers p (lo + n - 1) b i → r[i]? = peaks[i]?) := by
  have hs : 0 ≤ binForFrequency b.f0 p.fftSize p.guide.rate := by
    unfold binForFrequency
    apply Round.roundAway_nonneg
    positivity
  unfold bandPeaks at h
  simp only at h
  unfold Covers BandPeak firstBin lastBin
  generalize binForFrequency b.f0 p.fftSize p.guide.rate = s at *
  generalize binForFrequency b.f1 p.fftSize p.guide.rate = e at *
  by_cases h1 : s > (lo : Int) + n - 1 ∨ e < lo
  · rw [if_pos h1] at h
    cases h
    refine ⟨fun hc => ?_, fun _ => rfl⟩
    omega
  · rw [if_neg h1] at h
    have he : (if e > (lo : Int) + n - 1 then (lo : Int) + n - 1 else e) = ((min e.toNat (lo + n - 1) : Nat) : Int) := by
      split
      · rw [Nat.min_eq_right (by omega)]; omega
      · rw [Nat.min_eq_left (by omega)]; omega
    rw [he] at h
    have hmin := Nat.min_le_left e.toNat (lo + n - 1)
    have hmax : ∀ t : Nat, (t : Int) ≤ e → t ≤ lo + n - 1 → t ≤ min e.toNat (lo + n - 1) := fun t h1 h2 => le_min (by omega) h2
    generalize min e.toNat (lo + n - 1) = e' at *
    have he' : e' ≤ lo + n - 1 := by
      have : (e' : Int) ≤ (lo : Int) + n - 1 := by rw [← he]; split <;> omega
      omega
    by_cases h2 : (e' : Int) - s + 1 < 1
    · rw [if_pos h2] at h
      cases h
      exact ⟨fun hc => by have := hmax i hc.2.1 hc.2.2; omega, fun _ => rfl⟩
    · rw [if_neg h2, if_neg (by omega)] at h
      obtain ⟨near, n1, n2, n3, n4⟩ := nearest_only p.bins mag s.toNat ((e' : Int) - s + 1).toNat b.p (by omega) (by omega) (by omega) peaks (by omega)
      rw [n1] at h
      cases h
      have hse : s.toNat + ((e' : Int) - s + 1).toNat = e' + 1 := by omega
      rw [hse] at n3 n4
      refine ⟨fun hc => ?_, fun hc => n3 i (by omega)⟩
      obtain ⟨q, q1, _, _, q4⟩ := n4 i (by omega) (by have := hmax i hc.2.1 hc.2.2; omega)
      exact ⟨q, q1, q4⟩

omit [Field K] [IsStrictOrderedRing K] [FloorRing K] in
/-- The peak of a bin is that of the last band that covers it. -/
theorem allPeaks_at {p : Params} (hr : 0 < p.guide.rate) {lo n : Nat} (hn1 : 1 ≤ n) (hn : lo + n ≤ p.bins) {mag : List K} (hm : p.bins ≤ mag.length) {i : Nat} (i1 : lo ≤ i) (i2 : i < lo + n) :
    ∀ (bs : List LockBand) (peaks r : List Int), (∀ b ∈ bs, 0 ≤ b.f0) → peaks.length = p.bins → (∀ x ∈ peaks, 0 ≤ x ∧ x < (p.bins : Int)) →
    allPeaks p lo ((lo : Int) + n - 1) mag bs peaks = some r →
    ((∀ b ∈ bs, ¬ Covers p (lo + n - 1) b i) → r[i]? = peaks[i]?) ∧
    ∀ (j : Nat) b, bs[j]? = some b → Covers p (lo + n - 1) b i → (∀ (j' : Nat) b', j < j' → bs[j']? = some b' → ¬ Covers p (lo + n - 1) b' i) → ∃ q : Nat, r[i]? = some (q : Int) ∧ BandPeak p (lo + n - 1) mag b i q := by
  intro bs
  induction bs with
  | nil => intro peaks r _ _ _ h; cases h; exact ⟨fun _ => rfl, fun j b h => by simp at h⟩
  | cons b bs ih =>
    intro peaks r hb hl hp h
    obtain ⟨r1, e1, e2, e3⟩ := bandPeaks_in hr hn hm (hb b (by simp)) hl hp
    obtain ⟨f1, f2⟩ := bandPeaks_at hr hn1 hn hm (hb b (by simp)) hl e1 i1 i2
    unfold allPeaks at h
    rw [e1, Option.bind_some] at h
    obtain ⟨g1, g2⟩ := ih r1 r (fun b h => hb b (by simp [h])) e2 e3 h
    refine ⟨fun hno => ?_, fun j b' hj hc hlater => ?_⟩
    · rw [g1 (fun b h => hno b (by simp [h])), f2 (hno b (by simp))]
    · cases j with
      | zero =>
        cases hj
        have : r[i]? = r1[i]? := g1 (fun b' hb' => by
          obtain ⟨t, ht⟩ := List.mem_iff_getElem?.mp hb'
          exact hlater (t + 1) b' (by omega) ht)
        rw [this]
        exact f1 hc
      | succ j => exact g2 j b' hj hc (fun j' b'' h1 h2 => hlater (j' + 1) b'' (by omega) h2)

/-! ## Bands by frequency -/

theorem freq_le {p : Params} (hr : 0 < p.guide.rate) {a b : Nat} (h : a ≤ b) : freq p a ≤ freq p b := by
  unfold freq frequencyForBin
  apply div_le_div_of_nonneg_right _ (by positivity)
  apply mul_le_mul_of_nonneg_right _ hr.le
  exact_mod_cast h

/-- The band the code comes to is the first that does not end below the frequency, or the last. -/
structure Sought (g : Guidance) (f : Rat) (b : Nat) : Prop where
  above : ∀ j' b', j' < b → lockAt g j' = some b' → b'.f1 < f
  below : ∀ b', lockAt g b = some b' → f ≤ b'.f1 ∨ g.lockBandCount ≤ b + 1

theorem seekBand_sought {g : Guidance} (hg : g.lockBandCount ≤ 4) (f : Rat) : ∀ (rounds b r : Nat), 4 ≤ rounds + b → (∀ j' b', j' < b → lockAt g j' = some b' → b'.f1 < f) →
    seekBand g f rounds b = some r → Sought g f r := by
  intro rounds
  induction rounds with
  | zero =>
    intro b r hb ha h
    cases h
    exact ⟨ha, fun b' _ => Or.inr (by omega)⟩
  | succ rounds ih =>
    intro b r hb ha h
    unfold seekBand at h
    obtain ⟨band, h1, h⟩ := Option.bind_eq_some_iff.mp h
    split at h
    · rename_i hc
      refine ih (b + 1) r (by omega) ?_ h
      intro j' b' hj hb'
      rcases Nat.lt_or_eq_of_le (Nat.lt_succ_iff.mp hj) with hlt | rfl
      · exact ha j' b' hlt hb'
      · rw [h1] at hb'
        cases hb'
        exact hc.1
    · rename_i hc
      cases h
      refine ⟨ha, fun b' hb' => ?_⟩
      rw [h1] at hb'
      cases hb'
      by_contra hn
      push Not at hn
      exact hc ⟨hn.1, by omega⟩

theorem bandAt_sought {p : Params} (hr : 0 < p.guide.rate) {g : Guidance} (hg : g.lockBandCount ≤ 4) (lo : Nat) : ∀ (k r : Nat), bandAt p g lo k = some r → Sought g (freq p (lo + k)) r := by
  intro k
  induction k with
  | zero =>
    intro r h
    exact seekBand_sought hg _ 4 0 r (by omega) (fun j' b' h => by omega) h
  | succ k ih =>
    intro r h
    unfold bandAt at h
    obtain ⟨b, h1, h⟩ := Option.bind_eq_some_iff.mp h
    have hb := ih b h1
    refine seekBand_sought hg _ 4 b r (by omega) (fun j' b' hj hb' => ?_) h
    exact lt_of_lt_of_le (hb.above j' b' hj hb') (freq_le hr (by omega))

theorem lockBands_lockAt {g : Guidance} {j : Nat} {b : LockBand} (h : g.lockBands[j]? = some b) : lockAt g j = some b ∧ j < g.lockBandCount := by
  unfold Guidance.lockBands at h
  rw [List.getElem?_take] at h
  split at h
  · rename_i hj
    exact ⟨h, hj⟩
  · cases h

/-- A bin of a band is taken to be in it. -/
theorem inBand_bandAt {p : Params} (hr : 0 < p.guide.rate) {g : Guidance} (hg : g.lockBandCount ≤ 4) {highest lo i j : Nat} {b : LockBand} (h : InBand p highest g j b i) (hi : lo ≤ i) {r : Nat}
    (hb : bandAt p g lo (i - lo) = some r) : r = j := by
  have hs := bandAt_sought hr hg lo (i - lo) r hb
  rw [Nat.add_sub_cancel' hi] at hs
  obtain ⟨l1, l2⟩ := lockBands_lockAt h.band
  rcases Nat.lt_trichotomy r j with hlt | rfl | hgt
  · exfalso
    have hr4 : r < 4 := by omega
    have : ∃ band, lockAt g r = some band := by
      unfold lockAt
      rw [List.getElem?_eq_getElem (by simpa using hr4)]
      exact ⟨_, rfl⟩
    obtain ⟨band, hband⟩ := this
    have hlb : g.lockBands[r]? = some band := by
      unfold Guidance.lockBands
      rw [List.getElem?_take, if_pos (by omega)]
      exact hband
    have h1 := h.above r band hlt hlb
    rcases hs.below band hband with h2 | h2
    · linarith
    · omega
  · rfl
  · exfalso
    have h1 := hs.above j b hgt l1
    have h2 := h.below
    linarith

/-! ## C66 -/

theorem inRange_false {f : Rat} {r : Range} (h : ¬ Guide.inRange f r) : inRange f r = false := by
  cases hb : inRange f r with
  | false => rfl
  | true => exact absurd ((inRange_iff f r).mp hb) h

omit [IsStrictOrderedRing K] in
/-- What a bin that follows a peak is given. -/
theorem follows_phase {p : Params} (hp : p.guide.Supported) {ms : Bool} {inhop outhop lo n : Nat} (hn1 : 1 ≤ n) (hn : lo + n ≤ p.bins) {pi : K} {mids : List (Chan K)} {xs : List (Input K)} {k i j : Nat}
    {ch mid : Chan K} {x : Input K} {b : LockBand} (hf : Fit p ch) (hx : Valid p x) (hxs : xs[k]? = some x) (hmid : mids[k]? = some mid) (hm : Mid pi p inhop outhop lo n ch x mid)
    (i1 : lo ≤ i) (i2 : i < lo + n) (fo : Follows p ms inhop outhop xs k x i) (hb : InBand p (lo + n - 1) x.guidance j b i) {ph : K}
    (h : binPhase p ms inhop outhop lo mids xs k mid x i = some ph) :
    ∃ m q : Nat, BandPeak p (lo + n - 1) x.mag b i m ∧ (lo ≤ m → m < lo + n → PlainPeak lo n x.prevMag m q) ∧ ∃ um om oq phi phm, get mid.unlocked m = some um ∧ get ch.prevOut m = some om ∧ get ch.prevOut q = some oq ∧
      x.phase[i]? = some phi ∧ x.phase[m]? = some phm ∧ ph = oq + (um - om) + (b.beta : K) * (phi - phm) ∧ get mid.prevPeaks m = some (q : Int) := by
  have hr : 0 < p.guide.rate := by have := hp.1; linarith
  have hlow := reachable_low hp hx.guidance
  obtain ⟨c', c1, c2, c3⟩ := hm.peaks
  -- the peaks
  unfold findPeaks at c1
  simp only [Option.bind_eq_bind] at c1
  obtain ⟨cur0, k1, c1⟩ := Option.bind_eq_some_iff.mp c1
  obtain ⟨cur, k2, c1⟩ := Option.bind_eq_some_iff.mp c1
  obtain ⟨prev, k3, c1⟩ := Option.bind_eq_some_iff.mp c1
  cases c1
  obtain ⟨l1, l2, l3⟩ := fill_facts _ _ _ _ _ k1
  have hin : ∀ x ∈ cur0, 0 ≤ x ∧ x < (p.bins : Int) := by
    intro y hy
    obtain ⟨t, t1, t2⟩ := List.mem_iff_getElem.mp hy
    have t3 : cur0[t]? = some y := by rw [List.getElem?_eq_getElem t1, t2]
    by_cases ht : lo ≤ t ∧ t < lo + n
    · rw [(l2 t ht.1 ht.2).1] at t3
      cases t3
      omega
    · rw [l3 t (by omega)] at t3
      exact hf.curIn y (List.mem_of_getElem? t3)
  obtain ⟨m, m1, m2⟩ := (allPeaks_at hr hn1 hn hx.mag i1 i2 x.guidance.lockBands cur0 cur (lockBands_low hlow.1) (by rw [l1, hf.cur]) hin k2).2 j b hb.band hb.covers hb.later
  obtain ⟨near, n1, n2, n3, n4⟩ := nearest_only p.bins x.prevMag lo n 1 (by omega) hn1 (by have := hx.prevMag; omega) ch.prevPeaks (by rw [hf.prev]; exact hn)
  rw [n1] at k3
  cases k3
  simp only at c2 c3
  -- the phase
  unfold binPhase at h
  simp only at h
  rw [if_neg (by
      rw [Bool.or_eq_true, inRange_iff, inRange_iff]
      exact fo.noReset), fo.noSide, if_neg (by simp), if_neg fo.hops, if_neg (by rw [inRange_false fo.locked]; simp)] at h
  unfold lockedPhase at h
  simp only [Option.bind_eq_bind] at h
  obtain ⟨peak, g1, h⟩ := Option.bind_eq_some_iff.mp h
  obtain ⟨prevPeak, g2, h⟩ := Option.bind_eq_some_iff.mp h
  obtain ⟨pc, g3, h⟩ := Option.bind_eq_some_iff.mp h
  obtain ⟨cc, g4, h⟩ := Option.bind_eq_some_iff.mp h
  obtain ⟨xx, g5, h⟩ := Option.bind_eq_some_iff.mp h
  obtain ⟨um, g6, h⟩ := Option.bind_eq_some_iff.mp h
  obtain ⟨om, g7, h⟩ := Option.bind_eq_some_iff.mp h
  obtain ⟨oq, g8, h⟩ := Option.bind_eq_some_iff.mp h
  obtain ⟨phi, g9, h⟩ := Option.bind_eq_some_iff.mp h
  obtain ⟨phm, g10, h⟩ := Option.bind_eq_some_iff.mp h
  obtain ⟨r, g11, h⟩ := Option.bind_eq_some_iff.mp h
  obtain ⟨band, g12, hfin⟩ := Option.bind_eq_some_iff.mp h
  rw [c2, m1] at g1
  cases g1
  unfold peakChannel at g3
  rw [inRange_false fo.alone] at g3
  cases g3
  rw [hmid] at g4
  cases g4
  rw [hxs] at g5
  cases g5
  have hj := inBand_bandAt hr hlow.2.count hb i1 g11
  subst hj
  rw [(lockBands_lockAt hb.band).1] at g12
  cases g12
  have hq0 : 0 ≤ prevPeak := by
    by_contra hneg
    unfold get at g8
    rw [if_pos (by omega)] at g8
    cases g8
  obtain ⟨q, rfl⟩ : ∃ q : Nat, prevPeak = (q : Int) := ⟨prevPeak.toNat, by omega⟩
  refine ⟨m, q, m2, ?_, um, om, oq, phi, phm, g6, by rw [← hm.prevOut]; exact g7, by rw [← hm.prevOut]; exact g8, g9, ?_, ?_, g2⟩
  · intro a1 a2
    obtain ⟨q', q1, _, _, q4⟩ := n4 m a1 a2
    unfold get at g2
    rw [if_neg (by omega), c3, show ((m : Int)).toNat = m by omega, q1] at g2
    cases g2
    exact q4
  · unfold get at g10
    rw [if_neg (by omega), show ((m : Int)).toNat = m by omega] at g10
    exact g10
  · cases hfin
    rfl

omit [IsStrictOrderedRing K] in
/-- **C66**: in every frame, whatever came before, a bin that is phase-locked keeps its input phase relative to the nearest peak of its band, times the band's factor `beta`: the difference between the phases put out for the
bin and for the peak is `beta` times that between the phases taken in. -/
theorem C66_locked {pi : K} {p : Params} (hp : p.guide.Supported) (hs : p.Scale) {ms : Bool} {inhop outhop : Nat} {cs cs' : List (Chan K)} {xs : List (Input K)} {outs outs' : List (List K)}
    (hcs : ∀ c ∈ cs, Fit p c) (hxs : ∀ x ∈ xs, Valid p x) (h : advance pi p ms inhop outhop cs xs outs = some (cs', outs'))
    {lo n : Nat} {x0 : Input K} (h0 : xs.head? = some x0) (hr : binRange p x0.guidance = some (lo, n))
    {k i m j : Nat} {x : Input K} {o' : List K} {b : LockBand} (hx : xs[k]? = some x) (ho : outs'[k]? = some o') (i1 : lo ≤ i) (i2 : i < lo + n) (m1 : lo ≤ m) (m2 : m < lo + n)
    (fi : Follows p ms inhop outhop xs k x i) (fm : Follows p ms inhop outhop xs k x m) (bi : InBand p (lo + n - 1) x.guidance j b i) (bm : InBand p (lo + n - 1) x.guidance j b m)
    (hpk : BandPeak p (lo + n - 1) x.mag b i m) :
    ∃ yi ym a am, o'[i]? = some yi ∧ o'[m]? = some ym ∧ x.phase[i]? = some a ∧ x.phase[m]? = some am ∧ Cong pi (yi - ym) ((b.beta : K) * (a - am)) := by
  obtain ⟨lo', n', e1, e2, e3⟩ := binRange_in hp hs (reachable_low hp (hxs x0 (List.mem_of_mem_head? h0)).guidance).2
  rw [hr] at e1
  cases e1
  obtain ⟨x0', lo', n', mids, g0, gr, l1, l2, l3, l4, l5, key⟩ := advance_facts h
  rw [h0] at g0
  cases g0
  rw [hr] at gr
  cases gr
  have hk : k < xs.length := (List.getElem?_eq_some_iff.mp hx).1
  obtain ⟨mid, ch', o'', q1, q2, q3, hm, ha⟩ := key k cs[k] x outs[k] (List.getElem?_eq_getElem (by omega)) hx (List.getElem?_eq_getElem (by omega))
  rw [ho] at q3
  cases q3
  have fc := hcs cs[k] (List.getElem_mem _)
  have fx := hxs x (List.mem_of_getElem? hx)
  obtain ⟨phi, a1, a2⟩ := ha.out i i1 i2
  obtain ⟨phm, b1, b2⟩ := ha.out m m1 m2
  obtain ⟨mi, qi, c1, _, um, om, oq, pi', pm', c3, c4, c5, c6, c7, c8, c9⟩ := follows_phase hp e2 e3 fc fx hx q1 hm i1 i2 fi bi a1
  obtain ⟨mm, qm, d1, _, um', om', oq', pi'', pm'', d3, d4, d5, d6, d7, d8, d9⟩ := follows_phase hp e2 e3 fc fx hx q1 hm m1 m2 fm bm b1
  have e : mi = m := isNearest_unique c1 hpk
  have e' : mm = m := isNearest_unique d1 (isNearest_self hpk)
  subst e
  subst e'
  rw [c9] at d9
  have hqq : qi = qm := by
    have := Option.some.inj d9
    omega
  subst hqq
  rw [c3] at d3
  cases d3
  rw [c4] at d4
  cases d4
  rw [c5] at d5
  cases d5
  rw [c7] at d6 d7
  cases d6
  cases d7
  refine ⟨_, _, _, _, a2, b2, c6, c7, ?_⟩
  obtain ⟨s, hs⟩ := princarg_cong pi phi
  obtain ⟨t, ht⟩ := princarg_cong pi phm
  refine ⟨s - t, ?_⟩
  rw [c8] at hs ⊢
  rw [d8] at ht ⊢
  push_cast
  linear_combination hs - ht

omit [IsStrictOrderedRing K] in
/-- **C66**, the peak: it goes on from the phase put out for the peak it comes from (the nearest one of the frame before), by its own advance times the ratio. -/
theorem C66_peak {pi : K} {p : Params} (hp : p.guide.Supported) (hs : p.Scale) {ms : Bool} {inhop outhop : Nat} {cs cs' : List (Chan K)} {xs : List (Input K)} {outs outs' : List (List K)}
    (hcs : ∀ c ∈ cs, Fit p c) (hxs : ∀ x ∈ xs, Valid p x) (h : advance pi p ms inhop outhop cs xs outs = some (cs', outs'))
    {lo n : Nat} {x0 : Input K} (h0 : xs.head? = some x0) (hr : binRange p x0.guidance = some (lo, n))
    {k m j : Nat} {x : Input K} {c : Chan K} {o' : List K} {b : LockBand} (hx : xs[k]? = some x) (hc : cs[k]? = some c) (ho : outs'[k]? = some o') (m1 : lo ≤ m) (m2 : m < lo + n)
    (fm : Follows p ms inhop outhop xs k x m) (bm : InBand p (lo + n - 1) x.guidance j b m) (hpk : BandPeak p (lo + n - 1) x.mag b m m) :
    ∃ q y before was is, PlainPeak lo n x.prevMag m q ∧ o'[m]? = some y ∧ c.prevOut[q]? = some before ∧ c.prevIn[m]? = some was ∧ x.phase[m]? = some is ∧
      Cong pi y (before + (outhop : K) / inhop * (2 * pi * inhop / p.fftSize * m + princarg pi (is - (was + 2 * pi * inhop / p.fftSize * m)))) := by
  obtain ⟨lo', n', e1, e2, e3⟩ := binRange_in hp hs (reachable_low hp (hxs x0 (List.mem_of_mem_head? h0)).guidance).2
  rw [hr] at e1
  cases e1
  obtain ⟨x0', lo', n', mids, g0, gr, l1, l2, l3, l4, l5, key⟩ := advance_facts h
  rw [h0] at g0
  cases g0
  rw [hr] at gr
  cases gr
  have hk : k < xs.length := (List.getElem?_eq_some_iff.mp hx).1
  obtain ⟨mid, ch', o'', q1, q2, q3, hm, ha⟩ := key k c x outs[k] hc hx (List.getElem?_eq_getElem (by omega))
  rw [ho] at q3
  cases q3
  have fc := hcs c (List.mem_of_getElem? hc)
  have fx := hxs x (List.mem_of_getElem? hx)
  obtain ⟨phm, b1, b2⟩ := ha.out m m1 m2
  obtain ⟨mm, q, d1, d2, um, om, oq, pi', pm', d3, d4, d5, d6, d7, d8, d9⟩ := follows_phase hp e2 e3 fc fx hx q1 hm m1 m2 fm bm b1
  have e' : mm = m := isNearest_unique d1 hpk
  subst e'
  rw [d6] at d7
  cases d7
  unfold get at d3 d4 d5
  rw [if_neg (by omega), show ((mm : Int)).toNat = mm by omega] at d3 d4
  rw [if_neg (by omega), show ((q : Int)).toNat = q by omega] at d5
  rw [hm.unlocked mm m1 m2] at d3
  unfold unlock at d3
  simp only [Option.bind_eq_bind] at d3
  obtain ⟨was, w1, d3⟩ := Option.bind_eq_some_iff.mp d3
  obtain ⟨is, w2, d3⟩ := Option.bind_eq_some_iff.mp d3
  obtain ⟨po, w3, d3⟩ := Option.bind_eq_some_iff.mp d3
  rw [d4] at w3
  cases w3
  cases d3
  refine ⟨q, _, oq, was, is, d2 m1 m2, b2, d5, w1, w2, ?_⟩
  refine (princarg_cong pi phm).trans ?_
  rw [d8]
  refine ⟨0, ?_⟩
  push_cast
  ring

/-! ## Examples -/

namespace Ex

/-- The whole spectrum at 8000 Hz. -/
def small : Params := ⟨{ rate := 8000, single := true }, 1024⟩

/-- The guidance after one frame. -/
def one : Guidance := (updates small.guide [Guide.Ex.flat 513] {}).getD {}

/-- A sinusoid in bin 301. -/
def tone : Input Rat := ⟨(List.replicate 513 1).set 301 2, (List.range 513).map fun i => mkRat i 100, List.replicate 513 1, one⟩

end Ex

/-- Bin 300 follows the peak in bin 301, in the second band. -/
example : Valid Ex.small Ex.tone ∧ InBand Ex.small 512 Ex.tone.guidance 1 Ex.one.lock1 300 ∧ InBand Ex.small 512 Ex.tone.guidance 1 Ex.one.lock1 301 ∧
    Follows Ex.small false 100 150 [Ex.tone] 0 Ex.tone 300 ∧ BandPeak Ex.small 512 Ex.tone.mag Ex.one.lock1 300 301 := by
  have hb : Ex.one.lockBands = [Ex.one.lock0, Ex.one.lock1, Ex.one.lock2] := by decide +kernel
  have inb : ∀ i, Covers Ex.small 512 Ex.one.lock1 i → Ex.one.lock0.f1 < freq Ex.small i → freq Ex.small i ≤ Ex.one.lock1.f1 → ¬ binForFrequency Ex.one.lock2.f0 1024 8000 ≤ i → InBand Ex.small 512 Ex.one 1 Ex.one.lock1 i := by
    intro i h1 h2 h3 h4
    refine ⟨by rw [hb]; rfl, h1, ?_, h3, ?_⟩
    · intro j' b' hj h
      have : j' = 0 := by omega
      subst this
      rw [hb] at h
      cases h
      exact h2
    · intro j' b' hj h
      rw [hb] at h
      match j', hj with
      | 2, _ => cases h; exact fun hc => h4 hc.1
      | n + 3, _ => cases h
  refine ⟨⟨by decide +kernel, by decide +kernel, by decide +kernel, ?_⟩, ?_, ?_, ?_, ?_⟩
  · refine ⟨[Guide.Ex.flat 513], by simp, ?_, ?_⟩
    · intro f hf
      rw [List.mem_singleton.mp hf]
      exact Guide.Ex.flat_whole (by decide +kernel)
    · show _ = some Ex.one
      decide +kernel
  · exact inb 300 ⟨by decide +kernel, by decide +kernel, by decide +kernel⟩ (by decide +kernel) (by decide +kernel) (by decide +kernel)
  · exact inb 301 ⟨by decide +kernel, by decide +kernel, by decide +kernel⟩ (by decide +kernel) (by decide +kernel) (by decide +kernel)
  · refine ⟨by decide, ?_, by decide +kernel, ?_, ?_⟩
    · rintro (h | h)
      · exact absurd ((inRange_iff _ _).mpr h) (by decide +kernel)
      · exact absurd ((inRange_iff _ _).mpr h) (by decide +kernel)
    · exact fun h => absurd ((inRange_iff _ _).mpr h) (by decide +kernel)
    · exact fun h => absurd ((inRange_iff _ _).mpr h) (by decide +kernel)
  · have hm : ∀ k : Nat, Ex.tone.mag[k]? = if k < 513 then (if k = 301 then some 2 else some 1) else none := by
      intro k
      show ((List.replicate 513 (1 : Rat)).set 301 2)[k]? = _
      rw [List.getElem?_set]
      by_cases h : 301 = k
      · subst h
        rw [if_pos rfl, if_pos (by rw [List.length_replicate]; decide), if_pos (by decide), if_pos rfl]
      · rw [if_neg h, List.getElem?_replicate]
        split
        · rw [if_neg (Ne.symm h)]
        · rfl
    have e1 : firstBin Ex.small Ex.one.lock1 = 205 := by decide +kernel
    have e2 : lastBin Ex.small 512 Ex.one.lock1 = 512 := by decide +kernel
    unfold BandPeak
    rw [e1, e2]
    refine ⟨⟨by omega, by omega, 2, by rw [hm]; rfl, ?_, ?_⟩, ?_⟩
    · intro k y h1 h2 _ hy
      rw [hm, if_pos (by omega), if_neg (by omega)] at hy
      cases hy
      decide +kernel
    · intro k y h1 h2 _ hy
      rw [hm, if_pos (by omega), if_neg (by omega)] at hy
      cases hy
      decide +kernel
    · intro r hr
      have h1 : Peak.dist 300 301 = 1 := rfl
      rw [h1]
      have h2 : r ≠ 300 := by
        rintro rfl
        obtain ⟨_, _, x, hx, _, h⟩ := hr
        rw [hm] at hx
        cases hx
        have h4 : Ex.one.lock1.p = 2 := by decide +kernel
        have := h 301 2 (by omega) (by omega) (by omega) (by rw [hm]; rfl)
        exact absurd this (by decide +kernel)
      unfold Peak.dist
      split <;> omega

end Verif.PhaseAdvance
