import Verif.PhaseLock
/-!
# Channels locked together (C153)
-/
namespace Verif.PhaseAdvance
open Verif.Guide

variable {K : Type} [Field K] [LinearOrder K] [IsStrictOrderedRing K] [FloorRing K]

/-- The bin is locked to a peak, possibly of another channel. -/
structure Together (p : Params) (ms : Bool) (inhop outhop : Nat) (xs : List (Input K)) (k : Nat) (x : Input K) (i : Nat) : Prop where
  hops : inhop ≠ outhop
  noReset : ¬ Resets p x i
  noSide : sideReset ms xs (freq p i) k = false
  locked : ¬ Guide.inRange (freq p i) x.guidance.highUnlocked
  together : Guide.inRange (freq p i) x.guidance.channelLock

/-- Channel `g` has the greatest magnitude in bin `i`, and is the first that has it. -/
def Loudest (xs : List (Input K)) (i g : Nat) : Prop :=
  ∃ (x : Input K) (m : K), xs[g]? = some x ∧ x.mag[i]? = some m ∧ ∀ (k : Nat) (y : Input K) (z : K), xs[k]? = some y → y.mag[i]? = some z → z ≤ m ∧ (k < g → z < m)

/-- A partial that the channel has in bin `m` now and had in bin `q` before: bin `m` is the peak nearest to bin `i` in its band, and `q` is the peak of the frame before that is nearest to `m`. -/
structure Partial (p : Params) (lo n : Nat) (x : Input K) (i m q : Nat) (beta : Rat) : Prop where
  now : ∃ j b, InBand p (lo + n - 1) x.guidance j b i ∧ BandPeak p (lo + n - 1) x.mag b i m ∧ b.beta = beta
  before : PlainPeak lo n x.prevMag m q

/-! ## The peaks -/

omit [Field K] [IsStrictOrderedRing K] [FloorRing K] in
theorem greatest_spec (i : Nat) : ∀ (xs : List (Input K)) (c gc : Nat) (gmag : K) (r : Nat), greatest i xs c gc gmag = some r →
    (r = gc ∧ ∀ (k : Nat) (y : Input K) (z : K), xs[k]? = some y → y.mag[i]? = some z → z ≤ gmag) ∨
      ∃ (k : Nat) (x : Input K) (m : K), r = c + k ∧ xs[k]? = some x ∧ x.mag[i]? = some m ∧ gmag < m ∧ ∀ (k' : Nat) (y : Input K) (z : K), xs[k']? = some y → y.mag[i]? = some z → z ≤ m ∧ (k' < k → z < m) := by
  intro xs
  induction xs with
  | nil => intro c gc gmag r h; cases h; exact .inl ⟨rfl, fun k y z h => by simp at h⟩
  | cons x xs ih =>
    intro c gc gmag r h
    unfold greatest at h
    obtain ⟨m, hm, h⟩ := Option.bind_eq_some_iff.mp h
    split at h
    · rename_i hgt
      rcases ih (c + 1) c m r h with ⟨rfl, h1⟩ | ⟨k, x', m', rfl, h1, h2, h3, h4⟩
      · refine .inr ⟨0, x, m, rfl, rfl, hm, hgt, ?_⟩
        intro k' y z hy hz
        cases k' with
        | zero => cases hy; rw [hm] at hz; cases hz; exact ⟨le_refl _, fun h => absurd h (by omega)⟩
        | succ k' => exact ⟨h1 k' y z (by simpa using hy) hz, fun h => absurd h (by omega)⟩
      · refine .inr ⟨k + 1, x', m', by omega, by simpa using h1, h2, lt_trans hgt h3, ?_⟩
        intro k' y z hy hz
        cases k' with
        | zero => cases hy; rw [hm] at hz; cases hz; exact ⟨h3.le, fun _ => h3⟩
        | succ k' =>
          obtain ⟨a, b⟩ := h4 k' y z (by simpa using hy) hz
          exact ⟨a, fun h => b (by omega)⟩
    · rename_i hle
      rcases ih (c + 1) gc gmag r h with ⟨rfl, h1⟩ | ⟨k, x', m', rfl, h1, h2, h3, h4⟩
      · refine .inl ⟨rfl, ?_⟩
        intro k y z hy hz
        cases k with
        | zero => cases hy; rw [hm] at hz; cases hz; exact not_lt.mp hle
        | succ k => exact h1 k y z (by simpa using hy) hz
      · refine .inr ⟨k + 1, x', m', by omega, by simpa using h1, h2, h3, ?_⟩
        intro k' y z hy hz
        cases k' with
        | zero => cases hy; rw [hm] at hz; cases hz; exact ⟨le_trans (not_lt.mp hle) h3.le, fun _ => lt_of_le_of_lt (not_lt.mp hle) h3⟩
        | succ k' =>
          obtain ⟨a, b⟩ := h4 k' y z (by simpa using hy) hz
          exact ⟨a, fun h => b (by omega)⟩

omit [Field K] [IsStrictOrderedRing K] [FloorRing K] in
theorem loudest_unique {xs : List (Input K)} {i g g' : Nat} (h : Loudest xs i g) (h' : Loudest xs i g') : g = g' := by
  obtain ⟨x, m, h1, h2, h3⟩ := h
  obtain ⟨x', m', h1', h2', h3'⟩ := h'
  obtain ⟨a, b⟩ := h3 g' x' m' h1' h2'
  obtain ⟨a', b'⟩ := h3' g x m h1 h2
  rcases Nat.lt_trichotomy g g' with h | h | h
  · exact absurd (b' h) (not_lt.mpr a)
  · exact h
  · exact absurd (b h) (not_lt.mpr a')

omit [Field K] [IsStrictOrderedRing K] [FloorRing K] in
/-- The code finds the loudest channel. -/
theorem greatestChannel_eq {xs : List (Input K)} {i g r : Nat} (h : Loudest xs i g) (hr : greatestChannel xs i = some r) : r = g := by
  refine loudest_unique ?_ h
  unfold greatestChannel at hr
  split at hr
  · obtain ⟨x, m, h1, _⟩ := h
    simp at h1
  · cases hr
    obtain ⟨x, m, h1, h2, h3⟩ := h
    cases g with
    | zero => exact ⟨x, m, h1, h2, h3⟩
    | succ g => simp at h1
  · rename_i x t _
    obtain ⟨m, hm, hr⟩ := Option.bind_eq_some_iff.mp hr
    rcases greatest_spec i _ _ _ _ _ hr with ⟨rfl, h1⟩ | ⟨k, x', m', rfl, h1, h2, h3, h4⟩
    · refine ⟨x, m, rfl, hm, ?_⟩
      intro k y z hy hz
      cases k with
      | zero => cases hy; rw [hm] at hz; cases hz; exact ⟨le_refl _, fun h => absurd h (by omega)⟩
      | succ k => exact ⟨h1 k y z (by simpa using hy) hz, fun h => absurd h (by omega)⟩
    · refine ⟨x', m', by rw [Nat.add_comm]; simpa using h1, h2, ?_⟩
      intro k' y z hy hz
      cases k' with
      | zero => cases hy; rw [hm] at hz; cases hz; exact ⟨h3.le, fun _ => h3⟩
      | succ k' =>
        obtain ⟨a, b⟩ := h4 k' y z (by simpa using hy) hz
        exact ⟨a, fun h => b (by omega)⟩

omit [IsStrictOrderedRing K] in
/-- The peaks the code finds for a channel. -/
theorem mid_peaks {p : Params} (hp : p.guide.Supported) {inhop outhop lo n : Nat} (hn1 : 1 ≤ n) (hn : lo + n ≤ p.bins) {pi : K} {i m q : Nat} {beta : Rat} {ch mid : Chan K} {x : Input K} (hf : Fit p ch)
    (hx : Valid p x) (hm : Mid pi p inhop outhop lo n ch x mid) (i1 : lo ≤ i) (i2 : i < lo + n) (m1 : lo ≤ m) (m2 : m < lo + n) (hpt : Partial p lo n x i m q beta) :
    mid.currentPeaks[i]? = some (m : Int) ∧ mid.prevPeaks[m]? = some (q : Int) := by
  have hr : 0 < p.guide.rate := by have := hp.1; linarith
  have hlow := reachable_low hp hx.guidance
  obtain ⟨⟨j, b, hb, hpk, -⟩, hpl⟩ := hpt
  obtain ⟨c', c1, c2, c3⟩ := hm.peaks
  unfold findPeaks at c1
  simp only [Option.bind_eq_bind] at c1
  obtain ⟨cur0, k1, c1⟩ := Option.bind_eq_some_iff.mp c1
  obtain ⟨cur, k2, c1⟩ := Option.bind_eq_some_iff.mp c1
  obtain ⟨prev, k3, c1⟩ := Option.bind_eq_some_iff.mp c1
  cases c1
  obtain ⟨l1, l2, l3⟩ := fill_facts _ _ _ _ _ k1
  have hin : ∀ x ∈ cur0, 0 ≤ x ∧ x < (p.bins : Int) := by
    intro y hy
    obtain ⟨t, t1, t2⟩ := List.mem_iff_getElem.mp hy
    have t3 : cur0[t]? = some y := by rw [List.getElem?_eq_getElem t1, t2]
    by_cases ht : lo ≤ t ∧ t < lo + n
    · rw [(l2 t ht.1 ht.2).1] at t3
      cases t3
      omega
    · rw [l3 t (by omega)] at t3
      exact hf.curIn y (List.mem_of_getElem? t3)
  obtain ⟨m', e1, e2⟩ := (allPeaks_at hr hn1 hn hx.mag i1 i2 x.guidance.lockBands cur0 cur (lockBands_low hlow.1) (by rw [l1, hf.cur]) hin k2).2 j b hb.band hb.covers hb.later
  obtain ⟨near, n1, n2, n3, n4⟩ := nearest_only p.bins x.prevMag lo n 1 (by omega) hn1 (by have := hx.prevMag; omega) ch.prevPeaks (by rw [hf.prev]; exact hn)
  rw [n1] at k3
  cases k3
  simp only at c2 c3
  have em : m' = m := isNearest_unique e2 hpk
  subst em
  obtain ⟨q', q1, _, _, q4⟩ := n4 m' m1 m2
  have eq : q' = q := isNearest_unique q4 hpl
  subst eq
  exact ⟨by rw [c2]; exact e1, by rw [c3]; exact q1⟩

/-! ## The phases -/

omit [IsStrictOrderedRing K] in
/-- What a bin is given that is locked together with those of other channels: all from the loudest channel, but the phase taken in. -/
theorem tied_phase {p : Params} (hp : p.guide.Supported) {ms : Bool} {inhop outhop lo n : Nat} (hn1 : 1 ≤ n) (hn : lo + n ≤ p.bins) {pi : K} {mids : List (Chan K)} {xs : List (Input K)} {k i m q g : Nat} {beta beta' : Rat}
    {ch mid chg midg : Chan K} {x xg : Input K} (hf : Fit p ch) (hfg : Fit p chg) (hx : Valid p x) (hxg : Valid p xg) (hxgs : xs[g]? = some xg)
    (hmidg : mids[g]? = some midg) (hm : Mid pi p inhop outhop lo n ch x mid) (hmg : Mid pi p inhop outhop lo n chg xg midg) (hl : Loudest xs i g) (i1 : lo ≤ i) (i2 : i < lo + n) (m1 : lo ≤ m) (m2 : m < lo + n)
    (ht : Together p ms inhop outhop xs k x i) (htg : Guide.inRange (freq p i) xg.guidance.channelLock) (hpt : Partial p lo n x i m q beta) (hptg : Partial p lo n xg i m q beta') {ph : K}
    (h : binPhase p ms inhop outhop lo mids xs k mid x i = some ph) :
    ∃ um om oq phi phm, midg.unlocked[m]? = some um ∧ midg.prevOut[m]? = some om ∧ midg.prevOut[q]? = some oq ∧ x.phase[i]? = some phi ∧ xg.phase[m]? = some phm ∧
      ph = oq + (um - om) + (beta : K) * (phi - phm) := by
  have hr : 0 < p.guide.rate := by have := hp.1; linarith
  have hlow := reachable_low hp hx.guidance
  obtain ⟨a1, a2⟩ := mid_peaks hp hn1 hn hf hx hm i1 i2 m1 m2 hpt
  obtain ⟨b1, b2⟩ := mid_peaks hp hn1 hn hfg hxg hmg i1 i2 m1 m2 hptg
  obtain ⟨⟨j, b, hb, -, hbeta⟩, -⟩ := hpt
  have gnat : ∀ {α : Type} (l : List α) (t : Nat), get l (t : Int) = l[t]? := by
    intro α l t
    unfold get
    rw [if_neg (by omega), show ((t : Int)).toNat = t by omega]
  unfold binPhase at h
  simp only at h
  rw [if_neg (by
      rw [Bool.or_eq_true, inRange_iff, inRange_iff]
      exact ht.noReset), ht.noSide, if_neg (by simp), if_neg ht.hops, if_neg (by rw [inRange_false ht.locked]; simp)] at h
  unfold lockedPhase at h
  simp only [Option.bind_eq_bind] at h
  obtain ⟨peak, g1, h⟩ := Option.bind_eq_some_iff.mp h
  obtain ⟨prevPeak, g2, h⟩ := Option.bind_eq_some_iff.mp h
  obtain ⟨pc, g3, h⟩ := Option.bind_eq_some_iff.mp h
  obtain ⟨cc, g4, h⟩ := Option.bind_eq_some_iff.mp h
  obtain ⟨xx, g5, h⟩ := Option.bind_eq_some_iff.mp h
  obtain ⟨um, g6, h⟩ := Option.bind_eq_some_iff.mp h
  obtain ⟨om, g7, h⟩ := Option.bind_eq_some_iff.mp h
  obtain ⟨oq, g8, h⟩ := Option.bind_eq_some_iff.mp h
  obtain ⟨phi, g9, h⟩ := Option.bind_eq_some_iff.mp h
  obtain ⟨phm, g10, h⟩ := Option.bind_eq_some_iff.mp h
  obtain ⟨r, g11, h⟩ := Option.bind_eq_some_iff.mp h
  obtain ⟨band, g12, hfin⟩ := Option.bind_eq_some_iff.mp h
  rw [a1] at g1
  cases g1
  rw [gnat, a2] at g2
  cases g2
  have hpc : pc = g := by
    unfold peakChannel at g3
    rw [if_pos ((inRange_iff _ _).mpr ht.together)] at g3
    simp only [Option.bind_eq_bind] at g3
    obtain ⟨other, o1, g3⟩ := Option.bind_eq_some_iff.mp g3
    have := greatestChannel_eq hl o1
    subst this
    split at g3
    · rename_i e
      cases g3
      exact e.symm
    · obtain ⟨oc, o2, g3⟩ := Option.bind_eq_some_iff.mp g3
      obtain ⟨ox, o3, g3⟩ := Option.bind_eq_some_iff.mp g3
      obtain ⟨fb, o4, g3⟩ := Option.bind_eq_some_iff.mp g3
      rw [hmidg] at o2
      cases o2
      rw [hxgs] at o3
      cases o3
      unfold follows at o4
      rw [if_pos ((inRange_iff _ _).mpr htg)] at o4
      simp only [b1, gnat, b2, Option.bind_eq_bind, Option.bind_some, Option.pure_def, Option.some.injEq, decide_true] at o4
      subst o4
      cases g3
      rfl
  subst hpc
  rw [hmidg] at g4
  cases g4
  rw [hxgs] at g5
  cases g5
  rw [gnat] at g6 g7 g8 g10
  have hj := inBand_bandAt hr hlow.2.count hb i1 g11
  subst hj
  rw [(lockBands_lockAt hb.band).1] at g12
  cases g12
  cases hfin
  exact ⟨um, om, oq, phi, phm, g6, g7, g8, g9, g10, by rw [hbeta]⟩

omit [IsStrictOrderedRing K] in
/-- **C153**: in a bin in which the channels are locked together, if two channels and the loudest one have the same partial there (in the same bin now and in the same bin before), the difference of the phases put out for
the two is `beta` times that of the phases taken in - in every frame, whatever was done before, so that it does not drift. -/
theorem C153_tied {pi : K} {p : Params} (hp : p.guide.Supported) (hs : p.Scale) {ms : Bool} {inhop outhop : Nat} {cs cs' : List (Chan K)} {xs : List (Input K)} {outs outs' : List (List K)}
    (hcs : ∀ c ∈ cs, Fit p c) (hxs : ∀ x ∈ xs, Valid p x) (h : advance pi p ms inhop outhop cs xs outs = some (cs', outs'))
    {lo n : Nat} {x0 : Input K} (h0 : xs.head? = some x0) (hr : binRange p x0.guidance = some (lo, n)) {k l g i m q : Nat} {x y xg : Input K} {o o' : List K} {beta beta' : Rat} (hl : Loudest xs i g) (hxg : xs[g]? = some xg)
    (hx : xs[k]? = some x) (hy : xs[l]? = some y) (ho : outs'[k]? = some o) (ho' : outs'[l]? = some o') (i1 : lo ≤ i) (i2 : i < lo + n) (m1 : lo ≤ m) (m2 : m < lo + n)
    (tx : Together p ms inhop outhop xs k x i) (ty : Together p ms inhop outhop xs l y i) (tg : Guide.inRange (freq p i) xg.guidance.channelLock)
    (px : Partial p lo n x i m q beta) (py : Partial p lo n y i m q beta) (pg : Partial p lo n xg i m q beta') :
    ∃ a a' b b', o[i]? = some a ∧ o'[i]? = some a' ∧ x.phase[i]? = some b ∧ y.phase[i]? = some b' ∧ Cong pi (a - a') ((beta : K) * (b - b')) := by
  obtain ⟨lo', n', e1, e2, e3⟩ := binRange_in hp hs (reachable_low hp (hxs x0 (List.mem_of_mem_head? h0)).guidance).2
  rw [hr] at e1
  cases e1
  obtain ⟨_, _, _, mids, g0, gr, l1, l2, l3, l4, l5, key⟩ := advance_facts h
  rw [h0] at g0
  cases g0
  rw [hr] at gr
  cases gr
  have hk : k < xs.length := (List.getElem?_eq_some_iff.mp hx).1
  have hll : l < xs.length := (List.getElem?_eq_some_iff.mp hy).1
  have hg : g < xs.length := (List.getElem?_eq_some_iff.mp hxg).1
  obtain ⟨mid, _, _, _, _, q3, hm, ha⟩ := key k cs[k] x outs[k] (List.getElem?_eq_getElem (by omega)) hx (List.getElem?_eq_getElem (by omega))
  obtain ⟨mid', _, _, _, _, q3', hm', ha'⟩ := key l cs[l] y outs[l] (List.getElem?_eq_getElem (by omega)) hy (List.getElem?_eq_getElem (by omega))
  obtain ⟨midg, _, _, q1g, _, _, hmg, _⟩ := key g cs[g] xg outs[g] (List.getElem?_eq_getElem (by omega)) hxg (List.getElem?_eq_getElem (by omega))
  rw [ho] at q3
  cases q3
  rw [ho'] at q3'
  cases q3'
  obtain ⟨ph, a1, a2⟩ := ha.out i i1 i2
  obtain ⟨ph', a1', a2'⟩ := ha'.out i i1 i2
  have fit : ∀ (t : Nat) (ht : t < cs.length), Fit p cs[t] := fun t ht => hcs _ (List.getElem_mem _)
  obtain ⟨um, om, oq, b, pm, c1, c2, c3, c4, c5, c6⟩ := tied_phase hp e2 e3 (fit k (by omega)) (fit g (by omega)) (hxs x (List.mem_of_getElem? hx)) (hxs xg (List.mem_of_getElem? hxg)) hxg q1g hm hmg hl i1 i2 m1 m2 tx tg px pg a1
  obtain ⟨um', om', oq', b', pm', d1, d2, d3, d4, d5, d6⟩ := tied_phase hp e2 e3 (fit l (by omega)) (fit g (by omega)) (hxs y (List.mem_of_getElem? hy)) (hxs xg (List.mem_of_getElem? hxg)) hxg q1g hm' hmg hl i1 i2 m1 m2 ty tg py pg a1'
  rw [c1] at d1; cases d1
  rw [c2] at d2; cases d2
  rw [c3] at d3; cases d3
  rw [c5] at d5; cases d5
  refine ⟨_, _, b, b', a2, a2', c4, d4, ?_⟩
  obtain ⟨s, hs⟩ := princarg_cong pi ph
  obtain ⟨t, ht⟩ := princarg_cong pi ph'
  refine ⟨s - t, ?_⟩
  rw [c6] at hs ⊢
  rw [d6] at ht ⊢
  push_cast
  linear_combination hs - ht

/-- **C153**, where it is: in a frame that is neither silent nor at unity, up to twice the length, the channels are locked together below 600 Hz, and with `OptionChannelsTogether` below half the rate. -/
theorem C153_range {p : Guide.Params} {f : Guide.Frame} {fs : List Guide.Frame} {g : Guidance} (h : updates p (fs ++ [f]) {} = some g) (hsil : f.resetOnSilence = false ∨ 1 / 1000000 ≤ f.mean) (hu : f.unityCount = 0) (hr : f.ratio ≤ 2)
    {x : Rat} (h0 : 0 ≤ x) (h1 : x < if f.tighterChannelLock then p.nyquist else 600) : Guide.inRange x g.channelLock := by
  have last : ∀ (fs : List Guide.Frame) (g₀ : Guidance), updates p (fs ++ [f]) g₀ = some g → ∃ g₁, updateGuidance p f g₁ = some g := by
    intro fs
    induction fs with
    | nil =>
      intro g₀ h
      simp only [List.nil_append] at h
      unfold updates at h
      obtain ⟨g₁, h2, h3⟩ := Option.bind_eq_some_iff.mp h
      cases h3
      exact ⟨g₀, h2⟩
    | cons a fs ih =>
      intro g₀ h
      simp only [List.cons_append] at h
      unfold updates at h
      obtain ⟨g₁, h2, h3⟩ := Option.bind_eq_some_iff.mp h
      exact ih g₁ h3
  obtain ⟨g₁, hg⟩ := last fs {} h
  unfold updateGuidance at hg
  simp only at hg
  rw [if_neg (by
    rw [Bool.and_eq_true, decide_eq_true_eq]
    rintro ⟨a, b⟩
    rcases hsil with h | h
    · rw [h] at a; cases a
    · exact absurd b (not_lt.mpr h)), if_neg (by omega)] at hg
  obtain ⟨g₂, h2, h3⟩ := Option.map_eq_some_iff.mp hg
  have e : g.channelLock = g₂.channelLock := by
    rw [← h3]
    unfold Guide.unlock
    rw [if_neg (not_lt.mpr hr)]
  have e2 : g₂.channelLock = ⟨true, 0, if f.tighterChannelLock then p.nyquist else 600⟩ := by
    unfold updateNormal at h2
    simp only at h2
    split at h2
    · cases h2
      rfl
    · simp only [Option.bind_eq_bind] at h2
      obtain ⟨kicks, _, h2⟩ := Option.bind_eq_some_iff.mp h2
      obtain ⟨lower, _, h2⟩ := Option.bind_eq_some_iff.mp h2
      obtain ⟨higher, _, h2⟩ := Option.bind_eq_some_iff.mp h2
      cases h2
      unfold multiBands setRanges setKick withBands
      simp only
      split <;> split <;> (try split) <;> rfl
  rw [e, e2]
  exact ⟨rfl, h0, h1⟩

/-! ## Example -/

namespace Tie

/-- A sinusoid in bin 64, of 500 Hz, so loud; it was there before. -/
def tone (a ph : Rat) : Input Rat := ⟨(List.replicate 513 1).set 64 a, List.replicate 513 ph, (List.replicate 513 1).set 64 a, Ex.one⟩

theorem tone_mag (a : Rat) (k : Nat) : ((List.replicate 513 1).set 64 a)[k]? = if k < 513 then (if k = 64 then some a else some 1) else none := by
  rw [List.getElem?_set]
  by_cases h : 64 = k
  · subst h
    rw [if_pos rfl, if_pos (by rw [List.length_replicate]; decide), if_pos (by decide), if_pos rfl]
  · rw [if_neg h, List.getElem?_replicate]
    split
    · rw [if_neg (Ne.symm h)]
    · rfl

theorem tone_partial {a : Rat} (ha : 1 < a) (ph : Rat) : Partial Ex.small 0 513 (tone a ph) 65 64 64 (51 / 50) := by
  have hb : Ex.one.lockBands = [Ex.one.lock0, Ex.one.lock1, Ex.one.lock2] := by decide +kernel
  have e1 : firstBin Ex.small Ex.one.lock0 = 0 := by decide +kernel
  have e2 : lastBin Ex.small 512 Ex.one.lock0 = 205 := by decide +kernel
  have e3 : Ex.one.lock0.p = 1 := by decide +kernel
  have pk : ∀ (hi : Nat) (i : Nat), 206 ≤ hi → hi ≤ 513 → (i = 64 ∨ i = 65) → Peak.IsNearest (Peak.IsPeak (fun a b => decide (a > b)) ((List.replicate 513 (1 : Rat)).set 64 a) 0 hi 1) i 64 := by
    intro hi i h1 h2 hii
    refine ⟨⟨by omega, by omega, a, by rw [tone_mag]; rfl, ?_, ?_⟩, ?_⟩
    · intro k y k1 k2 k3 hy
      rw [tone_mag, if_pos (by omega), if_neg (by omega)] at hy
      cases hy
      simpa using ha
    · intro k y k1 k2 k3 hy
      rw [tone_mag, if_pos (by omega), if_neg (by omega)] at hy
      cases hy
      simpa using ha.le
    · intro r hr
      have h2 : r ≠ 65 := by
        rintro rfl
        obtain ⟨_, _, x, hx, h, _⟩ := hr
        rw [tone_mag] at hx
        cases hx
        have := h 64 a (by omega) (by omega) (by omega) (by rw [tone_mag]; rfl)
        simp only [decide_eq_true_eq, gt_iff_lt] at this
        exact absurd this (by simpa using ha.le)
      have h3 : r ≠ 66 := by
        rintro rfl
        obtain ⟨_, _, x, hx, h, _⟩ := hr
        rw [tone_mag] at hx
        cases hx
        have := h 65 1 (by omega) (by omega) (by omega) (by rw [tone_mag]; rfl)
        simp at this
      unfold Peak.dist
      rcases hii with rfl | rfl <;> split <;> split <;> omega
  have hg : (tone a ph).guidance = Ex.one := rfl
  refine ⟨⟨0, Ex.one.lock0, ⟨by rw [hg, hb]; rfl, ⟨by decide +kernel, by decide +kernel, by decide +kernel⟩, fun j' b' h => absurd h (by omega), by decide +kernel, ?_⟩, ?_, by decide +kernel⟩, ?_⟩
  · intro j' b' hj h
    rw [hg, hb] at h
    match j', hj with
    | 1, _ => cases h; exact fun hc => absurd hc.1 (by decide +kernel)
    | 2, _ => cases h; exact fun hc => absurd hc.1 (by decide +kernel)
    | n + 3, _ => cases h
  · unfold BandPeak
    rw [e1, e2, e3]
    exact pk 206 65 (le_refl _) (by omega) (.inr rfl)
  · exact pk 513 64 (by omega) (le_refl _) (.inl rfl)

end Tie

/-- Two channels with a sinusoid in bin 64, the second louder: in bin 65 the difference of phases of 1 comes out as 51/50, whatever the phases were before. -/
example : Loudest [Tie.tone 2 1, Tie.tone 3 2] 65 0 ∧ (∀ k a ph, Together Ex.small false 100 150 [Tie.tone 2 1, Tie.tone 3 2] k (Tie.tone a ph) 65) ∧ Partial Ex.small 0 513 (Tie.tone 2 1) 65 64 64 (51 / 50) ∧
    Partial Ex.small 0 513 (Tie.tone 3 2) 65 64 64 (51 / 50) := by
  refine ⟨⟨Tie.tone 2 1, 1, rfl, by show ((List.replicate 513 (1 : Rat)).set 64 2)[65]? = _; rw [Tie.tone_mag]; rfl, ?_⟩, ?_, Tie.tone_partial (by norm_num) 1, Tie.tone_partial (by norm_num) 2⟩
  · intro k y z hy hz
    match k with
    | 0 =>
      cases hy
      change ((List.replicate 513 (1 : Rat)).set 64 2)[65]? = some z at hz
      rw [Tie.tone_mag] at hz
      cases hz
      exact ⟨le_refl _, fun h => absurd h (by omega)⟩
    | 1 =>
      cases hy
      change ((List.replicate 513 (1 : Rat)).set 64 3)[65]? = some z at hz
      rw [Tie.tone_mag] at hz
      cases hz
      exact ⟨le_refl _, fun h => absurd h (by omega)⟩
    | n + 2 => simp at hy
  · intro k a ph
    refine ⟨by decide, ?_, by simp [sideReset], fun h => absurd ((inRange_iff _ _).mpr h) (by show ¬ inRange (freq Ex.small 65) Ex.one.highUnlocked = true; decide +kernel),
      (inRange_iff _ _).mp (by show inRange (freq Ex.small 65) Ex.one.channelLock = true; decide +kernel)⟩
    rintro (h | h)
    · exact absurd ((inRange_iff _ _).mpr h) (by show ¬ inRange (freq Ex.small 65) Ex.one.phaseReset = true; decide +kernel)
    · exact absurd ((inRange_iff _ _).mpr h) (by show ¬ inRange (freq Ex.small 65) Ex.one.kick = true; decide +kernel)

/-- The guidance of the example is from one frame at ratio 3/2. -/
example : updates Ex.small.guide ([] ++ [Guide.Ex.flat 513]) {} = some Ex.one ∧ (Guide.Ex.flat 513).unityCount = 0 ∧ (Guide.Ex.flat 513).ratio ≤ 2 := by decide +kernel

end Verif.PhaseAdvance
