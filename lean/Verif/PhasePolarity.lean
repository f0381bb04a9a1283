import Verif.PhaseLock
import Verif.R2Polarity
/-!
# Polarity in the finer engine (C152)

As for the faster engine (`R2Polarity`): turned over, audio has the same magnitudes, hence the same guidance, and all phases half a turn on.
-/
namespace Verif.PhaseAdvance
open Verif.Guide

variable {K : Type} [Field K] [LinearOrder K] [IsStrictOrderedRing K] [FloorRing K]

/-- What is passed for a channel, and the same with all phases `d` further on, up to whole turns. -/
structure TurnedInput (pi d : K) (x x' : Input K) : Prop where
  mag : x'.mag = x.mag
  prevMag : x'.prevMag = x.prevMag
  guidance : x'.guidance = x.guidance
  length : x'.phase.length = x.phase.length
  phase : ∀ (i : Nat) (a a' : K), x.phase[i]? = some a → x'.phase[i]? = some a' → Cong pi a' (a + d)

/-- The same for calls. -/
structure TurnedStep (pi d : K) (f f' : Step K) : Prop where
  midSide : f'.midSide = f.midSide
  inhop : f'.inhop = f.inhop
  outhop : f'.outhop = f.outhop
  inputs : List.Forall₂ (TurnedInput pi d) f.inputs f'.inputs

/-- The phases are such as `forwardPolar` gives: principal values, and those of the lowest and the highest bin, which are real numbers, 0 or half a turn. -/
structure Principal (p : Params) (x : Input ℝ) : Prop where
  range : ∀ a ∈ x.phase, -Real.pi < a ∧ a ≤ Real.pi
  lowest : x.phase[0]? = some 0 ∨ x.phase[0]? = some Real.pi
  highest : x.phase[p.fftSize / 2]? = some 0 ∨ x.phase[p.fftSize / 2]? = some Real.pi

/-- A call as the engine makes it for so many channels. -/
structure Made (p : Params) (channels : Nat) (f : Step ℝ) : Prop where
  hop : 0 < f.inhop ∧ 0 < f.outhop
  channels : f.inputs.length = channels
  valid : ∀ x ∈ f.inputs, Valid p x
  principal : ∀ x ∈ f.inputs, Principal p x

/-- The phases put out after some calls, from the start, for a channel and bin. -/
def Puts (p : Params) (channels : Nat) (fs : List (Step ℝ)) (k i : Nat) (y : ℝ) : Prop :=
  ∃ s o, run Real.pi p fs (List.replicate channels (create p), List.replicate channels (List.replicate p.bins 0)) = some s ∧ s.2[k]? = some o ∧ o[i]? = some y

/-- **C152** in full: if all phases of the input are half a turn on, in each call since the object was made, then so are the phases put out.  The first call resets all phases. -/
def C152_statement : Prop :=
  ∀ (p : Params) (channels : Nat) (f f' : Step ℝ) (fs fs' : List (Step ℝ)) (k i : Nat) (y y' : ℝ), p.guide.Supported → p.Scale → 1 ≤ channels → (∀ g ∈ f :: fs, Made p channels g) → (∀ g ∈ f' :: fs', Made p channels g) →
    (∀ x ∈ f.inputs, ∀ i < p.bins, 2 * i < p.fftSize → Resets p x i) → List.Forall₂ (TurnedStep Real.pi Real.pi) (f :: fs) (f' :: fs') → 2 * i < p.fftSize →
    Puts p channels (f :: fs) k i y → Puts p channels (f' :: fs') k i y' → Cong Real.pi y' (y + Real.pi)

/-- The same with no such call at first. -/
def C152_start_statement : Prop :=
  ∀ (p : Params) (channels : Nat) (fs fs' : List (Step ℝ)) (k i : Nat) (y y' : ℝ), p.guide.Supported → p.Scale → 1 ≤ channels → (∀ g ∈ fs, Made p channels g) → (∀ g ∈ fs', Made p channels g) →
    List.Forall₂ (TurnedStep Real.pi Real.pi) fs fs' → fs ≠ [] → 2 * i < p.fftSize → Puts p channels fs k i y → Puts p channels fs' k i y' → Cong Real.pi y' (y + Real.pi)

/-! ## A bin -/

/-- Both channels' last phases of a bin, in and out, are `d` apart. -/
def BinTurned (pi d : K) (i : Nat) (c c' : Chan K) : Prop :=
  ∃ a a' b b', c.prevIn[i]? = some a ∧ c'.prevIn[i]? = some a' ∧ c.prevOut[i]? = some b ∧ c'.prevOut[i]? = some b' ∧ Cong pi a' (a + d) ∧ Cong pi b' (b + d)

/-- A peak that stays where it was: bin `i` is the peak of its part of the band now and was one in the frame before, and follows no other channel. -/
def Steady (p : Params) (lo n : Nat) (f : Step K) (k i : Nat) (x : Input K) : Prop :=
  Follows p f.midSide f.inhop f.outhop f.inputs k x i ∧ (∃ j b, InBand p (lo + n - 1) x.guidance j b i ∧ BandPeak p (lo + n - 1) x.mag b i i) ∧ PlainPeak lo n x.prevMag i i

/-- A call in which the bin goes by its own phases: they are reset, or not locked (hops the same, or frequencies above which there is noise), or it is a steady peak. -/
def ByItself (p : Params) (lo n k i : Nat) (f : Step K) : Prop :=
  (∃ x0, f.inputs.head? = some x0 ∧ binRange p x0.guidance = some (lo, n)) ∧
    ∃ x, f.inputs[k]? = some x ∧ (Resets p x i ∨ f.inhop = f.outhop ∨ Guide.inRange (freq p i) x.guidance.highUnlocked ∨ Steady p lo n f k i x)

/-- The arrays are as large as they should be. -/
def Sound (p : Params) (s : List (Chan K) × List (List K)) : Prop := (∀ c ∈ s.1, Fit p c) ∧ ∀ o ∈ s.2, p.bins ≤ o.length

omit [IsStrictOrderedRing K] in
theorem sound_advance {pi : K} {p : Params} (hp : p.guide.Supported) (hs : p.Scale) {f : Step K} {s w : List (Chan K) × List (List K)} (hv : ∀ x ∈ f.inputs, Valid p x) (hso : Sound p s)
    (h : advance pi p f.midSide f.inhop f.outhop s.1 f.inputs s.2 = some w) : Sound p w := by
  obtain ⟨w1, w2⟩ := w
  obtain ⟨x0, _, _, _, h0, _, l1, l2, _⟩ := advance_facts h
  have hne : s.1 ≠ [] := by
    intro e
    rw [e] at l1
    cases hi : f.inputs with
    | nil => rw [hi] at h0; cases h0
    | cons => rw [hi] at l1; simp at l1
  obtain ⟨_, _, e, _, _, a, b⟩ := advance_safe pi hp hs f.midSide f.inhop f.outhop hne l1 (by omega) hso.1 hv hso.2
  rw [h] at e
  cases e
  exact ⟨a, b⟩

/-- What comes of the bin's own phases. -/
theorem own_cong {pi d : K} (hpi : 0 < pi) {r w a a' was was' b b' : K} (h1 : Cong pi a' (a + d)) (h2 : Cong pi was' (was + d)) (h3 : Cong pi b' (b + d)) :
    Cong pi (b' + r * (w + princarg pi (a' - (was' + w)))) (b + r * (w + princarg pi (a - (was + w))) + d) := by
  have he : princarg pi (a' - (was' + w)) = princarg pi (a - (was + w)) := by
    refine R2Modify.princarg_of_cong hpi ?_
    obtain ⟨m, hm⟩ := h1
    obtain ⟨k, hk⟩ := h2
    exact ⟨m - k, by push_cast; linear_combination hm - hk⟩
  rw [he]
  obtain ⟨m, hm⟩ := h3
  exact ⟨m, by linear_combination hm⟩

theorem forall₂_getElem? {α β : Type} {R : α → β → Prop} : ∀ {l : List α} {l' : List β}, List.Forall₂ R l l' → ∀ (k : Nat) {a : α}, l[k]? = some a → ∃ b, l'[k]? = some b ∧ R a b
  | _, _, .nil, _, _, h => by simp at h
  | _, _, .cons h _, 0, _, e => by cases e; exact ⟨_, rfl, h⟩
  | _, _, .cons _ t, k + 1, _, e => forall₂_getElem? t k (by simpa using e)

/-- One call: the bin is turned after it if it was before, or if the call resets it. -/
theorem turned_advance {pi d : K} (hpi : 0 < pi) {p : Params} (hp : p.guide.Supported) (hs : p.Scale) {lo n k i : Nat} (i1 : lo ≤ i) (i2 : i < lo + n) {f f' : Step K} (ht : TurnedStep pi d f f')
    (hv : ∀ x ∈ f.inputs, Valid p x) (hv' : ∀ x ∈ f'.inputs, Valid p x) (hb : ByItself p lo n k i f) {s s' w w' : List (Chan K) × List (List K)} (hso : Sound p s) (hso' : Sound p s')
    (h : advance pi p f.midSide f.inhop f.outhop s.1 f.inputs s.2 = some w) (h' : advance pi p f'.midSide f'.inhop f'.outhop s'.1 f'.inputs s'.2 = some w')
    (hbt : (∀ x, f.inputs[k]? = some x → Resets p x i) ∨ ∃ c c', s.1[k]? = some c ∧ s'.1[k]? = some c' ∧ BinTurned pi d i c c') :
    (∃ c c', w.1[k]? = some c ∧ w'.1[k]? = some c' ∧ BinTurned pi d i c c') ∧
      ∃ o o' y y', w.2[k]? = some o ∧ w'.2[k]? = some o' ∧ o[i]? = some y ∧ o'[i]? = some y' ∧ Cong pi y' (y + d) := by
  obtain ⟨⟨x0, h0, hr⟩, x, hx, hcase⟩ := hb
  obtain ⟨x', hx', tx⟩ := forall₂_getElem? ht.inputs k hx
  obtain ⟨x0', h0', tx0⟩ : ∃ x0', f'.inputs.head? = some x0' ∧ TurnedInput pi d x0 x0' := by
    rw [List.head?_eq_getElem?] at h0 ⊢
    exact forall₂_getElem? ht.inputs 0 h0
  have hr' : binRange p x0'.guidance = some (lo, n) := by rw [tx0.guidance]; exact hr
  obtain ⟨cs, os⟩ := s
  obtain ⟨cs', os'⟩ := s'
  obtain ⟨w1, w2⟩ := w
  obtain ⟨w1', w2'⟩ := w'
  have hk : k < f.inputs.length := (List.getElem?_eq_some_iff.mp hx).1
  have hk' : k < f'.inputs.length := (List.getElem?_eq_some_iff.mp hx').1
  obtain ⟨_, _, _, mids, g0, gr, l1, l2, _, l4, l5, key⟩ := advance_facts h
  obtain ⟨_, _, _, mids', g0', gr', l1', l2', _, l4', l5', key'⟩ := advance_facts h'
  rw [h0] at g0; cases g0; rw [hr] at gr; cases gr
  rw [h0'] at g0'; cases g0'; rw [hr'] at gr'; cases gr'
  change cs.length = _ at l1
  change os.length = _ at l2
  change cs'.length = _ at l1'
  change os'.length = _ at l2'
  have hc : cs[k]? = some cs[k] := List.getElem?_eq_getElem (by omega)
  have hc' : cs'[k]? = some cs'[k] := List.getElem?_eq_getElem (by omega)
  obtain ⟨mid, ch, o, m1, m2, m3, hm, ha⟩ := key k cs[k] x os[k] hc hx (List.getElem?_eq_getElem (show k < os.length by omega))
  obtain ⟨mid', ch', o', m1', m2', m3', hm', ha'⟩ := key' k cs'[k] x' os'[k] hc' hx' (List.getElem?_eq_getElem (show k < os'.length by omega))
  obtain ⟨ph, p1, p2⟩ := ha.out i i1 i2
  obtain ⟨ph', p1', p2'⟩ := ha'.out i i1 i2
  obtain ⟨q1, q2⟩ := ha.prevIn i i1 i2
  obtain ⟨q1', q2'⟩ := ha'.prevIn i i1 i2
  obtain ⟨a, hph⟩ := Option.isSome_iff_exists.mp q2
  obtain ⟨a', hph'⟩ := Option.isSome_iff_exists.mp q2'
  have tphase := tx.phase i a a' hph hph'
  -- it is enough that the phases put out are turned
  suffices hfin : Cong pi (princarg pi ph') (princarg pi ph + d) from
    ⟨⟨ch, ch', m2, m2', a, a', _, _, by rw [q1, hph], by rw [q1', hph'], by rw [ha.prevOut i i1 i2, p2], by rw [ha'.prevOut i i1 i2, p2'], tphase, hfin⟩, o, o', _, _, m3, m3', p2, p2', hfin⟩
  have fin : Cong pi ph' (ph + d) → Cong pi (princarg pi ph') (princarg pi ph + d) := by
    intro e
    refine ((princarg_cong pi ph').trans e).trans ?_
    obtain ⟨m, hm⟩ := princarg_cong pi ph
    exact ⟨-m, by push_cast; linear_combination -hm⟩
  have hside : sideReset f'.midSide f'.inputs (freq p i) k = sideReset f.midSide f.inputs (freq p i) k := by
    unfold sideReset
    rw [ht.midSide, ht.inputs.length_eq]
    congr 1
    cases e : f.inputs[1]? with
    | none =>
      have : f'.inputs[1]? = none := by
        rw [List.getElem?_eq_none_iff] at e ⊢
        have := ht.inputs.length_eq
        omega
      rw [this]
    | some z =>
      obtain ⟨z', e', tz⟩ := forall₂_getElem? ht.inputs 1 e
      rw [e']
      show inRange _ z'.guidance.phaseReset = inRange _ z.guidance.phaseReset
      rw [tz.guidance]
  unfold binPhase at p1 p1'
  simp only [hside, ht.inhop, ht.outhop, tx.guidance] at p1 p1'
  by_cases hres : (inRange (freq p i) x.guidance.phaseReset || inRange (freq p i) x.guidance.kick) = true
  · rw [if_pos hres, hph] at p1
    rw [if_pos hres, hph'] at p1'
    cases p1; cases p1'
    exact fin tphase
  · have hnr : ¬ Resets p x i := by
      rintro (h | h)
      · exact hres (by rw [(inRange_iff _ _).mpr h]; rfl)
      · exact hres (by rw [(inRange_iff _ _).mpr h, Bool.or_true])
    rw [if_neg hres] at p1 p1'
    by_cases hsd : sideReset f.midSide f.inputs (freq p i) k = true
    · rw [if_pos hsd, hph] at p1
      rw [if_pos hsd, hph'] at p1'
      cases p1; cases p1'
      exact fin tphase
    · rw [if_neg hsd] at p1 p1'
      rcases hbt with hbt | ⟨c, c', e1, e2, was, was', b, b', t1, t2, t3, t4, t5, t6⟩
      · exact absurd (hbt x hx) hnr
      simp only at e1 e2
      rw [hc] at e1; cases e1
      rw [hc'] at e2; cases e2
      have own : mid.unlocked[i]? = some ph → mid'.unlocked[i]? = some ph' → Cong pi (princarg pi ph') (princarg pi ph + d) := by
        intro u u'
        rw [hm.unlocked i i1 i2] at u
        rw [hm'.unlocked i i1 i2] at u'
        unfold unlock at u u'
        simp only [t1, t3, hph, Option.bind_eq_bind, Option.bind_some, Option.pure_def, Option.some.injEq] at u
        simp only [t2, t4, hph', Option.bind_eq_bind, Option.bind_some, Option.pure_def, Option.some.injEq] at u'
        rw [ht.inhop, ht.outhop] at u'
        rw [← u, ← u'] at fin ⊢
        exact fin (own_cong hpi tphase t5 t6)
      by_cases hh : f.inhop = f.outhop
      · rw [if_pos hh] at p1 p1'
        exact own p1 p1'
      rw [if_neg hh] at p1 p1'
      by_cases hu : inRange (freq p i) x.guidance.highUnlocked = true
      · rw [if_pos hu] at p1 p1'
        exact own p1 p1'
      rcases hcase with hcase | hcase | hcase | ⟨sf, ⟨j, bd, sb, sp⟩, spp⟩
      · exact absurd hcase hnr
      · exact absurd hcase hh
      · exact absurd ((inRange_iff _ _).mpr hcase) hu
      have sf' : Follows p f'.midSide f'.inhop f'.outhop f'.inputs k x' i := by
        refine ⟨by rw [ht.inhop, ht.outhop]; exact sf.hops, ?_, by rw [hside]; exact sf.noSide, by rw [tx.guidance]; exact sf.locked, by rw [tx.guidance]; exact sf.alone⟩
        unfold Resets
        rw [tx.guidance]
        exact sf.noReset
      obtain ⟨q, y, bq, wq, aq, r1, r2, r3, r4, r5, r6⟩ := C66_peak hp hs hso.1 hv h h0 hr hx hc m3 i1 i2 sf sb sp
      obtain ⟨q', y', bq', wq', aq', r1', r2', r3', r4', r5', r6'⟩ := C66_peak hp hs hso'.1 hv' h' h0' hr' hx' hc' m3' i1 i2 sf' (by rw [tx.guidance]; exact sb) (by rw [tx.mag]; exact sp)
      have eq : q = i := isNearest_unique r1 spp
      have eq' : q' = i := isNearest_unique r1' (by unfold PlainPeak at spp; rw [tx.prevMag]; exact spp)
      subst eq
      subst eq'
      rw [t3] at r3; cases r3
      rw [t1] at r4; cases r4
      rw [hph] at r5; cases r5
      rw [t4] at r3'; cases r3'
      rw [t2] at r4'; cases r4'
      rw [hph'] at r5'; cases r5'
      rw [p2] at r2; cases r2
      rw [p2'] at r2'; cases r2'
      rw [ht.inhop, ht.outhop] at r6'
      refine (r6'.trans (own_cong hpi tphase t5 t6)).trans ?_
      obtain ⟨m, hm⟩ := r6
      exact ⟨-m, by push_cast; linear_combination -hm⟩

theorem turned_run {pi d : K} (hpi : 0 < pi) {p : Params} (hp : p.guide.Supported) (hs : p.Scale) {lo n k i : Nat} (i1 : lo ≤ i) (i2 : i < lo + n) : ∀ {fs fs' : List (Step K)},
    List.Forall₂ (TurnedStep pi d) fs fs' → (∀ f ∈ fs, ∀ x ∈ f.inputs, Valid p x) → (∀ f ∈ fs', ∀ x ∈ f.inputs, Valid p x) → (∀ f ∈ fs, ByItself p lo n k i f) →
    ∀ {s s' w w' : List (Chan K) × List (List K)}, Sound p s → Sound p s' → run pi p fs s = some w → run pi p fs' s' = some w' →
      (∃ c c', s.1[k]? = some c ∧ s'.1[k]? = some c' ∧ BinTurned pi d i c c') →
      (∃ o o' y y', s.2[k]? = some o ∧ s'.2[k]? = some o' ∧ o[i]? = some y ∧ o'[i]? = some y' ∧ Cong pi y' (y + d)) →
      ∃ o o' y y', w.2[k]? = some o ∧ w'.2[k]? = some o' ∧ o[i]? = some y ∧ o'[i]? = some y' ∧ Cong pi y' (y + d) := by
  intro fs fs' hf
  induction hf with
  | nil =>
    intro _ _ _ s s' w w' _ _ h h' _ ho
    cases h; cases h'
    exact ho
  | cons ht _ ih =>
    intro hv hv' hb s s' w w' hso hso' h h' hbt _
    unfold run at h h'
    obtain ⟨v, h1, h2⟩ := Option.bind_eq_some_iff.mp h
    obtain ⟨v', h1', h2'⟩ := Option.bind_eq_some_iff.mp h'
    obtain ⟨r1, r2⟩ := turned_advance hpi hp hs i1 i2 ht (hv _ (by simp)) (hv' _ (by simp)) (hb _ (by simp)) hso hso' h1 h1' (.inr hbt)
    exact ih (fun f hf => hv f (by simp [hf])) (fun f hf => hv' f (by simp [hf])) (fun f hf => hb f (by simp [hf])) (sound_advance hp hs (hv _ (by simp)) hso h1)
      (sound_advance hp hs (hv' _ (by simp)) hso' h1') h2 h2' r1 r2

omit [IsStrictOrderedRing K] in
theorem sound_run {pi : K} {p : Params} (hp : p.guide.Supported) (hs : p.Scale) : ∀ (fs : List (Step K)) {s w : List (Chan K) × List (List K)}, (∀ f ∈ fs, ∀ x ∈ f.inputs, Valid p x) → Sound p s →
    run pi p fs s = some w → Sound p w
  | [], _, _, _, hso, h => by cases h; exact hso
  | f :: fs, _, _, hv, hso, h => by
    unfold run at h
    obtain ⟨v, h1, h2⟩ := Option.bind_eq_some_iff.mp h
    exact sound_run hp hs fs (fun g hg => hv g (by simp [hg])) (sound_advance hp hs (hv f (by simp)) hso h1) h2

/-- **C152**, in part: from a call on in which the bin is reset, whatever came before (and however it differed between the two), and for as long as the bin goes by its own phases - it is reset again, or the
hops are the same, or its frequency is among those not locked, or it is a peak that stays where it was -, turning all phases of the input by `d` turns those put out by `d`.  For any number of channels,
any ratios and hops.  Missing from the full statement: the bins that are locked to a peak next to them (see `C152_violated`), and those before the first reset (see `C152_violated_start`). -/
theorem C152_partial {pi d : K} (hpi : 0 < pi) {p : Params} (hp : p.guide.Supported) (hs : p.Scale) {lo n k i : Nat} (i1 : lo ≤ i) (i2 : i < lo + n) {before before' : List (Step K)} {f f' : Step K}
    {fs fs' : List (Step K)} (ht : List.Forall₂ (TurnedStep pi d) (f :: fs) (f' :: fs')) (hv : ∀ g ∈ before ++ f :: fs, ∀ x ∈ g.inputs, Valid p x) (hv' : ∀ g ∈ before' ++ f' :: fs', ∀ x ∈ g.inputs, Valid p x)
    (hres : ∀ x, f.inputs[k]? = some x → Resets p x i) (hb : ∀ g ∈ f :: fs, ByItself p lo n k i g) {s s' w w' : List (Chan K) × List (List K)} (hso : Sound p s) (hso' : Sound p s')
    (h : run pi p (before ++ f :: fs) s = some w) (h' : run pi p (before' ++ f' :: fs') s' = some w') :
    ∃ o o' y y', w.2[k]? = some o ∧ w'.2[k]? = some o' ∧ o[i]? = some y ∧ o'[i]? = some y' ∧ Cong pi y' (y + d) := by
  rw [run_append] at h h'
  obtain ⟨u, u1, h⟩ := Option.bind_eq_some_iff.mp h
  obtain ⟨u', u1', h'⟩ := Option.bind_eq_some_iff.mp h'
  have su := sound_run hp hs before (fun g hg => hv g (by simp [hg])) hso u1
  have su' := sound_run hp hs before' (fun g hg => hv' g (by simp [hg])) hso' u1'
  unfold run at h h'
  obtain ⟨v, h1, h2⟩ := Option.bind_eq_some_iff.mp h
  obtain ⟨v', h1', h2'⟩ := Option.bind_eq_some_iff.mp h'
  cases ht with
  | cons ht hts =>
    obtain ⟨r1, r2⟩ := turned_advance hpi hp hs i1 i2 ht (hv f (by simp)) (hv' f' (by simp)) (hb f (by simp)) su su' h1 h1' (.inl hres)
    exact turned_run hpi hp hs i1 i2 hts (fun g hg => hv g (by simp [hg])) (fun g hg => hv' g (by simp [hg])) (fun g hg => hb g (by simp [hg])) (sound_advance hp hs (hv f (by simp)) su h1)
      (sound_advance hp hs (hv' f' (by simp)) su' h1') h2 h2' r1 r2

/-! ## Where it does not hold -/

omit [LinearOrder K] [IsStrictOrderedRing K] [FloorRing K] in
theorem create_fit (p : Params) : Fit p (create p : Chan K) := by
  refine ⟨by simp [create], by simp [create], by simp [create], by simp [create], by simp [create], ?_, ?_⟩
  · intro x hx
    have := List.eq_of_mem_replicate hx
    have := bins_pos p
    omega
  · intro x hx
    obtain ⟨i, hi, rfl⟩ := List.mem_map.mp hx
    have := List.mem_range.mp hi
    exact ⟨Int.natCast_nonneg _, by show ((i : Nat) : Int) < _; omega⟩

namespace Polar

/-- A very quiet frame: the guide takes it for silence and has all phases reset. -/
def quiet : Guide.Frame := { Guide.Ex.flat 513 with mags := List.replicate 513 (1 / 10 ^ 9), prev := List.replicate 513 0, mean := 1 / 10 ^ 9 }

/-- The guidance at the quiet frame. -/
def g1 : Guidance := (updates Ex.small.guide [quiet] {}).getD {}

/-- The guidance at the frame after it. -/
def g2 : Guidance := (updates Ex.small.guide [quiet, Guide.Ex.flat 513] {}).getD {}

/-- The phases of the bins. -/
noncomputable def phases (u : Nat → ℝ) : List ℝ := (List.range 513).map u

theorem phases_length (u : Nat → ℝ) : (phases u).length = 513 := by rw [phases, List.length_map, List.length_range]

theorem phases_get (u : Nat → ℝ) {i : Nat} (h : i < 513) : (phases u)[i]? = some (u i) := by
  rw [phases, List.getElem?_map, List.getElem?_range h]
  rfl

/-- The quiet frame. -/
noncomputable def first (u : Nat → ℝ) : Input ℝ := ⟨List.replicate 513 (1 / 10 ^ 9), phases u, List.replicate 513 0, g1⟩

/-- A sinusoid in bin 256. -/
noncomputable def tone (g : Guidance) (u : Nat → ℝ) : Input ℝ := ⟨(List.replicate 513 1).set 256 2, phases u, List.replicate 513 (1 / 10 ^ 9), g⟩

/-- Its phases. -/
noncomputable def plus (i : Nat) : ℝ := if i = 0 ∨ i = 512 then 0 else if i = 255 then -(1 / 2) else 1 / 2

/-- Those of the same turned over. -/
noncomputable def minus (i : Nat) : ℝ := if i = 0 ∨ i = 512 then Real.pi else if i = 255 then -(1 / 2) + Real.pi else 1 / 2 - Real.pi

/-- A call for one channel, at ratio 3/2. -/
def call (x : Input ℝ) : Step ℝ := ⟨false, 100, 150, [x]⟩

theorem quiet_whole : Whole Ex.small.guide quiet := by
  have h : Ex.small.guide.classify = 1024 := by decide +kernel
  refine ⟨?_, ?_, ?_⟩ <;> rw [h] <;> exact le_of_eq List.length_replicate.symm

theorem flat_whole : Whole Ex.small.guide (Guide.Ex.flat 513) := Guide.Ex.flat_whole (by decide +kernel)

theorem g1_reachable : Reachable Ex.small.guide g1 :=
  ⟨[quiet], by simp, fun f hf => by rw [List.mem_singleton.mp hf]; exact quiet_whole, by decide +kernel⟩

theorem g2_reachable : Reachable Ex.small.guide g2 :=
  ⟨[quiet, Guide.Ex.flat 513], by simp, fun f hf => by
    rcases List.mem_cons.mp hf with rfl | hf
    · exact quiet_whole
    · rw [List.mem_singleton.mp hf]; exact flat_whole, by decide +kernel⟩

theorem one_reachable : Reachable Ex.small.guide Ex.one :=
  ⟨[Guide.Ex.flat 513], by simp, fun f hf => by rw [List.mem_singleton.mp hf]; exact flat_whole, by decide +kernel⟩

theorem bins : Ex.small.bins = 513 := rfl

theorem first_valid (u : Nat → ℝ) : Valid Ex.small (first u) :=
  ⟨by rw [bins, first, List.length_replicate], by rw [bins, first, phases_length], by rw [bins, first, List.length_replicate], g1_reachable⟩

theorem tone_valid {g : Guidance} (hg : Reachable Ex.small.guide g) (u : Nat → ℝ) : Valid Ex.small (tone g u) :=
  ⟨by rw [bins, tone, List.length_set, List.length_replicate], by rw [bins, tone, phases_length], by rw [bins, tone, List.length_replicate], hg⟩

theorem first_phase (u : Nat → ℝ) : (first u).phase = phases u := by simp only [first]

theorem tone_phase (g : Guidance) (u : Nat → ℝ) : (tone g u).phase = phases u := by simp only [tone]

theorem principal_of {x : Input ℝ} {u : Nat → ℝ} (hx : x.phase = phases u) (h : ∀ i, -Real.pi < u i ∧ u i ≤ Real.pi) (h0 : u 0 = 0 ∨ u 0 = Real.pi) (h1 : u 512 = 0 ∨ u 512 = Real.pi) : Principal Ex.small x := by
  refine ⟨?_, ?_, ?_⟩
  · intro a ha
    rw [hx] at ha
    obtain ⟨i, _, rfl⟩ := List.mem_map.mp ha
    exact h i
  · rw [hx, phases_get u (by omega)]
    simpa using h0
  · show x.phase[512]? = _ ∨ x.phase[512]? = _
    rw [hx, phases_get u (by omega)]
    simpa using h1

theorem plus_range (i : Nat) : -Real.pi < plus i ∧ plus i ≤ Real.pi := by
  have := Real.two_le_pi
  unfold plus
  split
  · constructor <;> linarith
  · split <;> constructor <;> linarith

theorem minus_range (i : Nat) : -Real.pi < minus i ∧ minus i ≤ Real.pi := by
  have := Real.two_le_pi
  unfold minus
  split
  · constructor <;> linarith
  · split <;> constructor <;> linarith

theorem plus_minus (i : Nat) : Cong Real.pi (minus i) (plus i + Real.pi) := by
  unfold plus minus
  split
  · exact ⟨0, by push_cast; ring⟩
  · split
    · exact ⟨0, by push_cast; ring⟩
    · exact ⟨-1, by push_cast; ring⟩

theorem turned_of {x x' : Input ℝ} {u u' : Nat → ℝ} (h : ∀ i, Cong Real.pi (u' i) (u i + Real.pi)) (hx : x.phase = phases u) (hx' : x'.phase = phases u') (h1 : x'.mag = x.mag) (h2 : x'.prevMag = x.prevMag)
    (h3 : x'.guidance = x.guidance) : TurnedStep Real.pi Real.pi (call x) (call x') := by
  refine ⟨rfl, rfl, rfl, .cons ⟨h1, h2, h3, by rw [hx, hx', phases_length, phases_length], ?_⟩ .nil⟩
  intro i a a' ha ha'
  rw [hx] at ha
  rw [hx'] at ha'
  have hi : i < 513 := by rw [← phases_length u]; exact (List.getElem?_eq_some_iff.mp ha).1
  rw [phases_get _ hi] at ha ha'
  cases ha; cases ha'
  exact h i

theorem made {x : Input ℝ} (h : Valid Ex.small x) (h' : Principal Ex.small x) : Made Ex.small 1 (call x) :=
  ⟨⟨by show 0 < 100; omega, by show 0 < 150; omega⟩, rfl, fun y hy => by rw [List.mem_singleton.mp hy]; exact h, fun y hy => by rw [List.mem_singleton.mp hy]; exact h'⟩

theorem supported : Ex.small.guide.Supported := by unfold Guide.Params.Supported Ex.small; constructor <;> norm_num

theorem scale : Ex.small.Scale := by unfold Params.Scale; decide +kernel

theorem tone_mag (g : Guidance) (u : Nat → ℝ) (k : Nat) : (tone g u).mag[k]? = if k < 513 then (if k = 256 then some 2 else some 1) else none := by
  show ((List.replicate 513 (1 : ℝ)).set 256 2)[k]? = _
  rw [List.getElem?_set]
  by_cases h : 256 = k
  · subst h
    rw [if_pos rfl, if_pos (by rw [List.length_replicate]; decide), if_pos (by decide), if_pos rfl]
  · rw [if_neg h, List.getElem?_replicate]
    split
    · rw [if_neg (Ne.symm h)]
    · rfl

/-- Bin 256 is the peak of its neighbours. -/
theorem tone_peak {g : Guidance} (hg : firstBin Ex.small g.lock1 = 205 ∧ lastBin Ex.small 512 g.lock1 = 512 ∧ g.lock1.p = 2) (u : Nat → ℝ) {i : Nat} (hi : i = 255 ∨ i = 256) :
    BandPeak Ex.small 512 (tone g u).mag g.lock1 i 256 := by
  unfold BandPeak
  rw [hg.1, hg.2.1]
  refine ⟨⟨by omega, by omega, 2, by rw [tone_mag]; rfl, ?_, ?_⟩, ?_⟩
  · intro k y h1 h2 _ hy
    rw [tone_mag, if_pos (by omega), if_neg (by omega)] at hy
    cases hy
    norm_num
  · intro k y h1 h2 _ hy
    rw [tone_mag, if_pos (by omega), if_neg (by omega)] at hy
    cases hy
    norm_num
  · intro r hr
    have h2 : r ≠ 255 := by
      rintro rfl
      obtain ⟨_, _, x, hx, _, h⟩ := hr
      rw [tone_mag] at hx
      cases hx
      have := h 256 2 (by omega) (by omega) (by rw [hg.2.2]; omega) (by rw [tone_mag]; rfl)
      norm_num at this
    unfold Peak.dist
    rcases hi with rfl | rfl <;> split <;> split <;> omega

/-- A guidance that locks bins 255 and 256 in the second band, each in its own channel. -/
def Locks (g : Guidance) : Prop :=
  g.lockBands = [g.lock0, g.lock1, g.lock2] ∧ (∀ i ∈ [255, 256], g.lock0.f1 < freq Ex.small i ∧ freq Ex.small i ≤ g.lock1.f1 ∧ binForFrequency g.lock1.f0 1024 8000 ≤ i ∧ (i : Int) ≤ binForFrequency g.lock1.f1 1024 8000 ∧
    ¬ binForFrequency g.lock2.f0 1024 8000 ≤ i ∧ inRange (freq Ex.small i) g.phaseReset = false ∧ inRange (freq Ex.small i) g.kick = false ∧ inRange (freq Ex.small i) g.highUnlocked = false ∧
    inRange (freq Ex.small i) g.channelLock = false) ∧ g.lock1.beta = 13 / 12 ∧ (firstBin Ex.small g.lock1 = 205 ∧ lastBin Ex.small 512 g.lock1 = 512 ∧ g.lock1.p = 2) ∧ binRange Ex.small g = some (0, 513)

instance (g : Guidance) : Decidable (Locks g) := by unfold Locks; infer_instance

theorem one_locks : Locks Ex.one := by decide +kernel

theorem g2_locks : Locks g2 := by decide +kernel

theorem locks_band {g : Guidance} (h : Locks g) {i : Nat} (hi : i = 255 ∨ i = 256) : InBand Ex.small 512 g 1 g.lock1 i := by
  obtain ⟨h1, h2, h3, h4, h5, -⟩ := h.2.1 i (by rcases hi with rfl | rfl <;> simp)
  refine ⟨by rw [h.1]; rfl, ⟨h3, h4, by omega⟩, ?_, h2, ?_⟩
  · intro j' b' hj h'
    have : j' = 0 := by omega
    subst this
    rw [h.1] at h'
    cases h'
    exact h1
  · intro j' b' hj h'
    rw [h.1] at h'
    match j', hj with
    | 2, _ => cases h'; exact fun hc => h5 hc.1
    | n + 3, _ => cases h'

theorem locks_follow {g : Guidance} (h : Locks g) (u : Nat → ℝ) {i : Nat} (hi : i = 255 ∨ i = 256) : Follows Ex.small false 100 150 [tone g u] 0 (tone g u) i := by
  obtain ⟨-, -, -, -, -, h6, h7, h8, h9⟩ := h.2.1 i (by rcases hi with rfl | rfl <;> simp)
  refine ⟨by decide, ?_, rfl, ?_, ?_⟩
  · rintro (h | h)
    · rw [show inRange (freq Ex.small i) g.phaseReset = true from (inRange_iff _ _).mpr h] at h6; cases h6
    · rw [show inRange (freq Ex.small i) g.kick = true from (inRange_iff _ _).mpr h] at h7; cases h7
  · intro h
    rw [show inRange (freq Ex.small i) g.highUnlocked = true from (inRange_iff _ _).mpr h] at h8; cases h8
  · intro h
    rw [show inRange (freq Ex.small i) g.channelLock = true from (inRange_iff _ _).mpr h] at h9; cases h9

/-- The start. -/
noncomputable def start : List (Chan ℝ) × List (List ℝ) := (List.replicate 1 (create Ex.small), List.replicate 1 (List.replicate Ex.small.bins 0))

theorem start_sound : Sound Ex.small start :=
  ⟨fun c hc => by rw [List.eq_of_mem_replicate hc]; exact create_fit _, fun o ho => by rw [List.eq_of_mem_replicate ho, List.length_replicate]⟩

/-- A call from any sound state. -/
theorem call_some {s : List (Chan ℝ) × List (List ℝ)} (h1 : s.1.length = 1) (h2 : s.2.length = 1) (hs : Sound Ex.small s) {x : Input ℝ} (hx : Valid Ex.small x) :
    ∃ c o, advance Real.pi Ex.small false 100 150 s.1 [x] s.2 = some ([c], [o]) ∧ Sound Ex.small ([c], [o]) := by
  obtain ⟨cs, os, a1, a2, a3, a4, a5⟩ := advance_safe Real.pi supported scale false 100 150 (cs := s.1) (xs := [x]) (outs := s.2) (by intro h; rw [h] at h1; cases h1) h1 (by omega) hs.1
    (fun y hy => by rw [List.mem_singleton.mp hy]; exact hx) hs.2
  rw [h1] at a2 a3
  obtain ⟨c, rfl⟩ := List.length_eq_one_iff.mp a2
  obtain ⟨o, rfl⟩ := List.length_eq_one_iff.mp a3
  exact ⟨c, o, a1, a4, a5⟩

/-- Two calls: what is put out for the two bins differs by 13/12 of what the phases taken in differ by. -/
theorem two_calls (u v : Nat → ℝ) : ∃ y z, Puts Ex.small 1 [call (first u), call (tone g2 v)] 0 255 y ∧ Puts Ex.small 1 [call (first u), call (tone g2 v)] 0 256 z ∧
    Cong Real.pi (y - z) (13 / 12 * (v 255 - v 256)) := by
  obtain ⟨c, o, e, so⟩ := call_some (s := start) rfl rfl start_sound (first_valid u)
  obtain ⟨c', o', e', -⟩ := call_some (s := ([c], [o])) rfl rfl so (tone_valid g2_reachable v)
  have hrun : run Real.pi Ex.small [call (first u), call (tone g2 v)] start = some ([c'], [o']) := by
    unfold run
    rw [show advance Real.pi Ex.small (call (first u)).midSide (call (first u)).inhop (call (first u)).outhop start.1 (call (first u)).inputs start.2 = some ([c], [o]) from e, Option.bind_some]
    unfold run
    rw [show advance Real.pi Ex.small (call (tone g2 v)).midSide (call (tone g2 v)).inhop (call (tone g2 v)).outhop [c] (call (tone g2 v)).inputs [o] = some ([c'], [o']) from e', Option.bind_some]
    rfl
  obtain ⟨y, z, a, am, r1, r2, r3, r4, r5⟩ := C66_locked supported scale so.1 (fun y hy => by rw [List.mem_singleton.mp hy]; exact tone_valid g2_reachable v) e' (lo := 0) (n := 513) rfl g2_locks.2.2.2.2
    (k := 0) rfl rfl (i := 255) (m := 256) (by omega) (by omega) (by omega) (by omega) (locks_follow g2_locks v (.inl rfl)) (locks_follow g2_locks v (.inr rfl)) (locks_band g2_locks (.inl rfl))
    (locks_band g2_locks (.inr rfl)) (tone_peak g2_locks.2.2.2.1 v (.inl rfl))
  refine ⟨y, z, ⟨_, o', hrun, rfl, r1⟩, ⟨_, o', hrun, rfl, r2⟩, ?_⟩
  rw [tone_phase, phases_get v (by omega)] at r3 r4
  cases r3; cases r4
  rw [g2_locks.2.2.1] at r5
  have : (((13 / 12 : ℚ)) : ℝ) = 13 / 12 := by norm_num
  rw [this] at r5
  exact r5

/-- One call, the first: the peak's phase put out is taken as an advance from 0. -/
theorem one_call {v : Nat → ℝ} (h1 : -Real.pi < v 256) (h2 : v 256 ≤ Real.pi) : ∃ y, Puts Ex.small 1 [call (tone Ex.one v)] 0 256 y ∧ Cong Real.pi y (3 / 2 * (50 * Real.pi + v 256)) := by
  obtain ⟨c, o, e, so⟩ := call_some (s := start) rfl rfl start_sound (tone_valid one_reachable v)
  have hrun : run Real.pi Ex.small [call (tone Ex.one v)] start = some ([c], [o]) := by
    unfold run
    rw [show advance Real.pi Ex.small (call (tone Ex.one v)).midSide (call (tone Ex.one v)).inhop (call (tone Ex.one v)).outhop start.1 (call (tone Ex.one v)).inputs start.2 = some ([c], [o]) from e, Option.bind_some]
    rfl
  obtain ⟨q, y, b, was, is, r1, r2, r3, r4, r5, r6⟩ := C66_peak supported scale start_sound.1 (fun y hy => by rw [List.mem_singleton.mp hy]; exact tone_valid one_reachable v) e (lo := 0) (n := 513) rfl
    one_locks.2.2.2.2 (k := 0) rfl (c := create Ex.small) rfl rfl (m := 256) (by omega) (by omega) (locks_follow one_locks v (.inr rfl)) (locks_band one_locks (.inr rfl)) (tone_peak one_locks.2.2.2.1 v (.inr rfl))
  refine ⟨y, ⟨_, o, hrun, rfl, r2⟩, ?_⟩
  have e1 : b = 0 := List.eq_of_mem_replicate (List.mem_of_getElem? r3)
  have e2 : was = 0 := List.eq_of_mem_replicate (List.mem_of_getElem? r4)
  rw [tone_phase, phases_get v (by omega)] at r5
  cases r5
  subst e1 e2
  have e3 : 2 * Real.pi * ((100 : Nat) : ℝ) / ((Ex.small.fftSize : Nat) : ℝ) * ((256 : Nat) : ℝ) = 50 * Real.pi := by
    rw [show Ex.small.fftSize = 1024 from rfl]
    push_cast
    ring
  rw [e3] at r6
  have e4 : princarg Real.pi (v 256 - (0 + 50 * Real.pi)) = v 256 := by
    rw [← princarg_id Real.pi_pos h1 h2, princarg_id Real.pi_pos h1 h2]
    refine (R2Modify.princarg_of_cong Real.pi_pos ⟨-25, by push_cast; ring⟩).trans (princarg_id Real.pi_pos h1 h2)
  rw [e4] at r6
  refine r6.trans ⟨0, ?_⟩
  push_cast
  ring

/-- A fraction of a turn is no number of whole turns. -/
theorem not_turns {n : Int} {a b : Int} (hb : b ≠ 0) (h : (a : ℝ) / b * Real.pi = n * (2 * Real.pi)) : a = 2 * n * b := by
  have hp := Real.pi_ne_zero
  have hb' : (b : ℝ) ≠ 0 := by exact_mod_cast hb
  have : (a : ℝ) = 2 * n * b := by
    field_simp at h
    linarith
  exact_mod_cast this

end Polar

/-- A quiet frame, in which all phases are reset, then a sinusoid in bin 256 at ratio 3/2: bin 255 is locked to it with 13/12 of the difference of the phases, which is -1 in the one case and -1 and a whole turn in
the other; so the two bins cannot both be turned by half a turn. -/
theorem C152_violated : ¬ C152_statement := by
  intro hC
  obtain ⟨y, z, hy, hz, hyz⟩ := Polar.two_calls (fun _ => 0) Polar.plus
  obtain ⟨y', z', hy', hz', hyz'⟩ := Polar.two_calls (fun _ => Real.pi) Polar.minus
  have hpi := Real.pi_pos
  have m1 : Made Ex.small 1 (Polar.call (Polar.first fun _ => 0)) :=
    Polar.made (Polar.first_valid _) (Polar.principal_of (u := fun _ => 0) (Polar.first_phase _) (fun _ => ⟨by linarith, hpi.le⟩) (.inl rfl) (.inl rfl))
  have m1' : Made Ex.small 1 (Polar.call (Polar.first fun _ => Real.pi)) :=
    Polar.made (Polar.first_valid _) (Polar.principal_of (u := fun _ => Real.pi) (Polar.first_phase _) (fun _ => ⟨by linarith, le_refl _⟩) (.inr rfl) (.inr rfl))
  have m2 : Made Ex.small 1 (Polar.call (Polar.tone Polar.g2 Polar.plus)) :=
    Polar.made (Polar.tone_valid Polar.g2_reachable _) (Polar.principal_of (Polar.tone_phase _ _) Polar.plus_range (.inl (by simp [Polar.plus])) (.inl (by simp [Polar.plus])))
  have m2' : Made Ex.small 1 (Polar.call (Polar.tone Polar.g2 Polar.minus)) :=
    Polar.made (Polar.tone_valid Polar.g2_reachable _) (Polar.principal_of (Polar.tone_phase _ _) Polar.minus_range (.inr (by simp [Polar.minus])) (.inr (by simp [Polar.minus])))
  have mm : ∀ g ∈ [Polar.call (Polar.first fun _ => 0), Polar.call (Polar.tone Polar.g2 Polar.plus)], Made Ex.small 1 g := by
    intro g hg
    rcases List.mem_cons.mp hg with rfl | hg
    · exact m1
    · rw [List.mem_singleton.mp hg]; exact m2
  have mm' : ∀ g ∈ [Polar.call (Polar.first fun _ => Real.pi), Polar.call (Polar.tone Polar.g2 Polar.minus)], Made Ex.small 1 g := by
    intro g hg
    rcases List.mem_cons.mp hg with rfl | hg
    · exact m1'
    · rw [List.mem_singleton.mp hg]; exact m2'
  have hres : ∀ x ∈ (Polar.call (Polar.first fun _ => 0)).inputs, ∀ i < Ex.small.bins, 2 * i < Ex.small.fftSize → Resets Ex.small x i := by
    intro x hx i _ hi
    rw [List.mem_singleton.mp hx]
    left
    have hg : Polar.g1.phaseReset = ⟨true, 0, 4000⟩ := by decide +kernel
    show Guide.inRange _ Polar.g1.phaseReset
    rw [hg]
    have h1 : (2 * i : Nat) < 1024 := hi
    have h2 : ((2 * i : Nat) : Rat) < 1024 := by exact_mod_cast h1
    push_cast at h2
    have h3 : (0 : Rat) ≤ i := by positivity
    refine ⟨rfl, ?_, ?_⟩
    · show (0 : Rat) ≤ (i : Rat) * 8000 / (1024 : Nat)
      push_cast
      positivity
    · show (i : Rat) * 8000 / (1024 : Nat) < 4000
      push_cast
      linarith
  have ht : List.Forall₂ (TurnedStep Real.pi Real.pi) [Polar.call (Polar.first fun _ => 0), Polar.call (Polar.tone Polar.g2 Polar.plus)]
      [Polar.call (Polar.first fun _ => Real.pi), Polar.call (Polar.tone Polar.g2 Polar.minus)] :=
    .cons (Polar.turned_of (u := fun _ => 0) (u' := fun _ => Real.pi) (fun _ => ⟨0, by push_cast; ring⟩) (Polar.first_phase _) (Polar.first_phase _) (by simp only [Polar.first]) (by simp only [Polar.first]) (by simp only [Polar.first])) (.cons (Polar.turned_of Polar.plus_minus (Polar.tone_phase _ _) (Polar.tone_phase _ _) (by simp only [Polar.tone]) (by simp only [Polar.tone]) (by simp only [Polar.tone])) .nil)
  obtain ⟨n, hn⟩ := hC Ex.small 1 _ _ _ _ 0 255 y y' Polar.supported Polar.scale (le_refl _) mm mm' hres ht (by decide) hy hy'
  obtain ⟨m, hm⟩ := hC Ex.small 1 _ _ _ _ 0 256 z z' Polar.supported Polar.scale (le_refl _) mm mm' hres ht (by decide) hz hz'
  obtain ⟨r, hr⟩ := hyz
  obtain ⟨s, hs⟩ := hyz'
  have p1 : Polar.plus 255 = -(1 / 2) := by simp [Polar.plus]
  have p2 : Polar.plus 256 = 1 / 2 := by simp [Polar.plus]
  have p3 : Polar.minus 255 = -(1 / 2) + Real.pi := by simp [Polar.minus]
  have p4 : Polar.minus 256 = 1 / 2 - Real.pi := by simp [Polar.minus]
  rw [p1, p2] at hr
  rw [p3, p4] at hs
  have := Polar.not_turns (n := n - m + r - s) (a := 13) (b := 6) (by decide) (by push_cast; linear_combination hn - hm + hr - hs)
  omega

/-- Without a reset at first, a sinusoid in bin 256 at ratio 3/2 from the start: its phase is taken as an advance from 0 and made half as long again, and so is the half turn. -/
theorem C152_violated_start : ¬ C152_start_statement := by
  intro hC
  have p2 : Polar.plus 256 = 1 / 2 := by simp [Polar.plus]
  have p4 : Polar.minus 256 = 1 / 2 - Real.pi := by simp [Polar.minus]
  obtain ⟨y, hy, r, hr⟩ := Polar.one_call (Polar.plus_range 256).1 (Polar.plus_range 256).2
  obtain ⟨y', hy', s, hs⟩ := Polar.one_call (Polar.minus_range 256).1 (Polar.minus_range 256).2
  obtain ⟨n, hn⟩ := hC Ex.small 1 _ _ 0 256 y y' Polar.supported Polar.scale (le_refl _)
    (fun g hg => by
      rw [List.mem_singleton.mp hg]
      exact Polar.made (Polar.tone_valid Polar.one_reachable _) (Polar.principal_of (Polar.tone_phase _ _) Polar.plus_range (.inl (by simp [Polar.plus])) (.inl (by simp [Polar.plus]))))
    (fun g hg => by
      rw [List.mem_singleton.mp hg]
      exact Polar.made (Polar.tone_valid Polar.one_reachable _) (Polar.principal_of (Polar.tone_phase _ _) Polar.minus_range (.inr (by simp [Polar.minus])) (.inr (by simp [Polar.minus]))))
    (.cons (Polar.turned_of Polar.plus_minus (Polar.tone_phase _ _) (Polar.tone_phase _ _) (by simp only [Polar.tone]) (by simp only [Polar.tone]) (by simp only [Polar.tone])) .nil) (by simp) (by decide) hy hy'
  rw [p2] at hr
  rw [p4] at hs
  have := Polar.not_turns (n := n + r - s) (a := -5) (b := 2) (by decide) (by push_cast; linear_combination hn + hr - hs)
  omega

/-! ## Example of `C152_partial` -/

set_option maxRecDepth 100000 in
/-- A quiet frame, then the sinusoid in bin 256 as it was: the bin is reset, then goes on as a steady peak. -/
example : (∀ x, (Polar.call (Polar.first fun _ => 0)).inputs[0]? = some x → Resets Ex.small x 256) ∧ ByItself Ex.small 0 513 0 256 (Polar.call (Polar.first fun _ => 0)) ∧
    ByItself Ex.small 0 513 0 256 (Polar.call { Polar.tone Polar.g2 Polar.plus with prevMag := (Polar.tone Polar.g2 Polar.plus).mag }) := by
  have hres : Resets Ex.small (Polar.first fun _ => 0) 256 := .inl ((inRange_iff _ _).mp (by
    show inRange (freq Ex.small 256) Polar.g1.phaseReset = true
    decide +kernel))
  have hr1 : binRange Ex.small Polar.g1 = some (0, 513) := by decide +kernel
  refine ⟨?_, ⟨⟨_, rfl, hr1⟩, _, rfl, .inl hres⟩, ⟨_, rfl, Polar.g2_locks.2.2.2.2⟩, _, rfl, .inr (.inr (.inr ⟨?_, ⟨1, _, Polar.locks_band Polar.g2_locks (.inr rfl), ?_⟩, ?_⟩))⟩
  · intro x hx
    cases hx
    exact hres
  · exact ⟨by decide, (Polar.locks_follow Polar.g2_locks Polar.plus (.inr rfl)).noReset, rfl, (Polar.locks_follow Polar.g2_locks Polar.plus (.inr rfl)).locked,
      (Polar.locks_follow Polar.g2_locks Polar.plus (.inr rfl)).alone⟩
  · exact Polar.tone_peak Polar.g2_locks.2.2.2.1 Polar.plus (.inr rfl)
  · refine ⟨⟨by omega, by omega, 2, by rw [Polar.tone_mag]; rfl, ?_, ?_⟩, ?_⟩
    · intro k y h1 h2 _ hy
      rw [Polar.tone_mag, if_pos (by omega), if_neg (by omega)] at hy
      cases hy
      norm_num
    · intro k y h1 h2 _ hy
      rw [Polar.tone_mag, if_pos (by omega), if_neg (by omega)] at hy
      cases hy
      norm_num
    · intro r _
      unfold Peak.dist
      split <;> split <;> omega

end Verif.PhaseAdvance
