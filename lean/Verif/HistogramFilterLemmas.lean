import Verif.HistogramFilterSpec
import Verif.MovingMedianLemmas
namespace Verif.HistogramFilter
open Verif.RingBuffer (RB Inv contents)
open Verif.MovingMedian (IsRank)

/-- Histogram of a window. -/
def HistOf (N : Nat) (h : List Int) (w : List Nat) : Prop :=
  h.length = N ∧ ∀ i, i < N → h[i]? = some ((w.count i : Nat) : Int)

structure HInv (N L : Nat) (f : HF) (w : List Nat) : Prop where
  binv : Inv f.buffer
  bsize : f.buffer.size = L + 1
  bcont : contents f.buffer = w
  le : w.length ≤ L
  range : ∀ x ∈ w, x < N
  hist : HistOf N f.histogram w
  mrange : f.mode < N ∧ -1 ≤ f.mode

theorem bump_inc {N : Nat} {h : List Int} {w : List Nat} (hh : HistOf N h w) {v : Nat}
    (hv : v < N) : ∃ h', bump h v 1 = some h' ∧ HistOf N h' (w ++ [v]) := by
  obtain ⟨h1, h2⟩ := hh
  unfold bump
  rw [h2 v hv]
  refine ⟨_, rfl, by simpa using h1, ?_⟩
  intro i hi
  by_cases hiv : i = v
  · subst hiv
    rw [List.getElem?_set_self (by omega)]
    simp [List.count_append]
  · rw [List.getElem?_set_ne (by omega), h2 i hi, List.count_append,
      List.count_cons_of_ne (by omega)]
    simp

theorem bump_dec {N : Nat} {h : List Int} {v : Nat} {w : List Nat} (hh : HistOf N h (v :: w))
    (hv : v < N) : ∃ h', bump h v (-1) = some h' ∧ HistOf N h' w := by
  obtain ⟨h1, h2⟩ := hh
  unfold bump
  rw [h2 v hv]
  refine ⟨_, rfl, by simpa using h1, ?_⟩
  intro i hi
  by_cases hiv : i = v
  · subst hiv
    rw [List.getElem?_set_self (by omega)]
    simp
  · rw [List.getElem?_set_ne (by omega), h2 i hi, List.count_cons_of_ne (by omega)]

theorem init_inv (N L : Nat) : HInv N L (init N L) [] :=
  ⟨STRB.init_inv L, rfl, STRB.contents_init L, by simp, by simp,
    ⟨by simp [init], by intro i hi; simp [init, hi]⟩, by simp [init]; omega⟩

theorem reset_inv {N L : Nat} {f : HF} {w : List Nat} (h : HInv N L f w) :
    HInv N L (reset f) [] := by
  obtain ⟨binv, bsize, bcont, le, range, hist, mr⟩ := h
  refine ⟨⟨binv.len, binv.r, binv.r⟩, bsize, by simp [reset, STRB.reset, contents], by simp,
    by simp, ⟨by simp [reset, hist.1], ?_⟩, mr⟩
  intro i hi
  have := hist.1
  simp [reset, this, hi]

theorem wspace {b : RB Nat} (h : Inv b) {L : Nat} (hs : b.size = L + 1) :
    STRB.getWriteSpace b = L - (contents b).length ∧ STRB.getReadSpace b = (contents b).length := by
  have h1 := RingBuffer.contents_length h
  have h2 := RingBuffer.space_sum h
  rw [STRB.getWriteSpace_eq, STRB.getReadSpace_eq]
  omega

theorem makeRoom_inv {N L : Nat} (hL : 1 ≤ L) {f : HF} {w : List Nat} (h : HInv N L f w) :
    ∃ f', makeRoom f = some f' ∧ f'.mode = f.mode ∧
      HInv N L f' (if w.length = L then w.tail else w) := by
  have h0 := h
  obtain ⟨binv, bsize, bcont, le, range, hist, mr⟩ := h
  have hw := wspace binv bsize
  unfold makeRoom
  by_cases hf : w.length = L
  · rw [if_pos (by rw [hw.1, bcont]; omega), if_pos hf]
    cases w with
    | nil => simp at hf; omega
    | cons d t =>
      obtain ⟨b1, r1, r2, r3, r4⟩ := MovingMedian.strb_readOne binv bcont
      obtain ⟨h', b1', b2'⟩ := bump_dec hist (range d (by simp))
      simp only [r1, Option.bind_eq_bind, Option.bind_some, b1']
      refine ⟨_, rfl, rfl, r2, by simp only; omega, r4, ?_, ?_, b2', mr⟩
      · simp at le ⊢; omega
      · intro x hx; exact range x (by simp at hx; simp [hx])
  · rw [if_neg (by rw [hw.1, bcont]; omega), if_neg hf]
    exact ⟨f, rfl, rfl, h0⟩

theorem push_inv {N L : Nat} (hL : 1 ≤ L) {f : HF} {w : List Nat} (h : HInv N L f w) {v : Nat}
    (hv : v < N) : ∃ f', push f v = some f' ∧ HInv N L f' (windowStep L w (.push v)) ∧
      ∃ h', HistOf N h' (windowStep L w (.push v)) ∧
        updateMode f.mode h' v (((windowStep L w (.push v)).count v : Nat) : Int) = some f'.mode := by
  obtain ⟨f1, m1, m2, m3⟩ := makeRoom_inv hL h
  have hlt : (if w.length = L then w.tail else w).length < L := by
    have := h.le
    split <;> simp <;> omega
  obtain ⟨binv, bsize, bcont, le, range, hist, mr⟩ := m3
  simp only [windowStep]
  generalize (if w.length = L then w.tail else w) = w1 at *
  obtain ⟨b2, w1', w2, w3, w4⟩ := STRB.writeOne_spec binv v
  have hlt' : (contents f1.buffer).length < f1.buffer.size - 1 := by rw [bcont, bsize]; omega
  rw [if_pos hlt'] at w4
  obtain ⟨h', b1, b2'⟩ := bump_inc hist hv
  unfold push
  simp only [m1, Option.bind_eq_bind, Option.bind_some, w1', b1, b2'.2 v hv]
  rw [m2] at mr
  rw [m2]
  have hum : ∃ m', updateMode f.mode h' v (((w1 ++ [v]).count v : Nat) : Int) = some m' ∧
      m' < N ∧ -1 ≤ m' := by
    unfold updateMode
    split
    · rw [b2'.2 f.mode.toNat (by omega)]
      simp only [Option.bind_eq_bind, Option.bind_some]
      split
      · split
        · exact ⟨_, rfl, by omega, by omega⟩
        · exact ⟨_, rfl, by omega, by omega⟩
      · exact ⟨_, rfl, by omega, by omega⟩
    · exact ⟨_, rfl, by omega, by omega⟩
  obtain ⟨m', u1, u2, u3⟩ := hum
  rw [u1]
  refine ⟨_, rfl, ⟨w2, by simp only; omega, by simp only; rw [w4, bcont], by simp; omega, ?_, b2',
    u2, u3⟩, h', b2', u1⟩
  intro x hx
  rcases List.mem_append.mp hx with hx | hx
  · exact range x hx
  · simp at hx; omega

theorem drop_inv {N L : Nat} {f : HF} {w : List Nat} (h : HInv N L f w) :
    ∃ f', drop f = some f' ∧ HInv N L f' w.tail ∧
      (∀ d t, w = d :: t → f'.mode = if (d : Int) = f.mode then -1 else f.mode) ∧
      (w = [] → f' = f) := by
  have h0 := h
  obtain ⟨binv, bsize, bcont, le, range, hist, mr⟩ := h
  have hw := wspace binv bsize
  unfold drop
  cases w with
  | nil =>
    rw [if_neg (by rw [hw.2, bcont]; simp)]
    exact ⟨f, rfl, h0, by simp, fun _ => rfl⟩
  | cons d t =>
    rw [if_pos (by rw [hw.2, bcont]; simp)]
    obtain ⟨b1, r1, r2, r3, r4⟩ := MovingMedian.strb_readOne binv bcont
    obtain ⟨h', b1', b2'⟩ := bump_dec hist (range d (by simp))
    simp only [r1, Option.bind_eq_bind, Option.bind_some, b1']
    refine ⟨_, rfl, ⟨r2, by simp only; omega, r4, ?_, ?_, b2', ?_⟩, ?_, by simp⟩
    · simp at le ⊢; omega
    · intro x hx; exact range x (by simp at hx; simp [hx])
    · simp only; split <;> omega
    · intro d' t' he
      simp only [List.cons.injEq] at he
      simp only [he.1]

/-- The mode loop finds the smallest bin of greatest height. -/
theorem modeLoop_spec : ∀ (hs pre : List Int) (max : Int) (mode : Nat),
    pre ≠ [] → pre[mode]? = some max → (∀ k x, pre[k]? = some x → x ≤ max ∧ (x = max → mode ≤ k)) →
    ∃ m top, modeLoop hs pre.length max mode = m ∧ (pre ++ hs)[m]? = some top ∧
      ∀ k x, (pre ++ hs)[k]? = some x → x ≤ top ∧ (x = top → m ≤ k) := by
  intro hs
  induction hs with
  | nil =>
    intro pre max mode hne hm hall
    exact ⟨mode, max, rfl, by simpa using hm, by simpa using hall⟩
  | cons h hs ih =>
    intro pre max mode hne hm hall
    have hlen : pre.length ≠ 0 := by simpa using hne
    have hml : mode < pre.length := by
      rcases Nat.lt_or_ge mode pre.length with h | h
      · exact h
      · rw [List.getElem?_eq_none h] at hm; simp at hm
    unfold modeLoop
    have hap : pre ++ h :: hs = (pre ++ [h]) ++ hs := by simp
    have hl1 : pre.length + 1 = (pre ++ [h]).length := by simp
    have hidx : ∀ k x, (pre ++ [h])[k]? = some x → pre[k]? = some x ∨ (k = pre.length ∧ x = h) := by
      intro k x hk
      rw [List.getElem?_append] at hk
      split at hk
      · exact Or.inl hk
      · right
        rcases Nat.eq_zero_or_pos (k - pre.length) with hz | hz
        · rw [hz] at hk; simp at hk; exact ⟨by omega, hk.symm⟩
        · rw [List.getElem?_eq_none (by simp; omega)] at hk; simp at hk
    split
    · rename_i hc
      have hgt : h > max := by omega
      rw [hap, hl1]
      apply ih
      · simp
      · simp
      · intro k x hk
        rcases hidx k x hk with h' | ⟨h1, h2⟩
        · have := (hall k x h').1
          exact ⟨by omega, fun he => by omega⟩
        · exact ⟨by omega, fun _ => by omega⟩
    · rename_i hc
      rw [hap, hl1]
      apply ih
      · simp
      · rw [List.getElem?_append_left hml]; exact hm
      · intro k x hk
        rcases hidx k x hk with h' | ⟨h1, h2⟩
        · exact hall k x h'
        · exact ⟨by omega, fun _ => by omega⟩

theorem modeLoop_isMode {N : Nat} {h : List Int} {w : List Nat} (hh : HistOf N h w)
    (hr : ∀ x ∈ w, x < N) (hne : w ≠ []) : IsMode w (modeLoop h 0 0 0) := by
  obtain ⟨h1, h2⟩ := hh
  cases w with
  | nil => exact absurd rfl hne
  | cons d t =>
    have hd := hr d (by simp)
    cases h with
    | nil => simp at h1; omega
    | cons x hs =>
      obtain ⟨m, top, a1, a2, a3⟩ := modeLoop_spec hs [x] x 0 (by simp) (by simp) (by
        intro k y hk
        cases k with
        | zero => simp at hk; exact ⟨by omega, fun _ => by omega⟩
        | succ k => simp at hk)
      have hm : modeLoop (x :: hs) 0 0 0 = m := by
        unfold modeLoop; simpa using a1
      rw [hm]
      simp only [List.singleton_append] at a2 a3
      have hmN : m < N := by
        rcases Nat.lt_or_ge m (x :: hs).length with h | h
        · omega
        · rw [List.getElem?_eq_none h] at a2; simp at a2
      have htop : top = (((d :: t).count m : Nat) : Int) := by
        have := h2 m hmN
        rw [a2] at this
        exact Option.some.inj this
      have hcount : ∀ u, (d :: t).count u ≤ (d :: t).count m ∧
          ((d :: t).count u = (d :: t).count m → m ≤ u) := by
        intro u
        by_cases hu : u < N
        · have := a3 u _ (h2 u hu)
          exact ⟨by omega, fun he => this.2 (by omega)⟩
        · have : (d :: t).count u = 0 := List.count_eq_zero.mpr (fun hm => hu (hr u hm))
          exact ⟨by omega, fun _ => by omega⟩
      refine ⟨?_, hcount⟩
      have h1 := (hcount d).1
      have h2 : 0 < (d :: t).count d := List.count_pos_iff.mpr (by simp)
      exact List.count_pos_iff.mp (by omega)

theorem getMode_inv {N L : Nat} {f : HF} {w : List Nat} (h : HInv N L f w) (hN : 1 ≤ N) :
    HInv N L (getMode f).1 w ∧ (getMode f).1.mode = ((getMode f).2 : Int) := by
  obtain ⟨binv, bsize, bcont, le, range, hist, mr⟩ := h
  unfold getMode
  split
  · exact ⟨⟨binv, bsize, bcont, le, range, hist, mr⟩, by simp only; omega⟩
  · refine ⟨⟨binv, bsize, bcont, le, range, hist, ?_⟩, rfl⟩
    simp only
    refine ⟨?_, by omega⟩
    cases hh : f.histogram with
    | nil => have := hist.1; rw [hh] at this; simp at this; omega
    | cons x hs =>
      obtain ⟨m, top, a1, a2, a3⟩ := modeLoop_spec hs [x] x 0 (by simp) (by simp) (by
        intro k y hk
        cases k with
        | zero => simp at hk; exact ⟨by omega, fun _ => by omega⟩
        | succ k => simp at hk)
      have hm : modeLoop (x :: hs) 0 0 0 = m := by
        unfold modeLoop; simpa using a1
      rw [hm]
      have : m < (x :: hs).length := by
        rcases Nat.lt_or_ge m (x :: hs).length with h | h
        · exact h
        · simp only [List.singleton_append] at a2
          rw [List.getElem?_eq_none h] at a2; simp at a2
      have h1 := hist.1
      rw [hh] at h1
      omega

/-- What is cached is right, or the window is empty, or nothing is cached. -/
def CacheOk (f : HF) (w : List Nat) : Prop :=
  w = [] ∨ f.mode = -1 ∨ ∃ m : Nat, f.mode = (m : Int) ∧ IsMode w m

theorem isMode_unique {w : List Nat} {a b : Nat} (ha : IsMode w a) (hb : IsMode w b) : a = b := by
  have h1 := ha.2 b
  have h2 := hb.2 a
  have : w.count a = w.count b := by omega
  have := h1.2 (by omega)
  have := h2.2 (by omega)
  omega

theorem isMode_singleton (v : Nat) : IsMode ([] ++ [v]) v := by
  refine ⟨by simp, ?_⟩
  intro u
  by_cases huv : u = v
  · subst huv; simp
  · have : ([] ++ [v]).count u = 0 := by simpa [List.count_eq_zero] using huv
    have hv : ([] ++ [v]).count v = 1 := by simp
    exact ⟨by omega, fun _ => by omega⟩

theorem step_inv {N L : Nat} (hL : 1 ≤ L) (hN : 1 ≤ N) {f : HF} {w : List Nat} (h : HInv N L f w)
    (op : Op) (hop : ∀ v, op = .push v → v < N) :
    ∃ f', step f op = some f' ∧ HInv N L f' (windowStep L w op) ∧
      (CacheOk f w →
        (∀ v x t, op = .push v → w.length = L → w = x :: t → ¬ IsMode w x) →
        CacheOk f' (windowStep L w op)) := by
  cases op with
  | push v =>
    obtain ⟨f', p1, p2, h', p3, p4⟩ := push_inv hL h (hop v rfl)
    refine ⟨f', p1, p2, ?_⟩
    intro hc hdis
    have hmr := h.mrange
    -- the window before the new value is added
    have hw1 : ∀ x t, w.length = L → w = x :: t → ¬ IsMode w x := fun x t => hdis v x t rfl
    simp only [windowStep] at *
    generalize hw : (if w.length = L then w.tail else w) = w1 at *
    unfold updateMode at p4
    by_cases hm0 : f.mode ≥ 0
    · rw [if_pos hm0, p3.2 f.mode.toNat (by omega)] at p4
      simp only [Option.bind_eq_bind, Option.bind_some] at p4
      right; right
      -- the cached mode is the mode of w1, if w1 is not empty
      have hmode1 : w1 = [] ∨ IsMode w1 f.mode.toNat := by
        rcases hc with hc | hc | ⟨m, hm1, hm2⟩
        · left
          subst hc
          have := hL
          rw [← hw]
          split <;> rfl
        · omega
        · have hmt : f.mode.toNat = m := by omega
          rw [hmt]
          by_cases hf : w.length = L
          · rw [if_pos hf] at hw
            cases hwc : w with
            | nil => left; rw [← hw, hwc]; rfl
            | cons x t =>
              right
              have hx : x ≠ m := fun he => hw1 x t hf hwc (he ▸ hm2)
              rw [← hw, hwc]
              rw [hwc] at hm2
              simp only [List.tail_cons]
              have hcm : (x :: t).count m = t.count m := List.count_cons_of_ne hx
              refine ⟨?_, ?_⟩
              · rcases List.mem_cons.mp hm2.1 with h | h
                · exact absurd h.symm hx
                · exact h
              · intro u
                have hu := hm2.2 u
                rw [hcm] at hu
                by_cases hux : u = x
                · subst hux
                  rw [List.count_cons_self] at hu
                  exact ⟨by omega, fun he => by omega⟩
                · rwa [List.count_cons_of_ne (fun h => hux h.symm)] at hu
          · right; rw [if_neg hf] at hw; rw [← hw]; exact hm2
      generalize hmm : f.mode.toNat = m at *
      have hfm : f.mode = (m : Int) := by omega
      have cnt : ∀ u, (w1 ++ [v]).count u = w1.count u + if u = v then 1 else 0 := by
        intro u
        rw [List.count_append]
        congr 1
        by_cases huv : u = v
        · simp [huv]
        · simp [huv, List.count_cons_of_ne (fun h : v = u => huv h.symm)]
      have cv := cnt v
      have cm := cnt m
      simp only [if_true] at cv
      rcases hmode1 with hemp | hmd
      · -- empty window: the new value is the mode
        subst hemp
        have hcm0 : ([] : List Nat).count m = 0 := rfl
        have hcv0 : ([] : List Nat).count v = 0 := rfl
        rw [hcm0] at cm
        rw [hcv0] at cv
        refine ⟨v, ?_, isMode_singleton v⟩
        by_cases hmv : m = v
        · subst hmv
          rw [if_pos (by omega)] at p4
          split at p4 <;> simp at p4 <;> omega
        · rw [if_neg hmv] at cm
          rw [if_pos (by omega), if_pos (by left; omega)] at p4
          simp at p4; omega
      · have hmall := hmd.2
        by_cases hge : (((w1 ++ [v]).count v : Nat) : Int) ≥ (((w1 ++ [v]).count m : Nat) : Int)
        · rw [if_pos hge] at p4
          by_cases hgt : (((w1 ++ [v]).count v : Nat) : Int) > (((w1 ++ [v]).count m : Nat) : Int) ∨
              (v : Int) < f.mode
          · rw [if_pos hgt] at p4
            simp at p4
            refine ⟨v, by omega, by simp, ?_⟩
            intro u
            have cu := cnt u
            have hu := hmall u
            have hv' := hmall v
            by_cases huv : u = v
            · subst huv; exact ⟨by omega, fun _ => by omega⟩
            · rw [if_neg huv] at cu
              by_cases hmv : m = v
              · subst hmv
                exact ⟨by omega, fun he => hu.2 (by omega)⟩
              · rw [if_neg hmv] at cm
                exact ⟨by omega, fun he => by
                  have : m ≤ u := hu.2 (by omega)
                  omega⟩
          · rw [if_neg hgt] at p4
            simp at p4
            refine ⟨m, by omega, by simp [hmd.1], ?_⟩
            intro u
            have cu := cnt u
            have hu := hmall u
            by_cases huv : u = v
            · subst huv
              exact ⟨by omega, fun he => by omega⟩
            · rw [if_neg huv] at cu
              exact ⟨by omega, fun he => hu.2 (by split at cm <;> omega)⟩
        · rw [if_neg hge] at p4
          simp at p4
          refine ⟨m, by omega, by simp [hmd.1], ?_⟩
          intro u
          have cu := cnt u
          have hu := hmall u
          by_cases huv : u = v
          · subst huv
            exact ⟨by omega, fun he => by omega⟩
          · rw [if_neg huv] at cu
            exact ⟨by omega, fun he => hu.2 (by split at cm <;> omega)⟩
    · rw [if_neg hm0] at p4
      right; left
      have : f.mode = f'.mode := Option.some.inj p4
      omega
  | drop =>
    obtain ⟨f', p1, p2, p3, p4⟩ := drop_inv h
    refine ⟨f', p1, p2, ?_⟩
    intro hc _
    simp only [windowStep]
    cases hw : w with
    | nil => left; rfl
    | cons d t =>
      have hm := p3 d t hw
      simp only [List.tail_cons]
      rcases hc with hc | hc | ⟨m, hm1, hm2⟩
      · rw [hc] at hw; simp at hw
      · right; left
        rw [hm]; split <;> omega
      · by_cases hd : (d : Int) = f.mode
        · right; left; rw [hm, if_pos hd]
        · right; right
          rw [if_neg hd] at hm
          refine ⟨m, by omega, ?_⟩
          have hx : d ≠ m := by omega
          rw [hw] at hm2
          have hcm : (d :: t).count m = t.count m := List.count_cons_of_ne hx
          refine ⟨?_, ?_⟩
          · rcases List.mem_cons.mp hm2.1 with h | h
            · exact absurd h.symm hx
            · exact h
          · intro u
            have hu := hm2.2 u
            rw [hcm] at hu
            by_cases hux : u = d
            · subst hux
              rw [List.count_cons_self] at hu
              exact ⟨by omega, fun he => by omega⟩
            · rwa [List.count_cons_of_ne (fun h => hux h.symm)] at hu
  | reset => exact ⟨_, rfl, reset_inv h, fun _ _ => Or.inl rfl⟩
  | getMode =>
    refine ⟨_, rfl, (getMode_inv h hN).1, ?_⟩
    intro hc _
    simp only [windowStep]
    by_cases hw : w = []
    · exact Or.inl hw
    · right; right
      refine ⟨(getMode f).2, (getMode_inv h hN).2, ?_⟩
      unfold getMode
      split
      · rename_i hm
        rcases hc with hc | hc | ⟨m, hm1, hm2⟩
        · exact absurd hc hw
        · omega
        · rw [show f.mode.toNat = m by omega]; exact hm2
      · exact modeLoop_isMode h.hist h.range hw

theorem run_inv {N L : Nat} (hL : 1 ≤ L) (hN : 1 ≤ N) (ops : List Op) {f : HF} {w : List Nat}
    (h : HInv N L f w) (hr : InRange N ops) :
    ∃ f', run f ops = some f' ∧ HInv N L f' (window L w ops) ∧
      (CacheOk f w → ModeNeverDisplaced L w ops → CacheOk f' (window L w ops)) := by
  induction ops generalizing f w with
  | nil => exact ⟨f, rfl, h, fun hc _ => hc⟩
  | cons op ops ih =>
    obtain ⟨f1, a1, a2, a3⟩ := step_inv hL hN h op (fun v hv => hr v (by simp [hv]))
    obtain ⟨f2, b1, b2, b3⟩ := ih a2 (fun v hv => hr v (by simp [hv]))
    refine ⟨f2, by simp only [run, a1, Option.bind_eq_bind, Option.bind_some, b1], b2, ?_⟩
    intro hc hm
    exact b3 (a3 hc hm.1) hm.2

/-! ### Median -/

theorem rank_of_counts {s : List Nat} (hs : s.Pairwise (· ≤ ·)) {k i : Nat}
    (h1 : s.countP (fun x => decide (x < i)) ≤ k) (h2 : k < s.countP (fun x => decide (x ≤ i))) :
    s[k]? = some i := by
  induction s generalizing k with
  | nil => simp at h2
  | cons y s ih =>
    rw [List.pairwise_cons] at hs
    rw [List.countP_cons] at h1 h2
    cases k with
    | zero =>
      simp only [List.getElem?_cons_zero]
      by_cases hy : y < i
      · simp [hy] at h1
      · by_cases hy2 : y ≤ i
        · congr 1; omega
        · -- then no element is ≤ i
          have : s.countP (fun x => decide (x ≤ i)) = 0 := by
            rw [List.countP_eq_zero]
            intro x hx
            have := hs.1 x hx
            simp; omega
          rw [this] at h2
          simp [hy2] at h2
    | succ k =>
      simp only [List.getElem?_cons_succ]
      by_cases hy : y < i
      · have hy2 : y ≤ i := by omega
        simp [hy, hy2] at h1 h2
        exact ih hs.2 (by omega) (by omega)
      · have hc0 : s.countP (fun x => decide (x < i)) = 0 := by
          rw [List.countP_eq_zero]
          intro x hx
          have := hs.1 x hx
          simp; omega
        apply ih hs.2 (by omega)
        split at h2 <;> omega

theorem medianLoop_spec (w : List Nat) (half : Nat) :
    ∀ (hs : List Int) (i : Nat) (acc : Int),
      (∀ k, k < hs.length → hs[k]? = some ((w.count (i + k) : Nat) : Int)) →
      acc = ((w.countP (fun x => decide (x < i)) : Nat) : Int) → acc < half →
      (half : Int) ≤ ((w.countP (fun x => decide (x < i + hs.length)) : Nat) : Int) →
      (w.countP (fun x => decide (x < medianLoop half hs i acc)) < half ∧
       half ≤ w.countP (fun x => decide (x ≤ medianLoop half hs i acc))) := by
  have hsucc : ∀ i, w.countP (fun x => decide (x < i + 1))
      = w.countP (fun x => decide (x < i)) + w.count i := by
    intro i
    induction w with
    | nil => rfl
    | cons y w ih =>
      rw [List.countP_cons, List.countP_cons, List.count_cons, ih]
      have : (if decide (y < i + 1) = true then 1 else 0)
          = (if decide (y < i) = true then 1 else 0) + (if (y == i) = true then 1 else 0) := by
        simp only [decide_eq_true_eq, beq_iff_eq]
        split <;> split <;> split <;> omega
      omega
  intro hs
  induction hs with
  | nil =>
    intro i acc _ ha hlt hge
    simp at hge
    omega
  | cons h hs ih =>
    intro i acc hh ha hlt hge
    have h0 := hh 0 (by simp)
    simp at h0
    have hs1 := hsucc i
    unfold medianLoop
    split
    · refine ⟨by omega, ?_⟩
      have : (fun x => decide (x ≤ i)) = (fun x => decide (x < i + 1)) := by
        funext x; simp [Nat.lt_succ_iff]
      rw [this]; omega
    · apply ih (i + 1) (acc + h)
      · intro k hk
        have := hh (k + 1) (by simpa using hk)
        simp only [List.getElem?_cons_succ] at this
        rw [this]
        congr 3
        omega
      · omega
      · omega
      · rw [show i + 1 + hs.length = i + (h :: hs).length by simp; omega]
        exact hge

theorem getMedian_spec {N L : Nat} {f : HF} {w : List Nat} (h : HInv N L f w) (hne : w ≠ []) :
    IsRank w ((w.length + 1) / 2 - 1) (getMedian f) := by
  obtain ⟨binv, bsize, bcont, le, range, hist, mr⟩ := h
  have hpos : 0 < w.length := List.length_pos_iff.mpr hne
  have hw := (wspace binv bsize).2
  unfold getMedian
  rw [hw, bcont]
  simp only
  have hall : w.countP (fun x => decide (x < N)) = w.length := by
    rw [List.countP_eq_length]
    intro x hx
    simpa using range x hx
  obtain ⟨m1, m2⟩ := medianLoop_spec w ((w.length + 1) / 2) f.histogram 0 0
    (by
      intro k hk
      have := hist.2 k (by rw [← hist.1]; exact hk)
      simpa using this)
    (by simp) (by omega) (by
      have : (0 + f.histogram.length) = N := by rw [hist.1]; omega
      rw [this, hall]; omega)
  generalize medianLoop (((w.length + 1) / 2 : Nat) : Int) f.histogram 0 0 = m at *
  have hperm : (w.mergeSort (fun a b => decide (a ≤ b))).Perm w := List.mergeSort_perm _ _
  have hsorted : (w.mergeSort (fun a b => decide (a ≤ b))).Pairwise (· ≤ ·) := by
    have := List.pairwise_mergeSort (le := fun a b : Nat => decide (a ≤ b))
      (by intro a b c h1 h2; simp at *; omega) (by intro a b; simp; omega) w
    simpa using this
  refine ⟨_, hperm, hsorted, ?_⟩
  apply rank_of_counts hsorted
  · rw [hperm.countP_eq]; omega
  · rw [hperm.countP_eq]; omega

/-! ### Filtering arrays -/

open Verif.MovingMedian (heldAfter)

theorem getMode_isMode {N L : Nat} {f : HF} {w : List Nat} (h : HInv N L f w) (hc : CacheOk f w)
    (hne : w ≠ []) : IsMode w (getMode f).2 := by
  unfold getMode
  split
  · rcases hc with hc | hc | ⟨m, hm1, hm2⟩
    · exact absurd hc hne
    · omega
    · rw [show f.mode.toNat = m by omega]; exact hm2
  · exact modeLoop_isMode h.hist h.range hne

/-- No element that is the mode of a full window is pushed out of it. -/
def ArrayOk (L : Nat) (v : List Nat) : Prop :=
  ∀ j, L ≤ j → j < v.length → ∀ x t, heldAfter L v j = x :: t → ¬ IsMode (heldAfter L v j) x

theorem feed_spec {N L : Nat} (hL : 1 ≤ L) (hN : 1 ≤ N) {f : HF} {v0 v : List Nat} {j : Nat}
    (h : HInv N L f (heldAfter L v0 j)) (hv : j < v0.length → v[j]? = v0[j]?)
    (hr : ∀ x ∈ v0, x < N) :
    ∃ f', feed L v0.length j f v = some f' ∧ HInv N L f' (heldAfter L v0 (j + 1)) ∧
      (CacheOk f (heldAfter L v0 j) → ArrayOk L v0 → CacheOk f' (heldAfter L v0 (j + 1))) := by
  unfold feed
  by_cases hj : j < v0.length
  · rw [if_pos hj, hv hj, List.getElem?_eq_getElem hj]
    simp only [Option.bind_eq_bind, Option.bind_some]
    obtain ⟨f', h1, h2, h3⟩ := step_inv hL hN h (.push v0[j])
      (by intro u hu; cases hu; exact hr _ (List.getElem_mem hj))
    have e : windowStep L (heldAfter L v0 j) (.push v0[j]) = heldAfter L v0 (j + 1) := by
      simp only [windowStep, heldAfter]
      rw [List.take_succ_eq_append_getElem hj]
      by_cases hjl : L ≤ j
      · have hc : (List.drop (j - L) (List.take j v0)).length = L := by simp; omega
        simp only [hc, ↓reduceIte]
        rw [List.tail_drop,
          List.drop_append_of_le_length (by simp; omega), show j - L + 1 = j + 1 - L by omega]
      · have hc : ¬ (List.drop (j - L) (List.take j v0)).length = L := by simp; omega
        simp only [hc, ↓reduceIte]
        rw [show j - L = 0 by omega, show j + 1 - L = 0 by omega]
        simp
    rw [e] at h2 h3
    refine ⟨f', h1, h2, fun hc ha => h3 hc ?_⟩
    intro u x t _ hfull hxt
    refine ha j ?_ hj x t hxt
    simp [heldAfter] at hfull
    omega
  · rw [if_neg hj]
    by_cases hjl : j ≥ L
    · rw [if_pos hjl]
      obtain ⟨f', h1, h2, h3⟩ := step_inv hL hN h .drop (by simp)
      have e : windowStep L (heldAfter L v0 j) .drop = heldAfter L v0 (j + 1) := by
        simp only [windowStep, heldAfter, List.tail_drop]
        rw [List.take_of_length_le (by omega), List.take_of_length_le (by omega),
          show j - L + 1 = j + 1 - L by omega]
      rw [e] at h2 h3
      exact ⟨f', h1, h2, fun hc _ => h3 hc (by simp)⟩
    · rw [if_neg hjl]
      have e : heldAfter L v0 j = heldAfter L v0 (j + 1) := by
        simp only [heldAfter]
        rw [List.take_of_length_le (by omega), List.take_of_length_le (by omega),
          show j - L = 0 by omega, show j + 1 - L = 0 by omega]
      rw [← e]
      exact ⟨f, rfl, h, fun hc _ => hc⟩

/-- What is to be true of an output value. -/
def OutOk (modal : Bool) (N L : Nat) (v0 : List Nat) (k x : Nat) : Prop :=
  x < N ∧
  (modal = false → IsRank (heldAfter L v0 (k + L / 2 + 1))
    (((heldAfter L v0 (k + L / 2 + 1)).length + 1) / 2 - 1) x) ∧
  (modal = true → ArrayOk L v0 → IsMode (heldAfter L v0 (k + L / 2 + 1)) x)

theorem isRank_mem {w : List Nat} {k x : Nat} (h : IsRank w k x) : x ∈ w := by
  obtain ⟨s, h1, _, h3⟩ := h
  exact h1.mem_iff.mp (List.mem_of_getElem? h3)

theorem emit_spec {N L : Nat} (hN : 1 ≤ N) (modal : Bool) {f : HF} {v0 v : List Nat} {j : Nat}
    {i : Int} (hij : i = (j : Int) - ((L / 2 : Nat) : Int)) (hlt : i < v.length)
    (h : HInv N L f (heldAfter L v0 (j + 1)))
    (hc : ArrayOk L v0 → CacheOk f (heldAfter L v0 (j + 1)))
    (hne : i ≥ 0 → heldAfter L v0 (j + 1) ≠ []) :
    ∃ f' v', emit modal i f v = some (f', v') ∧ HInv N L f' (heldAfter L v0 (j + 1)) ∧
      (ArrayOk L v0 → CacheOk f' (heldAfter L v0 (j + 1))) ∧ v'.length = v.length ∧
      (∀ k : Nat, (k : Int) ≠ i → v'[k]? = v[k]?) ∧
      (i ≥ 0 → ∃ x, v'[i.toNat]? = some x ∧ OutOk modal N L v0 i.toNat x) := by
  unfold emit
  by_cases hi : i ≥ 0
  · rw [if_pos hi]
    have hset : ∀ m, MovingMedian.setAt v i.toNat m = some (v.set i.toNat m) := by
      intro m; unfold MovingMedian.setAt; rw [if_pos (by omega)]
    have hk : i.toNat + L / 2 + 1 = j + 1 := by omega
    cases modal with
    | true =>
      simp only [if_true, hset, Option.bind_eq_bind, Option.bind_some]
      have gi := getMode_inv h hN
      refine ⟨_, _, rfl, gi.1, ?_, by simp, ?_, ?_⟩
      · intro ha
        right; right
        exact ⟨_, gi.2, getMode_isMode h (hc ha) (hne hi)⟩
      · intro k hk
        rw [List.getElem?_set_ne (by omega)]
      · intro _
        refine ⟨_, List.getElem?_set_self (by omega), ?_, by simp, ?_⟩
        · have := gi.1.mrange
          rw [gi.2] at this
          omega
        · intro _ ha
          rw [hk]
          exact getMode_isMode h (hc ha) (hne hi)
    | false =>
      simp only [Bool.false_eq_true, if_false, hset, Option.bind_eq_bind, Option.bind_some]
      have hm := getMedian_spec h (hne hi)
      refine ⟨_, _, rfl, h, hc, by simp, ?_, ?_⟩
      · intro k hk
        rw [List.getElem?_set_ne (by omega)]
      · intro _
        refine ⟨_, List.getElem?_set_self (by omega), ?_, ?_, by simp⟩
        · exact h.range _ (isRank_mem hm)
        · intro _
          rw [hk]
          exact hm
  · rw [if_neg hi]
    exact ⟨f, v, rfl, h, hc, rfl, fun _ _ => rfl, fun h => absurd h hi⟩

theorem filterLoop_spec {N L : Nat} (hL : 1 ≤ L) (hN : 1 ≤ N) (modal : Bool) (v0 : List Nat)
    (hr : ∀ x ∈ v0, x < N) : ∀ (fuel : Nat) (i : Int) (j : Nat) (f : HF) (v : List Nat),
      i = (j : Int) - ((L / 2 : Nat) : Int) → i ≤ v0.length → (v0.length : Int) - i ≤ fuel →
      HInv N L f (heldAfter L v0 j) → (ArrayOk L v0 → CacheOk f (heldAfter L v0 j)) →
      v.length = v0.length →
      (∀ k : Nat, i ≤ k → v[k]? = v0[k]?) →
      (∀ k : Nat, (k : Int) < i → ∃ x, v[k]? = some x ∧ OutOk modal N L v0 k x) →
      ∃ f' v', filterLoop modal L v0.length fuel i j f v = some (f', v') ∧
        v'.length = v0.length ∧
        (∀ k : Nat, k < v0.length → ∃ x, v'[k]? = some x ∧ OutOk modal N L v0 k x) ∧ ∃ w, HInv N L f' w := by
  intro fuel
  induction fuel with
  | zero =>
    intro i j f v hi hin hf hinv hc hlen hrest hdone
    have : i = v0.length := by omega
    unfold filterLoop
    rw [if_neg (by simp [this])]
    exact ⟨f, v, rfl, hlen, fun k hk => hdone k (by omega), _, hinv⟩
  | succ fuel ih =>
    intro i j f v hi hin hf hinv hc hlen hrest hdone
    unfold filterLoop
    by_cases hend : i = v0.length
    · rw [if_neg (by simp [hend])]
      exact ⟨f, v, rfl, hlen, fun k hk => hdone k (by omega), _, hinv⟩
    · rw [if_pos hend]
      obtain ⟨f1, a1, a2, a3⟩ := feed_spec hL hN hinv (v := v) (fun _ => hrest j (by omega)) hr
      simp only [a1, Option.bind_eq_bind, Option.bind_some]
      obtain ⟨f2, v2, e1, e2, e3, e4, e5, e6⟩ := emit_spec (N := N) hN modal (v := v) hi (by omega) a2
        (fun ha => a3 (hc ha) ha) (by
          intro h0 he
          have := congrArg List.length he
          simp [heldAfter] at this
          omega)
      simp only [e1, Option.bind_some]
      apply ih (i + 1) (j + 1) f2 v2 (by omega) (by omega) (by omega) e2 e3 (by omega)
      · intro k hk
        rw [e5 k (by omega)]
        exact hrest k (by omega)
      · intro k hk
        by_cases hki : (k : Int) = i
        · have := e6 (by omega)
          rwa [show i.toNat = k by omega] at this
        · rw [e5 k hki]
          exact hdone k (by omega)

theorem filter_spec {N L : Nat} (hL : 1 ≤ L) (hN : 1 ≤ N) (modal : Bool) {f : HF} {w : List Nat}
    (h : HInv N L f w) (v : List Nat) (hr : ∀ x ∈ v, x < N) :
    ∃ f' v', filter modal f v = some (f', v') ∧ v'.length = v.length ∧
      (∀ k : Nat, k < v.length → ∃ x, v'[k]? = some x ∧ OutOk modal N L v k x) ∧ ∃ w, HInv N L f' w := by
  have hri := reset_inv h
  have hsz : getFilterLength (reset f) = L := by simp [getFilterLength, STRB.getSize, hri.bsize]
  have := filterLoop_spec hL hN modal v hr (v.length + L / 2) (-((L / 2 : Nat) : Int)) 0 (reset f) v
    (by simp) (by omega) (by omega) (by simpa [heldAfter] using hri)
    (fun _ => Or.inl (by simp [heldAfter])) rfl (fun _ _ => rfl) (fun k hk => by omega)
  unfold filter
  simp only [hsz]
  exact this

end Verif.HistogramFilter
