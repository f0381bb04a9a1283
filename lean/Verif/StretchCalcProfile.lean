import Verif.StretchCalcRT
import Verif.StretchCalcPeaks
/-!
# The offline stretch profile: what `calculate` returns
-/
namespace Verif.StretchCalc
open Verif.Round

theorem floor_unique {x : Rat} {n : Int} (h1 : (n : Rat) ≤ x) (h2 : x < n + 1) : x.floor = n := by
  obtain ⟨a, b⟩ := floor_bounds x
  have c : x.floor < n + 1 := by
    have : (x.floor : Rat) < n + 1 := by linarith
    exact_mod_cast this
  have d : n < x.floor + 1 := by
    have : (n : Rat) < x.floor + 1 := by linarith
    exact_mod_cast this
  omega

theorem roundAway_eq {x : Rat} (h : -(1 / 2) < x) : roundAway x = (x + 1 / 2).floor ∧ 0 ≤ roundAway x := by
  rcases lt_or_ge x 0 with c | c
  · have e1 : (x + 1 / 2).floor = 0 := floor_unique (by push_cast; linarith) (by push_cast; linarith)
    have e2 : (-x + 1 / 2).floor = 0 := floor_unique (by push_cast; linarith) (by push_cast; linarith)
    unfold roundAway
    rw [if_neg (by linarith), e1, e2]
    simp
  · refine ⟨?_, roundAway_nonneg c⟩
    unfold roundAway
    rw [if_pos c]

theorem produced_append (a b : List Int) : produced (a ++ b) = produced a + produced b := by simp [produced]

theorem produced_nonneg : ∀ a : List Int, 0 ≤ produced a := by
  intro a
  induction a with
  | nil => simp [produced]
  | cons x a ih =>
    have := abs_nonneg x
    simp only [produced, List.map_cons, List.sum_cons] at ih ⊢
    omega

theorem produced_of_nonneg : ∀ a : List Int, (∀ x ∈ a, 0 ≤ x) → produced a = a.sum := by
  intro a
  induction a with
  | nil => intro _; simp [produced]
  | cons x a ih =>
    intro h
    have := ih (fun y hy => h y (by simp [hy]))
    simp only [produced, List.map_cons, List.sum_cons] at this ⊢
    rw [this, abs_of_nonneg (h x (by simp))]

theorem evenLoop_spec {per : Rat} (hper : 0 ≤ per) : ∀ (rounds : Nat) (acc : Rat) (total : Nat), (total : Int) = (acc + 1 / 2).floor →
    (0 < per ∨ acc = total) → ∃ l total', evenLoop per rounds acc total = some (l, total') ∧
      (total' : Int) = (acc + rounds * per + 1 / 2).floor ∧ l.length = rounds ∧ (∀ x ∈ l, 0 ≤ x) ∧ l.sum = (total' : Int) - total := by
  intro rounds
  induction rounds with
  | zero =>
    intro acc total h1 _
    exact ⟨[], total, rfl, by simpa using h1, rfl, by simp, by simp⟩
  | succ rounds ih =>
    intro acc total h1 h2
    obtain ⟨b1, b2⟩ := floor_bounds (acc + 1 / 2)
    rw [← h1] at b1 b2
    push_cast at b1 b2
    have hy : -(1 / 2) < acc + per - total := by
      rcases h2 with h2 | h2
      · linarith
      · rw [h2]; linarith
    obtain ⟨r1, r2⟩ := roundAway_eq hy
    have hfl : (acc + per + 1 / 2).floor = total + roundAway (acc + per - total) := by
      obtain ⟨f1, f2⟩ := floor_bounds (acc + per - total + 1 / 2)
      rw [← r1] at f1 f2
      apply floor_unique
      · push_cast; linarith
      · push_cast; linarith
    have hnn : ((roundAway (acc + per - total)).toNat : Int) = roundAway (acc + per - total) := by omega
    obtain ⟨l, total', k1, k2, k3, k4, k5⟩ := ih (acc + per) (total + (roundAway (acc + per - total)).toNat)
      (by rw [hfl]; push_cast; rw [hnn])
      (by
        rcases h2 with h2 | h2
        · exact Or.inl h2
        · rcases lt_or_eq_of_le hper with c | c
          · exact Or.inl c
          · right
            rw [← c, h2, show (total : Rat) + 0 - total = ((0 : Int) : Rat) by push_cast; ring, roundAway_int]
            simp)
    refine ⟨roundAway (acc + per - total) :: l, total', ?_, ?_, by simp [k3], ?_, ?_⟩
    · unfold evenLoop
      simp only
      rw [if_neg (by omega), k1]
      rfl
    · rw [k2]; congr 1; push_cast; ring
    · intro x hx
      rcases List.mem_cons.mp hx with rfl | hx
      · exact r2
      · exact k4 x hx
    · rw [List.sum_cons, k5]
      push_cast
      rw [hnn]
      omega

theorem even_spec {dur m k : Nat} (hm : 0 < m) (hk : k ≤ dur) :
    ∃ r, even dur m (((dur - k : Nat) : Rat) / (m : Rat)) k k = some r ∧ r.sum = (dur : Int) - k ∧ (∀ x ∈ r, 0 ≤ x) ∧
      r.length ≤ m ∧ (m < 2 * (dur - k) → r.length = m) := by
  have hmQ : (0 : Rat) < m := by exact_mod_cast hm
  have hper : (0 : Rat) ≤ ((dur - k : Nat) : Rat) / (m : Rat) := by positivity
  generalize hp : ((dur - k : Nat) : Rat) / (m : Rat) = per at *
  have hmp : (m : Rat) * per = dur - k := by
    rw [← hp, Nat.cast_sub hk]; field_simp
  obtain ⟨l, t, h1, h2, h3, h4, h5⟩ := evenLoop_spec hper (m - 1) (k : Rat) k
    (by symm; apply floor_unique <;> push_cast <;> linarith) (Or.inr rfl)
  have hacc : (k : Rat) + ((m - 1 : Nat) : Rat) * per = dur - per := by
    rw [Nat.cast_sub (by omega)]; push_cast; linarith
  rw [hacc] at h2
  have ht : t ≤ dur := by
    have : (t : Int) < dur + 1 := by
      obtain ⟨f1, _⟩ := floor_bounds ((dur : Rat) - per + 1 / 2)
      rw [← h2] at f1
      have : ((t : Int) : Rat) < ((dur + 1 : Int) : Rat) := by push_cast at f1 ⊢; linarith
      exact_mod_cast this
    omega
  unfold even
  rw [if_pos hm, h1]
  refine ⟨_, rfl, ?_, ?_, ?_, ?_⟩
  · rw [List.sum_append, h5]
    unfold lastIncrement
    split_ifs with c
    · simp only [List.sum_cons, List.sum_nil]; omega
    · simp only [List.sum_nil]; omega
  · intro x hx
    rcases List.mem_append.mp hx with hx | hx
    · exact h4 x hx
    · unfold lastIncrement at hx
      split_ifs at hx
      · simp only [List.mem_singleton] at hx; omega
      · simp at hx
  · rw [List.length_append, h3]
    unfold lastIncrement
    split_ifs
    · simp; omega
    · simp
  · intro hd
    have hlt : t < dur := by
      have hper2 : 1 / 2 < per := by
        have : (m : Rat) < 2 * ((dur - k : Nat) : Rat) := by exact_mod_cast hd
        rw [← hp, lt_div_iff₀ hmQ]
        linarith
      have : (t : Int) < dur := by
        obtain ⟨f1, _⟩ := floor_bounds ((dur : Rat) - per + 1 / 2)
        rw [← h2] at f1
        have : ((t : Int) : Rat) < ((dur : Int) : Rat) := by push_cast at f1 ⊢; linarith
        exact_mod_cast this
      omega
    rw [List.length_append, h3]
    unfold lastIncrement
    rw [if_pos hlt]
    simp
    omega

/-- What keeps a region of `n` chunks and the given duration from losing its last increment. -/
def Dense (inc : Nat) (hard : Bool) (n dur : Nat) : Prop :=
  if hard then 0 < dur ∧ (n ≤ 1 ∨ n - 1 < 2 * (dur - inc)) else n < 2 * dur

theorem region_spec (inc dur : Nat) {n : Nat} (hn : 0 < n) (hard : Bool) :
    ∃ r, region inc dur n hard = some r ∧ produced r = dur ∧ r.length ≤ n ∧ (Dense inc hard n dur → r.length = n) ∧
      (hard = true → r[0]? = some (-(if n = 1 then dur else min inc dur : Nat) : Int)) ∧ (∀ x ∈ r.drop (if hard then 1 else 0), 0 ≤ x) := by
  unfold region
  rw [if_neg (by omega)]
  cases hard with
  | false =>
    obtain ⟨r, h1, h2, h3, h4, h5⟩ := even_spec (dur := dur) (m := n) (k := 0) hn (Nat.zero_le _)
    simp only [Bool.false_eq_true, if_false]
    simp only [Nat.sub_zero, Nat.cast_zero] at h1 h2 h5
    refine ⟨r, h1, ?_, h4, ?_, by simp, by simpa using h3⟩
    · rw [produced_of_nonneg r h3, h2]; omega
    · intro hd
      exact h5 (by simpa [Dense] using hd)
  | true =>
    simp only [if_true]
    rcases Nat.lt_or_ge 1 n with c | c
    · have e : resetIncrement inc dur n = min inc dur := by unfold resetIncrement; rw [if_pos c]
      rw [e]
      obtain ⟨r, h1, h2, h3, h4, h5⟩ := even_spec (dur := dur) (m := n - 1) (k := min inc dur) (by omega) (Nat.min_le_right _ _)
      rw [h1]
      refine ⟨_, rfl, ?_, ?_, ?_, ?_, ?_⟩
      · have : produced (-(min inc dur : Nat) :: r) = |(-(min inc dur : Nat) : Int)| + produced r := by simp [produced]
        rw [this, produced_of_nonneg r h3, h2, abs_neg, abs_of_nonneg (by omega)]
        omega
      · rw [List.length_cons]; omega
      · intro hd
        have := h5 (by
          unfold Dense at hd
          rw [if_pos rfl] at hd
          omega)
        rw [List.length_cons, this]; omega
      · intro _
        rw [if_neg (by omega)]
        rfl
      · simpa using h3
    · have hn1 : n = 1 := by omega
      subst hn1
      refine ⟨[-(dur : Int)], ?_, ?_, ?_, ?_, ?_, by simp⟩
      · simp [resetIncrement, even]
      · simp [produced]
      · simp
      · intro _; simp
      · intro _; simp

/-- A list of fixed points that makes sense after the point `(sc, st)`: chunks and targets go up, and no
region without chunks has a duration. -/
def Chain (d n : Nat) : Nat → Nat → List (Peak × Nat) → Prop
  | sc, st, [] => sc ≤ n ∧ (sc = n → d ≤ st)
  | sc, st, (p, t) :: rest => sc ≤ p.chunk ∧ p.chunk < n ∧ st ≤ t ∧ (sc = p.chunk → min st d = min t d) ∧ Chain d n p.chunk t rest

theorem Chain.le {d n : Nat} : ∀ {l : List (Peak × Nat)} {sc st : Nat}, Chain d n sc st l → sc ≤ n := by
  intro l sc st h
  cases l with
  | nil => exact h.1
  | cons a l => exact le_trans h.1 (le_of_lt h.2.1)

theorem clampedRegion_spec (inc : Nat) {d n sc st ec en : Nat} (hc : sc ≤ ec) (hn : ec ≤ n) (ht : st ≤ en)
    (hz : sc = ec → min st d = min en d) (hard : Bool) :
    ∃ r, clampedRegion inc d n sc st hard ec en = some r ∧ produced r = (min en d : Nat) - (min st d : Nat) ∧ r.length ≤ ec - sc ∧
      (sc < ec → Dense inc hard (ec - sc) (min en d - min st d) → r.length = ec - sc) ∧
      (sc < ec → hard = true → ∃ x, r[0]? = some x ∧ x ≤ 0) ∧ (hard = false → ∀ x ∈ r, 0 ≤ x) := by
  unfold clampedRegion
  simp only
  rw [show max (min ec n) (min sc n) = ec by omega, show min sc n = sc by omega, show max (min en d) (min st d) = min en d by omega]
  rcases Nat.eq_zero_or_pos (ec - sc) with c | c
  · rw [c]
    have := hz (by omega)
    refine ⟨[], rfl, ?_, by simp, by omega, by omega, by simp⟩
    rw [this]; simp [produced]
  · obtain ⟨r, h1, h2, h3, h4, h5, h6⟩ := region_spec inc (min en d - min st d) c hard
    refine ⟨r, h1, ?_, h3, fun _ => h4, ?_, ?_⟩
    · rw [h2]; omega
    · intro _ hh
      refine ⟨_, h5 hh, ?_⟩
      split_ifs <;> omega
    · intro hh
      subst hh
      simpa using h6

/-- The durations of the regions add up. -/
theorem regions_sum (inc : Nat) {d n : Nat} : ∀ (l : List (Peak × Nat)) (sc st : Nat) (hard : Bool), Chain d n sc st l →
    ∃ r, regions inc d n sc st hard l = some r ∧ produced r = (d : Int) - (min st d : Nat) ∧ r.length ≤ n - sc := by
  intro l
  induction l with
  | nil =>
    intro sc st hard h
    rcases Nat.lt_or_ge d st with hst | hst
    · -- the region ends where it starts
      rcases Nat.lt_or_ge sc n with hlt | hge
      · obtain ⟨r, h1, h2, h3, _⟩ := clampedRegion_spec inc (d := d) (n := n) (sc := sc) (st := st) (ec := n) (en := st) h.1 (le_refl _)
          (le_refl _) (fun _ => rfl) hard
        refine ⟨r, ?_, ?_, h3⟩
        · unfold regions
          rw [← h1]
          unfold clampedRegion
          simp only
          congr 2
          omega
        · rw [h2]; omega
      · have : sc = n := by have := h.1; omega
        subst this
        refine ⟨[], ?_, ?_, by simp⟩
        · unfold regions clampedRegion region; simp
        · simp [produced]; omega
    · obtain ⟨r, h1, h2, h3, _⟩ := clampedRegion_spec inc (d := d) (n := n) (sc := sc) (st := st) (ec := n) (en := d) h.1 (le_refl _)
        hst (fun e => by have := h.2 e; omega) hard
      exact ⟨r, h1, by rw [h2]; omega, h3⟩
  | cons a l ih =>
    intro sc st hard h
    obtain ⟨p, t⟩ := a
    obtain ⟨c1, c2, c3, c4, c5⟩ := h
    obtain ⟨r, h1, h2, h3, _⟩ := clampedRegion_spec inc (d := d) (n := n) c1 (le_of_lt c2) c3 c4 hard
    obtain ⟨r', k1, k2, k3⟩ := ih p.chunk t p.hard c5
    refine ⟨r ++ r', ?_, ?_, ?_⟩
    · unfold regions
      rw [h1, k1]
      rfl
    · rw [produced_append, h2, k2]; omega
    · rw [List.length_append]; omega

/-- Every region is dense. -/
def AllDense (inc d n : Nat) : Nat → Nat → Bool → List (Peak × Nat) → Prop
  | sc, st, hard, [] => sc < n ∧ Dense inc hard (n - sc) (d - min st d)
  | sc, st, hard, (p, t) :: rest => (sc < p.chunk → Dense inc hard (p.chunk - sc) (min t d - min st d)) ∧
      AllDense inc d n p.chunk t p.hard rest

/-- With dense regions there is an increment for each chunk and every fixed point is met. -/
theorem regions_points (inc : Nat) {d n : Nat} : ∀ (l : List (Peak × Nat)) (sc st : Nat) (hard : Bool), Chain d n sc st l →
    AllDense inc d n sc st hard l → (∀ a ∈ l, a.2 ≤ d) → st ≤ d →
    ∃ r, regions inc d n sc st hard l = some r ∧ r.length = n - sc ∧
      ∀ a ∈ l, produced (r.take (a.1.chunk - sc)) = (a.2 : Int) - st := by
  intro l
  induction l with
  | nil =>
    intro sc st hard h hd _ hst
    obtain ⟨r, h1, h2, h3, h4, _⟩ := clampedRegion_spec inc (d := d) (n := n) (sc := sc) (st := st) (ec := n) (en := d) h.1 (le_refl _)
      hst (fun e => by have := h.2 e; omega) hard
    have := h4 hd.1 (by simpa using hd.2)
    exact ⟨r, h1, this, by simp⟩
  | cons a l ih =>
    intro sc st hard h hd hle hst
    obtain ⟨p, t⟩ := a
    obtain ⟨c1, c2, c3, c4, c5⟩ := h
    obtain ⟨d1, d2⟩ := hd
    have htd : t ≤ d := hle (p, t) (by simp)
    obtain ⟨r, h1, h2, h3, h4, _⟩ := clampedRegion_spec inc (d := d) (n := n) c1 (le_of_lt c2) c3 c4 hard
    obtain ⟨r', k1, k2, k3⟩ := ih p.chunk t p.hard c5 d2 (fun b hb => hle b (by simp [hb])) htd
    have hlen : r.length = p.chunk - sc := by
      rcases Nat.lt_or_ge sc p.chunk with c | c
      · exact h4 c (d1 c)
      · omega
    rw [Nat.min_eq_left htd, Nat.min_eq_left hst] at h2
    refine ⟨r ++ r', ?_, ?_, ?_⟩
    · unfold regions
      rw [h1, k1]
      rfl
    · rw [List.length_append, hlen, k2]; omega
    · intro b hb
      have key : ∀ j, produced ((r ++ r').take (r.length + j)) = produced r + produced (r'.take j) := by
        intro j
        rw [List.take_append, List.take_of_length_le (by omega), produced_append]
        congr 2
        congr 1
        omega
      rcases List.mem_cons.mp hb with rfl | hb
      · have := key 0
        rw [Nat.add_zero, hlen] at this
        simp only
        rw [this, h2]
        simp [produced]
      · have hbl : p.chunk ≤ b.1.chunk := by
          have : ∀ (l : List (Peak × Nat)) (sc st : Nat), Chain d n sc st l → ∀ b ∈ l, sc ≤ b.1.chunk := by
            intro l
            induction l with
            | nil => intro _ _ _ b hb; simp at hb
            | cons a l ih =>
              intro sc st h b hb
              rcases List.mem_cons.mp hb with rfl | hb
              · exact h.1
              · exact le_trans h.1 (ih _ _ h.2.2.2.2 b hb)
          exact this l p.chunk t c5 b hb
        have e : b.1.chunk - sc = r.length + (b.1.chunk - p.chunk) := by omega
        rw [e, key, k3 b hb, h2]
        omega

/-- Without hard points there is no negative increment. -/
theorem regions_nonneg (inc : Nat) {d n : Nat} : ∀ (l : List (Peak × Nat)) (sc st : Nat), Chain d n sc st l → (∀ a ∈ l, a.1.hard = false) →
    ∀ r, regions inc d n sc st false l = some r → ∀ x ∈ r, 0 ≤ x := by
  have key : ∀ dur m r, region inc dur m false = some r → ∀ x ∈ r, 0 ≤ x := by
    intro dur m r h
    rcases Nat.eq_zero_or_pos m with c | c
    · subst c
      simp only [region, if_true, Option.some.injEq] at h
      subst h
      simp
    · obtain ⟨r', h1, _, _, _, _, h6⟩ := region_spec inc dur c false
      rw [h] at h1
      cases h1
      simpa using h6
  intro l
  induction l with
  | nil =>
    intro sc st _ _ r h
    exact key _ _ r h
  | cons a l ih =>
    intro sc st h hh r hr
    obtain ⟨p, t⟩ := a
    unfold regions at hr
    rw [hh (p, t) (by simp)] at hr
    obtain ⟨r1, h1, h2⟩ := Option.bind_eq_some_iff.mp hr
    obtain ⟨r2, h3, h4⟩ := Option.bind_eq_some_iff.mp h2
    cases h4
    intro x hx
    rcases List.mem_append.mp hx with hx | hx
    · exact key _ _ r1 h1 x hx
    · exact ih p.chunk t h.2.2.2.2 (fun b hb => hh b (by simp [hb])) r2 h3 x hx

theorem region_signs {inc dur n : Nat} (hi : 0 < inc) (hn : 0 < n) {hard : Bool} (hd : Dense inc hard n dur) {r : List Int}
    (hr : region inc dur n hard = some r) (i : Nat) : (∃ x, r[i]? = some x ∧ x < 0) ↔ (i = 0 ∧ hard = true) := by
  obtain ⟨r', h1, _, _, h4, h5, h6⟩ := region_spec inc dur hn hard
  rw [hr] at h1
  cases h1
  cases hard with
  | false =>
    simp only [Bool.false_eq_true, and_false, iff_false, not_exists, not_and]
    intro x hx
    have := h6 x (by simpa using List.mem_of_getElem? hx)
    omega
  | true =>
    unfold Dense at hd
    rw [if_pos rfl] at hd
    constructor
    · rintro ⟨x, hx, hneg⟩
      refine ⟨?_, rfl⟩
      by_contra hc
      have : x ∈ r.drop 1 := by
        obtain ⟨k, rfl⟩ : ∃ k, i = k + 1 := ⟨i - 1, by omega⟩
        apply List.mem_of_getElem? (i := k)
        rw [List.getElem?_drop, Nat.add_comm]
        exact hx
      have := h6 x (by simpa using this)
      omega
    · rintro ⟨rfl, _⟩
      refine ⟨_, h5 rfl, ?_⟩
      split_ifs <;> omega

/-- With dense regions the negative increments are at the hard points. -/
theorem regions_signs {inc : Nat} (hi : 0 < inc) {d n : Nat} : ∀ (l : List (Peak × Nat)) (sc st : Nat) (hard : Bool), Chain d n sc st l →
    AllDense inc d n sc st hard l → (l.map (·.1.chunk)).Pairwise (· < ·) → (∀ a ∈ l, a.2 ≤ d) → st ≤ d →
    ∀ r, regions inc d n sc st hard l = some r → ∀ i, (∃ x, r[i]? = some x ∧ x < 0) ↔
      ((∃ a ∈ l, a.1.hard = true ∧ a.1.chunk = sc + i) ∨ (i = 0 ∧ hard = true ∧ ∀ a ∈ l, sc < a.1.chunk)) := by
  intro l
  induction l with
  | nil =>
    intro sc st hard h hd _ _ hst r hr i
    unfold regions clampedRegion at hr
    simp only at hr
    have hlt := hd.1
    rw [show max (min n n) (min sc n) = n by omega, show min sc n = sc by omega, show max (min d d) (min st d) = d by omega] at hr
    rw [region_signs hi (by omega) hd.2 hr]
    simp
  | cons a l ih =>
    intro sc st hard h hd hp hle hst r hr i
    obtain ⟨p, t⟩ := a
    obtain ⟨c1, c2, c3, c4, c5⟩ := h
    obtain ⟨d1, d2⟩ := hd
    rw [List.map_cons, List.pairwise_cons] at hp
    have htd : t ≤ d := hle (p, t) (by simp)
    have hpl : ∀ b ∈ l, p.chunk < b.1.chunk := fun b hb => hp.1 _ (List.mem_map_of_mem (f := fun a : Peak × Nat => a.1.chunk) hb)
    unfold regions at hr
    obtain ⟨r1, h1, h2⟩ := Option.bind_eq_some_iff.mp hr
    obtain ⟨r2, h3, h4⟩ := Option.bind_eq_some_iff.mp h2
    cases h4
    have hrest := ih p.chunk t p.hard c5 d2 hp.2 (fun b hb => hle b (by simp [hb])) htd r2 h3
    obtain ⟨r', k1, _, _, k4, _⟩ := clampedRegion_spec inc (d := d) (n := n) c1 (le_of_lt c2) c3 c4 hard
    rw [h1] at k1
    cases k1
    have h1' := h1
    unfold clampedRegion at h1'
    simp only at h1'
    rw [show max (min p.chunk n) (min sc n) = p.chunk by omega, show min sc n = sc by omega,
      show max (min t d) (min st d) = min t d by omega] at h1'
    rcases Nat.lt_or_ge sc p.chunk with hlt | hge
    · have hlen : r1.length = p.chunk - sc := k4 hlt (d1 hlt)
      rcases Nat.lt_or_ge i r1.length with ci | ci
      · rw [List.getElem?_append_left ci, region_signs hi (by omega) (d1 hlt) h1']
        constructor
        · rintro ⟨rfl, hh⟩
          right
          refine ⟨rfl, hh, ?_⟩
          intro b hb
          rcases List.mem_cons.mp hb with rfl | hb
          · exact hlt
          · exact lt_trans hlt (hpl b hb)
        · rintro (⟨b, hb, hb1, hb2⟩ | ⟨h0, hh, _⟩)
          · exfalso
            rcases List.mem_cons.mp hb with rfl | hb
            · simp only at hb2; omega
            · have := hpl b hb; omega
          · exact ⟨h0, hh⟩
      · rw [List.getElem?_append_right ci, hrest]
        have e : p.chunk + (i - r1.length) = sc + i := by omega
        rw [e]
        constructor
        · rintro (⟨b, hb, hb1, hb2⟩ | ⟨h0, hh, _⟩)
          · exact Or.inl ⟨b, by simp [hb], hb1, hb2⟩
          · exact Or.inl ⟨(p, t), by simp, hh, by simp only; omega⟩
        · rintro (⟨b, hb, hb1, hb2⟩ | ⟨h0, hh, _⟩)
          · rcases List.mem_cons.mp hb with rfl | hb
            · right
              simp only at hb1 hb2
              exact ⟨by omega, hb1, hpl⟩
            · exact Or.inl ⟨b, hb, hb1, hb2⟩
          · omega
    · have hsc : sc = p.chunk := by omega
      have hr1 : r1 = [] := by
        rw [show p.chunk - sc = 0 by omega] at h1'
        simp only [region, if_true, Option.some.injEq] at h1'
        exact h1'.symm
      subst hr1
      rw [List.nil_append, hrest, hsc]
      constructor
      · rintro (⟨b, hb, hb1, hb2⟩ | ⟨h0, hh, _⟩)
        · exact Or.inl ⟨b, by simp [hb], hb1, hb2⟩
        · exact Or.inl ⟨(p, t), by simp, hh, by simp only; omega⟩
      · rintro (⟨b, hb, hb1, hb2⟩ | ⟨h0, hh, h⟩)
        · rcases List.mem_cons.mp hb with rfl | hb
          · right
            simp only at hb1 hb2
            exact ⟨by omega, hb1, hpl⟩
          · exact Or.inl ⟨b, hb, hb1, hb2⟩
        · exact absurd (h (p, t) (by simp)) (lt_irrefl _)

end Verif.StretchCalc
