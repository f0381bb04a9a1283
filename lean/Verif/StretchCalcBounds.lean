import Verif.StretchCalcOffline
/-!
# The offline stretch profile: how long each increment may be (C75)
-/
namespace Verif.StretchCalc
open Verif.Round

theorem evenLoop_bound {per : Rat} (hper : 0 ≤ per) : ∀ (rounds : Nat) (acc : Rat) (total : Nat) (l : List Int) (total' : Nat),
    (total : Int) = (acc + 1 / 2).floor → (0 < per ∨ acc = total) → evenLoop per rounds acc total = some (l, total') → ∀ x ∈ l, (x : Rat) ≤ per + 1 := by
  intro rounds
  induction rounds with
  | zero => intro acc total l total' _ _ h; cases h; simp
  | succ rounds ih =>
    intro acc total l total' h1 h2 h
    obtain ⟨b1, b2⟩ := floor_bounds (acc + 1 / 2)
    rw [← h1] at b1 b2
    push_cast at b1 b2
    have hy : -(1 / 2) < acc + per - total := by
      rcases h2 with h2 | h2
      · linarith
      · rw [h2]; linarith
    obtain ⟨r1, r2⟩ := roundAway_eq hy
    obtain ⟨f1, f2⟩ := floor_bounds (acc + per - total + 1 / 2)
    rw [← r1] at f1 f2
    have hfl : (acc + per + 1 / 2).floor = total + roundAway (acc + per - total) := by
      apply floor_unique
      · push_cast; linarith
      · push_cast; linarith
    have hnn : ((roundAway (acc + per - total)).toNat : Int) = roundAway (acc + per - total) := by omega
    unfold evenLoop at h
    simp only at h
    rw [if_neg (by omega)] at h
    obtain ⟨⟨rest, t⟩, h3, h⟩ := Option.bind_eq_some_iff.mp h
    cases h
    intro x hx
    rcases List.mem_cons.mp hx with rfl | hx
    · linarith
    · refine ih _ _ _ _ (by rw [hfl]; push_cast; rw [hnn]) ?_ h3 x hx
      rcases h2 with h2 | h2
      · exact Or.inl h2
      · rcases lt_or_eq_of_le hper with c | c
        · exact Or.inl c
        · right
          rw [← c, h2, show (total : Rat) + 0 - total = ((0 : Int) : Rat) by push_cast; ring, roundAway_int]
          simp

theorem even_bound {dur m k : Nat} (hm : 0 < m) (hk : k ≤ dur) {r : List Int} (h : even dur m (((dur - k : Nat) : Rat) / (m : Rat)) k k = some r) :
    ∀ x ∈ r, (x : Rat) ≤ ((dur - k : Nat) : Rat) / m + 1 := by
  have hmQ : (0 : Rat) < m := by exact_mod_cast hm
  have hper : (0 : Rat) ≤ ((dur - k : Nat) : Rat) / (m : Rat) := by positivity
  generalize hp : ((dur - k : Nat) : Rat) / (m : Rat) = per at *
  have hmp : (m : Rat) * per = dur - k := by
    rw [← hp, Nat.cast_sub hk]; field_simp
  have hfl : ((k : Nat) : Int) = ((k : Rat) + 1 / 2).floor := by symm; apply floor_unique <;> push_cast <;> linarith
  obtain ⟨l, t, h1, h2, h3, h4, h5⟩ := evenLoop_spec hper (m - 1) (k : Rat) k hfl (Or.inr rfl)
  have hacc : (k : Rat) + ((m - 1 : Nat) : Rat) * per = dur - per := by
    rw [Nat.cast_sub (by omega)]; push_cast; linarith
  rw [hacc] at h2
  obtain ⟨f1, f2⟩ := floor_bounds ((dur : Rat) - per + 1 / 2)
  rw [← h2] at f1 f2
  unfold even at h
  rw [if_pos hm, h1] at h
  cases h
  intro x hx
  rcases List.mem_append.mp hx with hx | hx
  · exact evenLoop_bound hper _ _ _ _ _ hfl (Or.inr rfl) h1 x hx
  · unfold lastIncrement at hx
    split_ifs at hx with c
    · simp only [List.mem_singleton] at hx
      subst hx
      rw [Int.cast_natCast, Nat.cast_sub (le_of_lt c)]
      push_cast at f1 f2 ⊢
      linarith
    · simp at hx

/-- The increments of a region that is no longer than `g` for each chunk and 1. -/
theorem region_bound {inc dur n : Nat} (hinc : 1 ≤ inc) {g : Rat} (hg : 0 ≤ g) (hd : (dur : Rat) ≤ n * g + 1) {hard : Bool} {r : List Int}
    (h : region inc dur n hard = some r) :
    (∀ x ∈ r, |(x : Rat)| ≤ max (inc : Rat) (2 * g + 2)) ∧ ∀ x, r.head? = some x → |(x : Rat)| ≤ max (inc : Rat) (g + 2) := by
  unfold region at h
  split at h
  · cases h; simp
  · rename_i hn
    have hn0 : 0 < n := by omega
    have hnQ : (1 : Rat) ≤ n := by exact_mod_cast hn0
    cases hard with
    | false =>
      simp only [Bool.false_eq_true, if_false] at h
      obtain ⟨r', s1, _, s3, _⟩ := even_spec (dur := dur) (m := n) (k := 0) hn0 (Nat.zero_le _)
      simp only [Nat.sub_zero, Nat.cast_zero] at s1
      rw [h] at s1
      cases s1
      have hb := even_bound (dur := dur) (m := n) (k := 0) hn0 (Nat.zero_le _) (by simpa using h)
      have key : ∀ x ∈ r, |(x : Rat)| ≤ g + 2 := by
        intro x hx
        have h0 : (0 : Rat) ≤ x := by exact_mod_cast s3 x hx
        rw [abs_of_nonneg h0]
        have := hb x hx
        rw [Nat.sub_zero] at this
        have hle : (dur : Rat) / n ≤ g + 1 := by
          rw [div_le_iff₀ (by linarith)]
          nlinarith
        linarith
      refine ⟨fun x hx => le_trans (key x hx) (le_trans (by linarith) (le_max_right _ _)), fun x hx => le_trans (key x ?_) (le_max_right _ _)⟩
      cases r with
      | nil => simp at hx
      | cons y r => simp at hx; simp [hx]
    | true =>
      simp only [if_true] at h
      obtain ⟨rest, h1, h⟩ := Option.bind_eq_some_iff.mp h
      cases h
      rcases Nat.lt_or_ge 1 n with c | c
      · have e : resetIncrement inc dur n = min inc dur := by unfold resetIncrement; rw [if_pos c]
        rw [e] at h1 ⊢
        have hfirst : |((-((min inc dur : Nat) : Int) : Int) : Rat)| ≤ inc := by
          rw [Int.cast_neg, abs_neg, Int.cast_natCast, abs_of_nonneg (by positivity)]
          exact_mod_cast Nat.min_le_left _ _
        have hb := even_bound (dur := dur) (m := n - 1) (k := min inc dur) (by omega) (Nat.min_le_right _ _) h1
        obtain ⟨r', s1, _, s3, _⟩ := even_spec (dur := dur) (m := n - 1) (k := min inc dur) (by omega) (Nat.min_le_right _ _)
        rw [h1] at s1
        cases s1
        have hincQ : (1 : Rat) ≤ inc := by exact_mod_cast hinc
        refine ⟨?_, ?_⟩
        · intro x hx
          rcases List.mem_cons.mp hx with rfl | hx
          · exact le_trans hfirst (le_max_left _ _)
          · have h0 : (0 : Rat) ≤ x := by exact_mod_cast s3 x hx
            rw [abs_of_nonneg h0]
            refine le_trans (hb x hx) (le_trans ?_ (le_max_right _ _))
            have hm1 : ((n - 1 : Nat) : Rat) = n - 1 := by rw [Nat.cast_sub (by omega)]; simp
            have hn2 : (2 : Rat) ≤ n := by exact_mod_cast c
            have hle : ((dur - min inc dur : Nat) : Rat) / ((n - 1 : Nat) : Rat) ≤ 2 * g + 1 := by
              rw [hm1, div_le_iff₀ (by linarith)]
              rcases Nat.lt_or_ge dur inc with c' | c'
              · have : dur - min inc dur = 0 := by omega
                rw [this]
                push_cast
                nlinarith
              · have : dur - min inc dur = dur - inc := by omega
                rw [this, Nat.cast_sub c']
                nlinarith
            linarith
        · intro x hx
          simp only [List.head?_cons, Option.some.injEq] at hx
          rw [← hx]
          exact le_trans hfirst (le_max_left _ _)
      · have hn1 : n = 1 := by omega
        subst hn1
        have hr : rest = [] := by
          simp [even] at h1
          exact h1
        subst hr
        have e : resetIncrement inc dur 1 = dur := by simp [resetIncrement]
        rw [e]
        have hfirst : |((-((dur : Nat) : Int) : Int) : Rat)| ≤ g + 2 := by
          rw [Int.cast_neg, abs_neg, Int.cast_natCast, abs_of_nonneg (by positivity)]
          push_cast at hd
          linarith
        refine ⟨?_, ?_⟩
        · intro x hx
          simp only [List.mem_singleton] at hx
          rw [hx]
          exact le_trans hfirst (le_trans (by linarith) (le_max_right _ _))
        · intro x hx
          simp only [List.head?_cons, Option.some.injEq] at hx
          rw [← hx]
          exact le_trans hfirst (le_max_right _ _)

theorem interpolate_rate {n d a b : Nat} (hn : 0 < n) (h : a ≤ b) :
    ((interpolate 0 n 0 d b - interpolate 0 n 0 d a : Nat) : Rat) ≤ ((b - a : Nat) : Rat) * ((d : Rat) / n) + 1 := by
  have hm := interpolate_mono (sc := 0) (ec := n) (ts := 0) (te := d) h
  rw [Nat.cast_sub hm, Nat.cast_sub h]
  have e : ∀ c, ((interpolate 0 n 0 d c : Nat) : Rat) = lrint ((c : Rat) / n * d) := by
    intro c
    unfold interpolate
    simp only [Nat.sub_zero, Nat.zero_add]
    have : 0 ≤ lrint ((c : Rat) / n * d) := lrint_nonneg (by positivity)
    rw [← Int.cast_natCast, Int.toNat_of_nonneg this]
  rw [e, e]
  have b1 := (lrint_bounds ((b : Rat) / n * d)).1
  have b2 := (lrint_bounds ((a : Rat) / n * d)).2
  have : (b : Rat) / n * d - (a : Rat) / n * d = ((b : Rat) - a) * (d / n) := by ring
  linarith

theorem regions_bound {inc n d : Nat} (hinc : 1 ≤ inc) (hn : 0 < n) : ∀ (ps : List Peak) (sc : Nat) (hard : Bool) (r : List Int),
    (ps.map (·.chunk)).Pairwise (· < ·) → (∀ p ∈ ps, p.chunk < n) → (∀ p ∈ ps, sc ≤ p.chunk) → sc ≤ n →
    regions inc d n sc (interpolate 0 n 0 d sc) hard (ps.map fun p => (p, interpolate 0 n 0 d p.chunk)) = some r →
    (∀ x ∈ r, |(x : Rat)| ≤ max (inc : Rat) (2 * (d / n) + 2)) ∧ ∀ x, r.head? = some x → |(x : Rat)| ≤ max (inc : Rat) (d / n + 2) := by
  have one : ∀ {sc ec : Nat} {hard : Bool} {r : List Int}, sc ≤ ec → ec ≤ n →
      clampedRegion inc d n sc (interpolate 0 n 0 d sc) hard ec (interpolate 0 n 0 d ec) = some r →
      (∀ x ∈ r, |(x : Rat)| ≤ max (inc : Rat) (2 * (d / n) + 2)) ∧ ∀ x, r.head? = some x → |(x : Rat)| ≤ max (inc : Rat) (d / n + 2) := by
    intro sc ec hard r h1 h2 h
    unfold clampedRegion at h
    simp only at h
    have a1 := interpolate_le (c := sc) hn (Nat.zero_le d) (by omega)
    have a2 := interpolate_le (c := ec) hn (Nat.zero_le d) h2
    have a3 := interpolate_mono (sc := 0) (ec := n) (ts := 0) (te := d) h1
    rw [show max (min ec n) (min sc n) = ec by omega, show min sc n = sc by omega, show max (min (interpolate 0 n 0 d ec) d) (min (interpolate 0 n 0 d sc) d) = interpolate 0 n 0 d ec by omega,
      show min (interpolate 0 n 0 d sc) d = interpolate 0 n 0 d sc by omega] at h
    exact region_bound hinc (by positivity) (interpolate_rate hn h1) h
  intro ps
  induction ps with
  | nil =>
    intro sc hard r _ _ _ h4 h
    unfold regions at h
    simp only [List.map_nil] at h
    refine one (hard := hard) h4 (le_refl n) ?_
    rw [interpolate_end hn (Nat.zero_le d)]
    exact h
  | cons p ps ih =>
    intro sc hard r h1 h2 h3 h4 h
    rw [List.map_cons] at h1
    rw [List.pairwise_cons] at h1
    rw [List.map_cons] at h
    unfold regions at h
    obtain ⟨a, ha, h⟩ := Option.bind_eq_some_iff.mp h
    obtain ⟨b, hb, h⟩ := Option.bind_eq_some_iff.mp h
    cases h
    obtain ⟨x1, x2⟩ := one (h3 p (by simp)) (le_of_lt (h2 p (by simp))) ha
    obtain ⟨y1, y2⟩ := ih p.chunk p.hard b h1.2 (fun q hq => h2 q (by simp [hq])) (fun q hq => le_of_lt (h1.1 q.chunk (List.mem_map_of_mem hq)))
      (le_of_lt (h2 p (by simp))) hb
    refine ⟨?_, ?_⟩
    · intro x hx
      rcases List.mem_append.mp hx with hx | hx
      · exact x1 x hx
      · exact y1 x hx
    · intro x hx
      cases a with
      | nil => exact y2 x (by simpa using hx)
      | cons w a => exact x2 x (by simpa using hx)

/-- With a single value there are no peaks, if the program does not read outside its window. -/
theorem findPeaks_single {s : Calc} {x : Rat} {ps : List Peak} (h : findPeaks s [x] = some ps) : ps = [] := by
  unfold findPeaks at h
  obtain ⟨hard, h1, h⟩ := Option.bind_eq_some_iff.mp h
  obtain ⟨soft, h2, h⟩ := Option.bind_eq_some_iff.mp h
  have hh : hard = [] := by
    unfold hardPeaks at h1
    split at h1
    · have : (smoothDF [x]).length - 2 = 0 := by simp [smoothDF]
      rw [this] at h1
      cases h1
      rfl
    · cases h1
      rfl
  have hs : soft.cands = [] := by
    have hM : 7 ≤ medianMaxSize s.sampleRate s.increment := by unfold medianMaxSize; omega
    generalize medianMaxSize s.sampleRate s.increment = M at *
    have hdf : smoothDF [x] = [x] := by simp [smoothDF, smoothAt]
    rw [hdf] at h2
    have hw : firstWindow [x] M = List.replicate (M / 2) 0 ++ [x] := by
      unfold firstWindow
      rw [List.take_of_length_le (by simp; omega)]
    rw [hw] at h2
    have e : ([x] : List Rat).length = 1 := rfl
    rw [e] at h2
    unfold softLoop at h2
    obtain ⟨u, h3, h4⟩ := Option.bind_eq_some_iff.mp h2
    cases h4
    unfold softTurn at h3
    simp only [List.length_append, List.length_replicate, List.length_cons, List.length_nil, Nat.zero_add] at h3
    rw [show min M (M / 2 + 1) = M / 2 + 1 by omega, if_neg (by omega), if_neg (by omega)] at h3
    obtain ⟨v, h5, h6⟩ := Option.bind_eq_some_iff.mp h3
    cases h6
    show v.cands = []
    unfold softPick at h5
    obtain ⟨th, _, h5⟩ := Option.bind_eq_some_iff.mp h5
    obtain ⟨t, h7, h5⟩ := Option.bind_eq_some_iff.mp h5
    have ht : t = false := by
      unfold softTest at h7
      obtain ⟨a, _, h7⟩ := Option.bind_eq_some_iff.mp h7
      split at h7
      · obtain ⟨b, _, h7⟩ := Option.bind_eq_some_iff.mp h7
        split at h7
        · obtain ⟨c, h8, _⟩ := Option.bind_eq_some_iff.mp h7
          rw [List.getElem?_eq_none (by simp)] at h8
          cases h8
        · cases h7; rfl
      · cases h7; rfl
    subst ht
    simp only [Bool.false_eq_true, false_and, if_false] at h5
    cases h5
    rfl
  rw [hh, hs] at h
  cases h
  rfl

/-- All about the lengths of the increments without a map. -/
theorem free_bound {s : Calc} (hinc : 1 ≤ s.increment) (hmap : s.keyFrameMap = []) {ratio : Rat} (hr : 0 ≤ ratio) {df : List Rat} {incs : List Int}
    (h : calculate s ratio df = some incs) :
    (∀ x ∈ incs, |(x : Rat)| ≤ max (s.increment : Rat) (2 * (s.increment * ratio) + 3)) ∧
      ∀ x, incs.head? = some x → |(x : Rat)| ≤ max (s.increment : Rat) (s.increment * ratio + 5 / 2) := by
  obtain ⟨ps, e1, e2⟩ := calculate_some h
  have hps : (ps.map (·.chunk)).Pairwise (· < ·) ∧ ∀ p ∈ ps, p.chunk < df.length := by
    by_cases hn : df.length = 1
    · obtain ⟨x, rfl⟩ := List.length_eq_one_iff.mp hn
      rw [findPeaks_single e1]
      simp
    · obtain ⟨ps', h1, h2, h3⟩ := C18_partial s hn
      rw [h1] at e1
      cases e1
      exact ⟨h2, h3⟩
  obtain ⟨h2, h3⟩ := hps
  rw [free_points s hmap] at e2
  rcases Nat.eq_zero_or_pos df.length with c | c
  · have hch := free_chain (outputDuration s ratio df.length) df.length (fun e => by rw [e, outputDuration_zero]) ps 0 h2 h3 (fun _ _ => Nat.zero_le _) (Nat.zero_le _)
    rw [interpolate_start] at hch
    obtain ⟨r, r1, _, r3⟩ := regions_sum s.increment _ 0 0 false hch
    rw [e2] at r1
    cases r1
    have : incs = [] := List.eq_nil_of_length_eq_zero (by omega)
    subst this
    simp
  · have hd : ((outputDuration s ratio df.length : Nat) : Rat) / df.length ≤ s.increment * ratio + 1 / 2 := by
      have hc : (1 : Rat) ≤ df.length := by exact_mod_cast c
      rw [div_le_iff₀ (by linarith)]
      have := duration_eq s hr df.length
      have hb := (lrint_bounds (((df.length * s.increment : Nat) : Rat) * ratio)).1
      rw [← this] at hb
      push_cast at hb
      nlinarith
    have hreg := regions_bound (d := outputDuration s ratio df.length) hinc c ps 0 false incs h2 h3 (fun _ _ => Nat.zero_le _) (Nat.zero_le _)
      (by rw [interpolate_start]; exact e2)
    refine ⟨fun x hx => le_trans (hreg.1 x hx) (max_le_max (le_refl _) (by linarith)), fun x hx => le_trans (hreg.2 x hx) (max_le_max (le_refl _) (by linarith))⟩

/-! ## C75 -/

/-- **C75.**  In a profile calculated offline without a key-frame map, no increment is longer than the input increment, or than twice the even share of a chunk
and 3, whichever is more, whatever the detection function contains; and the first is no longer than the input increment, or than its even share and 5/2. -/
theorem C75_increments_bounded (s : Calc) (hinc : 1 ≤ s.increment) {ratio : Rat} (hr : 0 ≤ ratio) {df : List Rat} {incs : List Int}
    (h : calculate (setKeyFrameMap s []) ratio df = some incs) :
    (∀ x ∈ incs, |(x : Rat)| ≤ max (s.increment : Rat) (2 * (s.increment * ratio) + 3)) ∧
      ∀ x, incs.head? = some x → |(x : Rat)| ≤ max (s.increment : Rat) (s.increment * ratio + 5 / 2) :=
  free_bound (s := setKeyFrameMap s []) hinc rfl hr h

/-- The hypotheses are met by a profile through two hard peaks, of which an increment is indeed much longer than its share of 15. -/
example : ∃ incs, calculate (setKeyFrameMap (Ex.tens true) []) (3 / 2) [0, 0, 0, 0, 1, 0, 3, 0, 0, 0, 1, 0, 0, 0, 0] = some incs ∧ (20 : Int) ∈ incs ∧ (-10 : Int) ∈ incs := by
  have h : (calculate (setKeyFrameMap (Ex.tens true) []) (3 / 2) [0, 0, 0, 0, 1, 0, 3, 0, 0, 0, 1, 0, 0, 0, 0]).any (fun l => decide ((20 : Int) ∈ l ∧ (-10 : Int) ∈ l)) = true := by decide +kernel
  obtain ⟨incs, h1, h2⟩ := (Option.any_eq_true _ _).mp h
  exact ⟨incs, h1, by simpa using h2⟩

end Verif.StretchCalc
