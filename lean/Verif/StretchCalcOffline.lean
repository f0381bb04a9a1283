import Verif.StretchCalcMap
import Verif.StretchCalcPeaks
/-!
# The offline stretch profile (C13, C14, C49, C52, C53)
-/
namespace Verif.StretchCalc
open Verif.Round

/-! ## Putting the parts together -/

theorem outputDuration_zero (s : Calc) (ratio : Rat) : outputDuration s ratio 0 = 0 := by
  unfold outputDuration
  rw [Nat.zero_mul, Nat.cast_zero, zero_mul, show (0 : Rat) = ((0 : Int) : Rat) by simp, lrint_int]
  rfl

theorem free_points (s : Calc) (hmap : s.keyFrameMap = []) (ps : List Peak) (d n : Nat) :
    mapPeaks s ps d n = ps.map fun p => (p, interpolate 0 n 0 d p.chunk) := by
  unfold mapPeaks
  rw [if_pos hmap]
  simp only [target_eq]

theorem chain_end {d n : Nat} (hz : n = 0 → d = 0) : ∀ {acc : List (Peak × Nat)}, RChain d n acc → Chain d n (hdc acc) (hdt acc) [] := by
  intro acc h
  cases acc with
  | nil => exact ⟨Nat.zero_le _, fun e => by rw [hz e.symm]; exact Nat.zero_le _⟩
  | cons a acc =>
    obtain ⟨p, t⟩ := a
    have h2 := h.2.1
    refine ⟨le_of_lt h2, fun e => ?_⟩
    change p.chunk = n at e
    omega

theorem mapped_chain {s : Calc} (hinc : 0 < s.increment) (hm : Rising s.increment s.keyFrameMap) {ps : List Peak} {d n : Nat}
    (hz : n = 0 → d = 0) (h1 : (ps.map (·.chunk)).Pairwise (· < ·)) (h2 : ∀ p ∈ ps, p.chunk < n) :
    Chain d n 0 0 (mapPeaks s ps d n) := by
  by_cases hmap : s.keyFrameMap = []
  · rw [free_points s hmap]
    have := free_chain d n hz ps 0 h1 h2 (fun _ _ => Nat.zero_le _) (Nat.zero_le _)
    rwa [interpolate_start] at this
  · unfold mapPeaks
    rw [if_neg hmap]
    have h := keyLoop_chain (d := d) (n := n) hinc s.keyFrameMap ps [] hm h1 h2 trivial (by simp) (by simp) (fun _ _ => Nat.zero_le _)
    have := rchain_chain _ [] h (chain_end hz h)
    rwa [List.append_nil] at this

/-! ## C13 -/

/-- The keys of a `std::map` are in order. -/
def Keys (m : List (Nat × Nat)) : Prop := (m.map (·.1)).Pairwise (· < ·)

/-- C13 in full: the whole profile is as long as the rounded product of the input (in whole chunks) and the
ratio. -/
def C13_statement : Prop :=
  ∀ (s : Calc), 0 < s.sampleRate → 0 < s.increment → ∀ m, Keys m → ∀ (ratio : Rat), 0 < ratio → ∀ df : List Rat,
    ∃ incs, calculate (setKeyFrameMap s m) ratio df = some incs ∧ (incs.map fun x => |x|).sum = lrint (((df.length * s.increment : Nat) : Rat) * ratio)

theorem set_rising {s : Calc} {m : List (Nat × Nat)} (h : Rising s.increment m) :
    Rising (setKeyFrameMap s m).increment (setKeyFrameMap s m).keyFrameMap := by
  unfold setKeyFrameMap
  cases m with
  | nil => exact h
  | cons k m =>
    obtain ⟨src, tgt⟩ := k
    simp only
    split_ifs with c
    · exact h
    · have h1 := h.sources
      have h3 := h.first
      rw [List.map_cons, List.pairwise_cons] at h1
      constructor
      · rw [List.map_cons, List.pairwise_cons]
        refine ⟨?_, h.sources⟩
        intro x hx
        rw [List.map_cons, List.mem_cons] at hx
        rcases hx with hx | hx
        · rw [hx]; show 0 < src; omega
        · exact lt_of_le_of_lt (Nat.zero_le _) (h1.1 x hx)
      · rw [List.map_cons, List.pairwise_cons]
        exact ⟨fun _ _ => Nat.zero_le _, h.targets⟩
      · intro k hk hlt
        rcases List.mem_cons.mp hk with rfl | hk
        · rfl
        · exact h3 k hk hlt

/-- **C13 (partial).**  The absolute values of the increments add up to the length wanted, for every detection
function of other than one value, every ratio, and every key-frame map whose targets do not go down and
whose key frames within the first chunk are mapped to the beginning (or no map at all).  Missing: a
detection function of one value (`C13_violated`) and other key-frame maps (`C13_violated_map`). -/
theorem C13_partial (s : Calc) (hinc : 0 < s.increment) {m : List (Nat × Nat)} (hkeys : (m.map (·.1)).Pairwise (· < ·))
    (hrise : (m.map (·.2)).Pairwise (· ≤ ·)) (hfirst : ∀ k ∈ m, k.1 < s.increment → k.2 = 0) {ratio : Rat} (hr : 0 < ratio)
    {df : List Rat} (hn : df.length ≠ 1) :
    ∃ incs, calculate (setKeyFrameMap s m) ratio df = some incs ∧ (incs.map fun x => |x|).sum = lrint (((df.length * s.increment : Nat) : Rat) * ratio) := by
  obtain ⟨ps, h1, h2, h3⟩ := C18_partial (setKeyFrameMap s m) hn
  have hch := mapped_chain (s := setKeyFrameMap s m) (d := outputDuration (setKeyFrameMap s m) ratio df.length) (n := df.length) hinc
    (set_rising ⟨hkeys, hrise, hfirst⟩) (fun e => by rw [e, outputDuration_zero]) h2 h3
  obtain ⟨r, r1, r2, _⟩ := regions_sum (setKeyFrameMap s m).increment _ 0 0 false hch
  refine ⟨r, ?_, ?_⟩
  · unfold calculate
    rw [h1]
    exact r1
  · change produced r = _
    rw [r2, Nat.zero_min]
    have : 0 ≤ lrint (((df.length * s.increment : Nat) : Rat) * ratio) := lrint_nonneg (by positivity)
    have e : ((outputDuration (setKeyFrameMap s m) ratio df.length : Nat) : Int) = lrint (((df.length * s.increment : Nat) : Rat) * ratio) := by
      unfold outputDuration
      exact Int.toNat_of_nonneg this
    omega

namespace Ex
def two : List Rat := [0, 0, 0, 0, 0, 1 / 5, 1, 1 / 5, 0, 0, 0, 0, 0, 0, 1 / 10, 1 / 5, 1 / 10, 0, 0, 0]
def tens (hard : Bool) : Calc := { sampleRate := 80, increment := 10, useHardPeaks := hard }
end Ex

/-- A profile at ratio 3/2 with a hard and a soft peak, without and with key frames. -/
example : calculate (Ex.tens true) (3 / 2) Ex.two =
    some [15, 15, 15, 15, 15, 15, -10, 16, 15, 16, 16, 15, 16, 15, 16, 15, 15, 15, 15, 15] := by decide +kernel

example : calculate (setKeyFrameMap (Ex.tens true) [(60, 100), (130, 200)]) (3 / 2) Ex.two =
    some [17, 16, 17, 17, 16, 17, -10, 15, 15, 15, 15, 15, 15, 15, 14, 14, 14, 15, 14, 14] := by decide +kernel

/-- **C13 is violated** by a detection function of one value, for which `calculate` reads outside a container. -/
theorem C13_violated : ¬ C13_statement := by
  intro h
  obtain ⟨incs, h1, _⟩ := h (Ex.tens true) (by decide) (by decide) [] (by simp [Keys]) 1 (by norm_num) [1]
  have : calculate (setKeyFrameMap (Ex.tens true) []) 1 [1] = none := by decide +kernel
  rw [this] at h1
  cases h1

/-- It is violated too by a map whose first key frame is 0 → 100: the output is 100 frames short. -/
theorem C13_violated_map : ¬ ∀ (m : List (Nat × Nat)), Keys m → (m.map (·.2)).Pairwise (· ≤ ·) → ∀ df : List Rat, df.length ≠ 1 →
    ∃ incs, calculate (setKeyFrameMap (Ex.tens true) m) (3 / 2) df = some incs ∧
      (incs.map fun x => |x|).sum = lrint (((df.length * (Ex.tens true).increment : Nat) : Rat) * (3 / 2)) := by
  intro h
  obtain ⟨incs, h1, h2⟩ := h [(0, 100)] (by simp [Keys]) (by simp) Ex.two (by decide)
  have e : calculate (setKeyFrameMap (Ex.tens true) [(0, 100)]) (3 / 2) Ex.two =
    some [10, 10, 10, 10, 10, 10, -10, 10, 10, 10, 10, 10, 10, 10, 10, 10, 10, 10, 10, 10] := by decide +kernel
  rw [e] at h1
  cases h1
  revert h2
  decide +kernel

/-! ## C14 and C49 -/

/-- The output position up to chunk `c`. -/
def position (incs : List Int) (c : Nat) : Int := ((incs.take c).map fun x => |x|).sum

/-- C14 in full: without a map every onset peak lies where its share of the output says, and with one every key
frame within the input lies where the map says. -/
def C14_statement : Prop :=
  ∀ (s : Calc), 0 < s.sampleRate → 0 < s.increment → ∀ m, Keys m → ∀ (ratio : Rat), 0 < ratio → ∀ df : List Rat,
    ∀ incs, calculate (setKeyFrameMap s m) ratio df = some incs →
      (m = [] → ∀ ps, findPeaks s df = some ps → ∀ p ∈ ps,
        position incs p.chunk = lrint ((p.chunk : Rat) * lrint (((df.length * s.increment : Nat) : Rat) * ratio) / df.length)) ∧
      (∀ k ∈ m, k.1 / s.increment < df.length → (k.2 : Int) ≤ lrint (((df.length * s.increment : Nat) : Rat) * ratio) →
        position incs (k.1 / s.increment) = k.2)

/-- C49 in full. -/
def C49_statement : Prop :=
  ∀ (s : Calc), 0 < s.sampleRate → 0 < s.increment → ∀ m, Keys m → ∀ (ratio : Rat), 0 < ratio → ∀ df : List Rat,
    ∀ incs, calculate (setKeyFrameMap s m) ratio df = some incs → incs.length = df.length

theorem calculate_some {s : Calc} {ratio : Rat} {df : List Rat} {incs : List Int} (h : calculate s ratio df = some incs) :
    ∃ ps, findPeaks s df = some ps ∧ regions s.increment (outputDuration s ratio df.length) df.length 0 0 false
      (mapPeaks s ps (outputDuration s ratio df.length) df.length) = some incs := by
  unfold calculate at h
  cases hp : findPeaks s df with
  | none => rw [hp] at h; cases h
  | some ps => rw [hp] at h; exact ⟨ps, rfl, h⟩

theorem ample_of_ratio {s : Calc} {ratio : Rat} {n : Nat} (hr : (s.increment : Rat) + 3 ≤ 2 * s.increment * ratio) :
    Ample s.increment n (outputDuration s ratio n) := by
  unfold Ample
  rcases Nat.eq_zero_or_pos n with c | c
  · subst c; simp
  · have hn : (1 : Rat) ≤ n := by exact_mod_cast c
    obtain ⟨_, b⟩ := lrint_bounds (((n * s.increment : Nat) : Rat) * ratio)
    have h0 : (lrint (((n * s.increment : Nat) : Rat) * ratio) : Int) ≤ outputDuration s ratio n := by
      unfold outputDuration
      exact Int.self_le_toNat _
    have h1 : (lrint (((n * s.increment : Nat) : Rat) * ratio) : Rat) ≤ (outputDuration s ratio n : Rat) := by exact_mod_cast h0
    have h2 := mul_le_mul_of_nonneg_left hr (le_trans zero_le_one hn)
    have : ((n * (s.increment + 2) : Nat) : Rat) ≤ ((2 * outputDuration s ratio n : Nat) : Rat) := by
      push_cast at *
      nlinarith
    exact_mod_cast this

/-- All about a profile without a map and with ample output. -/
theorem free_profile {s : Calc} (hinc : 2 ≤ s.increment) (hmap : s.keyFrameMap = []) {ratio : Rat}
    (hr : (s.increment : Rat) + 3 ≤ 2 * s.increment * ratio) {df : List Rat} (hn : df.length ≠ 1) {incs : List Int}
    (h : calculate s ratio df = some incs) : ∃ ps, findPeaks s df = some ps ∧ (∀ p ∈ ps, p.chunk < df.length) ∧ incs.length = df.length ∧
      (∀ p ∈ ps, produced (incs.take p.chunk) = interpolate 0 df.length 0 (outputDuration s ratio df.length) p.chunk) ∧
      ∀ i, (∃ x, incs[i]? = some x ∧ x < 0) ↔ ∃ p ∈ ps, p.hard = true ∧ p.chunk = i := by
  obtain ⟨ps, h1, h2, h3⟩ := C18_partial s hn
  obtain ⟨ps', e1, e2⟩ := calculate_some h
  rw [h1] at e1
  cases e1
  refine ⟨ps, h1, h3, ?_⟩
  rw [free_points s hmap] at e2
  generalize hd : outputDuration s ratio df.length = d at *
  have hch := free_chain d df.length (fun e => by rw [← hd, e, outputDuration_zero]) ps 0 h2 h3 (fun _ _ => Nat.zero_le _) (Nat.zero_le _)
  rw [interpolate_start] at hch
  rcases Nat.eq_zero_or_pos df.length with c | c
  · obtain ⟨r, r1, _, r3⟩ := regions_sum s.increment _ 0 0 false hch
    rw [e2] at r1
    cases r1
    have hps : ps = [] := by
      cases ps with
      | nil => rfl
      | cons p ps => have := h3 p (by simp); omega
    subst hps
    have : incs = [] := List.eq_nil_of_length_eq_zero (by omega)
    subst this
    exact ⟨c.symm, by simp, by simp⟩
  · have hden := free_dense (d := d) (n := df.length) hinc (by rw [← hd]; exact ample_of_ratio hr) ps 0 false h2 h3 (fun _ _ => Nat.zero_le _) c
    rw [interpolate_start] at hden
    have hle : ∀ a ∈ ps.map fun p => (p, interpolate 0 df.length 0 d p.chunk), a.2 ≤ d := by
      intro a ha
      obtain ⟨p, hp, rfl⟩ := List.mem_map.mp ha
      exact interpolate_le c (Nat.zero_le _) (le_of_lt (h3 p hp))
    obtain ⟨r, r1, r2, r3⟩ := regions_points s.increment _ 0 0 false hch hden hle (Nat.zero_le _)
    rw [e2] at r1
    cases r1
    refine ⟨r2, ?_, ?_⟩
    · intro p hp
      have := r3 _ (List.mem_map_of_mem hp)
      simpa using this
    · intro i
      have := regions_signs (by omega) _ 0 0 false hch hden (by rw [List.map_map]; exact h2) hle (Nat.zero_le _) incs e2 i
      rw [this]
      simp

/-- All about a profile with a well spaced map. -/
theorem map_profile {s : Calc} (hinc : 2 ≤ s.increment) (hmap : s.keyFrameMap ≠ []) {ratio : Rat} {df : List Rat} (hn : df.length ≠ 1)
    (hm : Spaced s.increment (outputDuration s ratio df.length) df.length s.keyFrameMap) (h0 : s.keyFrameMap.head? = some (0, 0)) {incs : List Int}
    (h : calculate s ratio df = some incs) : incs.length = df.length ∧
      (∀ k ∈ s.keyFrameMap, produced (incs.take (k.1 / s.increment)) = k.2) := by
  obtain ⟨ps, h1, h2, h3⟩ := C18_partial s hn
  obtain ⟨ps', e1, e2⟩ := calculate_some h
  rw [h1] at e1
  cases e1
  generalize hd : outputDuration s ratio df.length = d at *
  unfold mapPeaks at e2
  rw [if_neg hmap] at e2
  have hseg : segEnd s.increment d df.length s.keyFrameMap = (0, 0) := by
    cases hk : s.keyFrameMap with
    | nil => exact absurd hk hmap
    | cons k m =>
      rw [hk] at h0
      cases h0
      simp [segEnd]
  obtain ⟨k1, k2, k3, k4, k5, k6, k7, k8⟩ := keyLoop_dense (d := d) (n := df.length) hinc s.keyFrameMap ps [] hm h2 h3 trivial trivial
    (Nat.zero_le _) (Nat.zero_le _) (by rw [hseg]; intro _; rfl) (by rw [hseg]; intro h; exact absurd h (by simp [hdc]))
    (fun e => absurd e hmap) (by simp)
  generalize hacc : keyLoop s.increment d df.length s.keyFrameMap ps [] = acc at *
  have hch := rchain_chain acc [] k1 ⟨le_of_lt k3, fun e => by omega⟩
  have hden := rdense_dense (n := df.length) acc [] k2 ⟨k3, k5 _⟩
  rw [List.append_nil] at hch hden
  obtain ⟨r, r1, r2, r3⟩ := regions_points s.increment _ 0 0 false hch hden (fun a ha => k6 a (List.mem_reverse.mp ha)) (Nat.zero_le _)
  rw [e2] at r1
  cases r1
  refine ⟨r2, ?_⟩
  intro k hk
  obtain ⟨a, ha, a1, a2⟩ := k8 k hk
  have := r3 a (List.mem_reverse.mpr ha)
  rw [a1, a2] at this
  simpa using this

/-- The segments of a map (given with `(src, tgt)` as the latest point): each begins in a later chunk than the one
before and before the end of the input and output, and has, on average, an output of at least half an input
increment and a frame for each chunk. -/
def Roomy (inc d n : Nat) : (src tgt : Nat) → List (Nat × Nat) → Prop
  | src, tgt, [] => src / inc < n ∧ tgt < d ∧ (n - src / inc) * (inc + 2) ≤ 2 * (d - tgt)
  | src, tgt, (src', tgt') :: rest => src / inc < src' / inc ∧ tgt < tgt' ∧
      (src' / inc - src / inc) * (inc + 2) ≤ 2 * (tgt' - tgt) ∧ Roomy inc d n src' tgt' rest

theorem roomy_spaced {inc d n : Nat} : ∀ (m : List (Nat × Nat)) (src tgt : Nat), Roomy inc d n src tgt m →
    src / inc < n ∧ tgt < d ∧ Spaced inc d n ((src, tgt) :: m) := by
  intro m
  induction m with
  | nil => intro src tgt h; exact ⟨h.1, h.2.1, h.1, h.2.1, h.1, h.2.1, h.2.2, trivial⟩
  | cons k m ih =>
    intro src tgt h
    obtain ⟨src', tgt'⟩ := k
    obtain ⟨h1, h2, h3, h4⟩ := h
    obtain ⟨i1, i2, i3⟩ := ih src' tgt' h4
    exact ⟨by omega, by omega, by omega, by omega, h1, h2, h3, i3⟩

/-- The map in use is the one given, with a key frame at the beginning. -/
theorem set_from {s : Calc} {m : List (Nat × Nat)} {d n : Nat} (hne : m ≠ []) (hm : Roomy s.increment d n 0 0 (if m.head? = some (0, 0) then m.tail else m)) :
    ∃ rest, (setKeyFrameMap s m).keyFrameMap = (0, 0) :: rest ∧ Spaced s.increment d n ((0, 0) :: rest) ∧ ∀ k ∈ m, k ∈ (0, 0) :: rest := by
  cases m with
  | nil => exact absurd rfl hne
  | cons k m =>
    obtain ⟨src, tgt⟩ := k
    by_cases e : (src, tgt) = (0, 0)
    · cases e
      rw [if_pos (by simp)] at hm
      exact ⟨m, rfl, (roomy_spaced m 0 0 hm).2.2, fun _ h => h⟩
    · rw [if_neg (by simpa using e)] at hm
      have hs : src ≠ 0 := by
        intro h
        subst h
        have := hm.1
        simp at this
      refine ⟨(src, tgt) :: m, ?_, (roomy_spaced _ 0 0 hm).2.2, fun _ h => List.mem_cons_of_mem _ h⟩
      unfold setKeyFrameMap
      simp [hs]

theorem set_find (s : Calc) (m : List (Nat × Nat)) (df : List Rat) : findPeaks (setKeyFrameMap s m) df = findPeaks s df := rfl

theorem duration_eq (s : Calc) {ratio : Rat} (hr : 0 ≤ ratio) (n : Nat) : ((outputDuration s ratio n : Nat) : Int) = lrint (((n * s.increment : Nat) : Rat) * ratio) := by
  unfold outputDuration
  exact Int.toNat_of_nonneg (lrint_nonneg (by positivity))

/-- **C14 (partial, without a map).**  At every onset peak the output position is the peak's share of the whole,
rounded, if the increment is at least two frames and the ratio is at least 1/2 + 3/(2·increment).  Missing: smaller
ratios, where increments are lost (`C14_violated`). -/
theorem C14_partial (s : Calc) (hinc : 2 ≤ s.increment) {ratio : Rat} (hr : 1 / 2 + 3 / (2 * s.increment) ≤ ratio) {df : List Rat}
    (hn : df.length ≠ 1) {incs : List Int} (h : calculate (setKeyFrameMap s []) ratio df = some incs) {ps : List Peak}
    (hps : findPeaks s df = some ps) {p : Peak} (hp : p ∈ ps) :
    position incs p.chunk = lrint ((p.chunk : Rat) * lrint (((df.length * s.increment : Nat) : Rat) * ratio) / df.length) := by
  have hi : (0 : Rat) < s.increment := by exact_mod_cast (show 0 < s.increment by omega)
  have hr' : (s.increment : Rat) + 3 ≤ 2 * s.increment * ratio := by
    have := mul_le_mul_of_nonneg_left hr (show (0 : Rat) ≤ 2 * s.increment by positivity)
    have e : (2 * (s.increment : Rat)) * (1 / 2 + 3 / (2 * s.increment)) = s.increment + 3 := by field_simp
    linarith
  have hr0 : 0 ≤ ratio := le_trans (by positivity) hr
  obtain ⟨ps', e1, _, _, e2, _⟩ := free_profile (s := setKeyFrameMap s []) hinc rfl hr' hn h
  rw [set_find, hps] at e1
  cases e1
  have := e2 p hp
  rw [← target_eq] at this
  change produced _ = _
  rw [this, ← duration_eq s hr0]
  change (((lrint ((p.chunk : Rat) * (outputDuration s ratio df.length : Nat) / df.length)).toNat : Nat) : Int) = _
  rw [Int.toNat_of_nonneg (lrint_nonneg (by positivity))]
  simp

/-- The hypotheses are met: at ratio 3/2, the peaks of `Ex.two` at chunks 6 and 15 are at 90 and 225. -/
example : 2 ≤ (Ex.tens true).increment ∧ (1 / 2 + 3 / (2 * (Ex.tens true).increment : Nat) : Rat) ≤ 3 / 2 ∧
    findPeaks (Ex.tens true) Ex.two = some [⟨6, true⟩, ⟨15, false⟩] ∧
    (calculate (setKeyFrameMap (Ex.tens true) []) (3 / 2) Ex.two).map (fun l => (position l 6, position l 15)) = some (90, 225) := by decide +kernel

/-- **C14 (partial, with a map).**  Every key frame is met, if the increment is at least two frames and the key
frames leave room for it: each is in a later chunk than the one before, within the input and the output, and
with at least half an increment and a frame of output for each chunk since the one before.  Missing: other maps. -/
theorem C14_partial_map (s : Calc) (hinc : 2 ≤ s.increment) {m : List (Nat × Nat)} {ratio : Rat} {df : List Rat} (hn : df.length ≠ 1)
    (hm : Roomy s.increment (lrint (((df.length * s.increment : Nat) : Rat) * ratio)).toNat df.length 0 0 (if m.head? = some (0, 0) then m.tail else m))
    {incs : List Int} (h : calculate (setKeyFrameMap s m) ratio df = some incs) {k : Nat × Nat} (hk : k ∈ m) :
    position incs (k.1 / s.increment) = k.2 := by
  have hne : m ≠ [] := List.ne_nil_of_mem hk
  obtain ⟨rest, e1, e2, e3⟩ := set_from (s := s) hne hm
  have := (map_profile (s := setKeyFrameMap s m) hinc (by rw [e1]; simp) hn (by rw [e1]; exact e2) (by rw [e1]; rfl) h).2 k (by rw [e1]; exact e3 k hk)
  exact this

/-- The hypotheses are met by a map of two key frames. -/
example : Roomy 10 (lrint ((200 : Nat) * (3 / 2 : Rat))).toNat 20 0 0
    (if [(60, 100), (130, 200)].head? = some (0, 0) then [(60, 100), (130, 200)].tail else [(60, 100), (130, 200)]) := by
  have : (lrint ((200 : Nat) * (3 / 2 : Rat))).toNat = 300 := by decide +kernel
  rw [this]
  simp [Roomy]

namespace Ex
def close : List Rat := [0, 0, 0, 0, 1, 0, 3, 0, 0, 0, 1, 0, 0, 0, 0]
end Ex

/-- Two hard peaks two chunks apart at ratio 1/2 leave no output for the chunk between: its increment is left
out, and everything after it moves forward by a chunk. -/
theorem close_profile : findPeaks (Ex.tens true) Ex.close = some [⟨4, true⟩, ⟨6, true⟩, ⟨10, true⟩] ∧
    calculate (setKeyFrameMap (Ex.tens true) []) (1 / 2) Ex.close = some [5, 5, 5, 5, -10, -10, 3, 4, 3, -10, 4, 4, 3, 4] := by decide +kernel

/-- **C14 is violated** at ratio 1/2: the second peak, which should be at frame 30, is at frame 40. -/
theorem C14_violated : ¬ C14_statement := by
  intro h
  have := (h (Ex.tens true) (by decide) (by decide) [] (by simp [Keys]) (1 / 2) (by norm_num) Ex.close _ close_profile.2).1 rfl _ close_profile.1
    ⟨6, true⟩ (by simp)
  revert this
  decide +kernel

/-- **C49 (partial, without a map).**  There is one increment for each chunk, if the increment is at least two
frames and the ratio is at least 1/2 + 3/(2·increment).  Missing: smaller ratios (`C49_violated`). -/
theorem C49_partial (s : Calc) (hinc : 2 ≤ s.increment) {ratio : Rat} (hr : 1 / 2 + 3 / (2 * s.increment) ≤ ratio) {df : List Rat}
    (hn : df.length ≠ 1) {incs : List Int} (h : calculate (setKeyFrameMap s []) ratio df = some incs) : incs.length = df.length := by
  have hi : (0 : Rat) < s.increment := by exact_mod_cast (show 0 < s.increment by omega)
  have hr' : (s.increment : Rat) + 3 ≤ 2 * s.increment * ratio := by
    have := mul_le_mul_of_nonneg_left hr (show (0 : Rat) ≤ 2 * s.increment by positivity)
    have e : (2 * (s.increment : Rat)) * (1 / 2 + 3 / (2 * s.increment)) = s.increment + 3 := by field_simp
    linarith
  obtain ⟨_, _, _, e, _⟩ := free_profile (s := setKeyFrameMap s []) hinc rfl hr' hn h
  exact e

/-- **C49 (partial, with a map).** -/
theorem C49_partial_map (s : Calc) (hinc : 2 ≤ s.increment) {m : List (Nat × Nat)} (hne : m ≠ []) {ratio : Rat} {df : List Rat} (hn : df.length ≠ 1)
    (hm : Roomy s.increment (lrint (((df.length * s.increment : Nat) : Rat) * ratio)).toNat df.length 0 0 (if m.head? = some (0, 0) then m.tail else m))
    {incs : List Int} (h : calculate (setKeyFrameMap s m) ratio df = some incs) : incs.length = df.length := by
  obtain ⟨rest, e1, e2, _⟩ := set_from (s := s) hne hm
  exact (map_profile (s := setKeyFrameMap s m) hinc (by rw [e1]; simp) hn (by rw [e1]; exact e2) (by rw [e1]; rfl) h).1

/-- There are never more increments than chunks, whatever the ratio. -/
theorem C49_partial_le (s : Calc) (hinc : 0 < s.increment) {m : List (Nat × Nat)} (hkeys : (m.map (·.1)).Pairwise (· < ·))
    (hrise : (m.map (·.2)).Pairwise (· ≤ ·)) (hfirst : ∀ k ∈ m, k.1 < s.increment → k.2 = 0) {ratio : Rat}
    {df : List Rat} (hn : df.length ≠ 1) {incs : List Int} (h : calculate (setKeyFrameMap s m) ratio df = some incs) : incs.length ≤ df.length := by
  obtain ⟨ps, h1, h2, h3⟩ := C18_partial (setKeyFrameMap s m) hn
  obtain ⟨ps', e1, e2⟩ := calculate_some h
  rw [h1] at e1
  cases e1
  have hch := mapped_chain (s := setKeyFrameMap s m) (d := outputDuration (setKeyFrameMap s m) ratio df.length) (n := df.length) hinc
    (set_rising ⟨hkeys, hrise, hfirst⟩) (fun e => by rw [e, outputDuration_zero]) h2 h3
  obtain ⟨r, r1, _, r3⟩ := regions_sum (setKeyFrameMap s m).increment _ 0 0 false hch
  rw [e2] at r1
  cases r1
  simpa using r3

/-- **C49 is violated** at ratio 1/2: 15 chunks, 14 increments. -/
theorem C49_violated : ¬ C49_statement := by
  intro h
  have := h (Ex.tens true) (by decide) (by decide) [] (by simp [Keys]) (1 / 2) (by norm_num) Ex.close _ close_profile.2
  revert this
  decide

/-! ## C52 and C53: phase resets -/

/-- C52 in full: without hard peaks the profile asks for no phase reset. -/
def C52_statement : Prop :=
  ∀ (s : Calc), 0 < s.sampleRate → 0 < s.increment → s.useHardPeaks = false → ∀ m, Keys m → ∀ (ratio : Rat), 0 < ratio → ∀ df : List Rat,
    ∀ incs, calculate (setKeyFrameMap s m) ratio df = some incs → ∀ x ∈ incs, 0 ≤ x

theorem merge_soft : ∀ (fuel : Nat) (soft : List Nat) (peaks : List Peak), (∀ p ∈ peaks, p.hard = false) → ∀ p ∈ merge fuel [] soft peaks, p.hard = false := by
  intro fuel
  induction fuel with
  | zero => intro soft peaks h p hp; unfold merge at hp; exact h p hp
  | succ fuel ih =>
    intro soft peaks h p hp
    cases soft with
    | nil => unfold merge at hp; exact h p hp
    | cons q soft =>
      unfold merge at hp
      refine ih soft _ ?_ p hp
      intro r hr
      split_ifs at hr with c
      · exact h r hr
      · rcases List.mem_cons.mp hr with rfl | hr
        · rfl
        · exact h r hr

theorem find_soft {s : Calc} (hs : s.useHardPeaks = false) {df : List Rat} {ps : List Peak} (h : findPeaks s df = some ps) : ∀ p ∈ ps, p.hard = false := by
  unfold findPeaks hardPeaks at h
  simp only [hs, Bool.false_eq_true, if_false, Option.bind_eq_bind, Option.bind_some] at h
  cases hs : softLoop (smoothDF df) (medianMaxSize s.sampleRate s.increment) (spacing s.sampleRate s.increment) (smoothDF df).length 0
    { win := firstWindow (smoothDF df) (medianMaxSize s.sampleRate s.increment) } with
  | none => rw [hs] at h; cases h
  | some soft =>
    rw [hs] at h
    cases h
    intro p hp
    exact merge_soft _ _ [] (by simp) p (List.mem_reverse.mp hp)

/-- **C52 (partial).**  Without a key-frame map.  Missing: with a map, a soft peak in the chunk of a key
frame is taken for a hard one (`C52_violated`). -/
theorem C52_partial (s : Calc) (hs : s.useHardPeaks = false) {ratio : Rat} {df : List Rat} (hn : df.length ≠ 1) {incs : List Int}
    (h : calculate (setKeyFrameMap s []) ratio df = some incs) : ∀ x ∈ incs, 0 ≤ x := by
  obtain ⟨ps, h1, h2, h3⟩ := C18_partial (setKeyFrameMap s []) hn
  obtain ⟨ps', e1, e2⟩ := calculate_some h
  rw [h1] at e1
  cases e1
  rw [free_points _ rfl] at e2
  have hch := free_chain (outputDuration (setKeyFrameMap s []) ratio df.length) df.length (fun e => by rw [e, outputDuration_zero]) ps 0 h2 h3
    (fun _ _ => Nat.zero_le _) (Nat.zero_le _)
  rw [interpolate_start] at hch
  refine regions_nonneg _ _ 0 0 hch ?_ incs e2
  intro a ha
  obtain ⟨p, hp, rfl⟩ := List.mem_map.mp ha
  exact find_soft (s := setKeyFrameMap s []) hs h1 p hp

/-- The hypotheses are met by a profile through two soft peaks. -/
example : findPeaks (Ex.tens false) Ex.two = some [⟨6, false⟩, ⟨15, false⟩] ∧
    (calculate (setKeyFrameMap (Ex.tens false) []) (3 / 2) Ex.two).isSome := by decide +kernel

/-- **C52 is violated** by a key frame at a soft peak (frame 150, chunk 15). -/
theorem C52_violated : ¬ C52_statement := by
  intro h
  have e : calculate (setKeyFrameMap (Ex.tens false) [(50, 60), (150, 200)]) (3 / 2) Ex.two =
    some [12, 12, 12, 12, 12, 14, 14, 14, 14, 14, 14, 14, 14, 14, 14, -10, 23, 22, 23, 22] := by decide +kernel
  have := h (Ex.tens false) (by decide) (by decide) rfl [(50, 60), (150, 200)] (by simp [Keys]) (3 / 2) (by norm_num) Ex.two _ e (-10) (by simp)
  omega

/-- C53 in full: without a map, the profile asks for a phase reset at exactly the hard peaks. -/
def C53_statement : Prop :=
  ∀ (s : Calc), 0 < s.sampleRate → 0 < s.increment → ∀ (ratio : Rat), 0 < ratio → ∀ df : List Rat,
    ∀ incs, calculate (setKeyFrameMap s []) ratio df = some incs → ∀ ps, findPeaks s df = some ps →
      ∀ i, (∃ x, incs[i]? = some x ∧ x < 0) ↔ ∃ p ∈ ps, p.hard = true ∧ p.chunk = i

/-- **C53 (partial).**  For increments of at least two frames and ratios of at least 1/2 + 3/(2·increment).
Missing: smaller ratios (`C53_violated`). -/
theorem C53_partial (s : Calc) (hinc : 2 ≤ s.increment) {ratio : Rat} (hr : 1 / 2 + 3 / (2 * s.increment) ≤ ratio) {df : List Rat}
    (hn : df.length ≠ 1) {incs : List Int} (h : calculate (setKeyFrameMap s []) ratio df = some incs) {ps : List Peak}
    (hps : findPeaks s df = some ps) (i : Nat) : (∃ x, incs[i]? = some x ∧ x < 0) ↔ ∃ p ∈ ps, p.hard = true ∧ p.chunk = i := by
  have hi : (0 : Rat) < s.increment := by exact_mod_cast (show 0 < s.increment by omega)
  have hr' : (s.increment : Rat) + 3 ≤ 2 * s.increment * ratio := by
    have := mul_le_mul_of_nonneg_left hr (show (0 : Rat) ≤ 2 * s.increment by positivity)
    have e : (2 * (s.increment : Rat)) * (1 / 2 + 3 / (2 * s.increment)) = s.increment + 3 := by field_simp
    linarith
  obtain ⟨ps', e1, _, _, _, e⟩ := free_profile (s := setKeyFrameMap s []) hinc rfl hr' hn h
  rw [set_find, hps] at e1
  cases e1
  exact e i

/-- **C53 is violated** at ratio 1/2: the reset for the peak at chunk 6 comes at chunk 5. -/
theorem C53_violated : ¬ C53_statement := by
  intro h
  obtain ⟨p, hp, _, hc⟩ := (h (Ex.tens true) (by decide) (by decide) (1 / 2) (by norm_num) Ex.close _ close_profile.2 _ close_profile.1 5).mp
    ⟨-10, by simp, by decide⟩
  simp only [List.mem_cons, List.not_mem_nil, or_false] at hp
  rcases hp with rfl | rfl | rfl <;> cases hc

end Verif.StretchCalc
