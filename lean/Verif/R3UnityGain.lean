import Verif.R3UnityOut
/-! # The finer engine at unity, offline: where the gain is one -/
namespace Verif.R3
open Finset (range)

theorem unityHop_value (p : Params) : unityHop p = if p.windowShort then max (2 * unit p) (min (5 * unit p) 512) else max (unit p) (min (4 * unit p) 256) := by
  obtain ⟨_, h2, h3, _, h5, _, _⟩ := sizes_eq p
  obtain ⟨_, _, _, _, u1, u2⟩ := sizes p
  have key : ∀ k : Nat, proposedOuthop p (fun _ => 0) 1 = k → 1 ≤ k → k ≤ p.maxInhop → unityHop p = k := by
    intro k hk k1 k2
    have c1 : (1 : Rat) ≤ k := by exact_mod_cast k1
    have c2 : (k : Rat) ≤ p.maxInhop := by exact_mod_cast k2
    have m1 : ¬ (k : Rat) < (minInhop : Rat) := by unfold minInhop; push_cast; linarith
    have m2 : ¬ (k : Rat) > (p.maxInhop : Rat) := by linarith
    unfold unityHop inhopFor
    simp only [div_one]
    rw [hk]
    simp only [if_neg m1, if_neg m2]
    rw [show ((k : Rat)).floor = (k : Int) from Rat.floor_intCast (k : Int), Int.toNat_natCast]
  have h16 : (16 : Rat) ≤ unit p := by exact_mod_cast u1
  refine key _ ?_ ?_ ?_
  · unfold proposedOuthop
    rw [h2, h3]
    cases p.windowShort
    · simp only [Bool.false_eq_true, if_false]
      norm_num
      split_ifs <;> push_cast at * <;> (try rw [min_def]) <;> (try rw [max_def]) <;> split_ifs <;> first | rfl | linarith | norm_num at *
    · simp only [if_true]
      norm_num
      split_ifs <;> push_cast at * <;> (try rw [min_def]) <;> (try rw [max_def]) <;> split_ifs <;> first | rfl | linarith | norm_num at *
  · split <;> omega
  · rw [h5]; split <;> omega

/-- The rates at which the hops fit the windows. -/
def Even (p : Params) : Prop := (p.windowShort = false ∧ p.rate ≤ 65536) ∨ (p.windowShort = true ∧ 32768 < p.rate)

theorem unit_cases (p : Params) : unit p = 16 ∨ unit p = 32 ∨ unit p = 64 ∨ unit p = 128 ∨ unit p = 256 ∨ unit p = 512 := by
  obtain ⟨_, _, _, _, u1, u2⟩ := sizes p
  obtain ⟨r1, r2⟩ := rate_bounds p
  obtain ⟨⟨a, ha⟩, _, _⟩ := pow2Div_spec (r := p.rate) (d := 512) (by linarith) r2 (by norm_num)
  change unit p = 2 ^ a at ha
  rw [ha] at u1 u2 ⊢
  have l1 : 4 ≤ a := by
    by_contra hx
    have : 2 ^ a ≤ 2 ^ 3 := Nat.pow_le_pow_right (by norm_num) (by omega)
    omega
  have l2 : a ≤ 9 := by
    by_contra hx
    have : 2 ^ 10 ≤ 2 ^ a := Nat.pow_le_pow_right (by norm_num) (by omega)
    omega
  interval_cases a <;> simp

theorem unit_low {p : Params} (h : p.rate ≤ 65536) : unit p ≤ 128 := by
  obtain ⟨r1, r2⟩ := rate_bounds p
  obtain ⟨_, _, a2⟩ := pow2Div_spec (r := p.rate) (d := 512) (by linarith) r2 (by norm_num)
  refine a2 7 ?_
  push_cast
  rw [div_le_iff₀ (by norm_num)]
  linarith

theorem unit_high {p : Params} (h : 32768 < p.rate) : 128 ≤ unit p := by
  obtain ⟨r1, r2⟩ := rate_bounds p
  obtain ⟨_, a1, _⟩ := pow2Div_spec (r := p.rate) (d := 512) (by linarith) r2 (by norm_num)
  have : (64 : Rat) < unit p := by
    refine lt_of_lt_of_le ?_ a1
    rw [lt_div_iff₀ (by norm_num)]
    push_cast
    linarith
  have : 64 < unit p := by exact_mod_cast this
  rcases unit_cases p with h | h | h | h | h | h <;> omega

theorem windows_overlap {p : Params} (h : Even p) : synthesisSize p p.classificationFftSize = p.classificationFftSize ∧ Overlaps (windowPair p) p.classificationFftSize (unityHop p) := by
  obtain ⟨h1, _⟩ := sizes_eq p
  have hv := unityHop_value p
  obtain ⟨f1, f2⟩ := classify_facts p
  rcases h with ⟨hw, hr⟩ | ⟨hw, hr⟩
  · have hu := unit_low hr
    rw [hw, if_neg (by simp)] at hv
    have hn : p.classificationFftSize ≤ 2048 := by omega
    have hs : synthesisSize p p.classificationFftSize = p.classificationFftSize := by
      unfold synthesisSize
      rw [hw, if_neg (by simp), if_neg (by omega)]
    refine ⟨hs, ?_⟩
    have e : windowPair p = Window.pair p.classificationFftSize := by
      funext j
      unfold windowPair analysisWindow synthesisWindow inset Window.pair
      have h' : ¬ (p.classificationFftSize < 1024 ∨ p.classificationFftSize > 2048) := by omega
      simp only [hw, hs, Bool.false_eq_true, if_false, if_neg h', Nat.sub_self, Nat.zero_div, Nat.add_zero]
    rw [e]
    refine pair_overlaps f1 (unityHop_pos p) ?_ (by omega)
    rw [hv, h1]
    rcases unit_cases p with h | h | h | h | h | h <;> rw [h] <;> first | decide | omega
  · have hu := unit_high hr
    rw [hw, if_pos rfl] at hv
    have hs : synthesisSize p p.classificationFftSize = p.classificationFftSize := by
      unfold synthesisSize
      rw [hw, if_pos rfl]
    refine ⟨hs, ?_⟩
    have e : windowPair p = fun i => Window.hann p.classificationFftSize i * Window.hann p.classificationFftSize i := by
      funext j
      unfold windowPair analysisWindow synthesisWindow inset
      rw [hw, hs, if_pos rfl, if_pos rfl, Nat.sub_self, Nat.zero_div, Nat.add_zero]
    rw [e]
    refine hann_overlaps (k := p.classificationFftSize / unityHop p) (unityHop_pos p) ?_ ?_
    · rw [hv, h1]
      rcases unit_cases p with h | h | h | h | h | h <;> rw [h] <;> first | rfl | omega
    · rw [hv, h1]
      rcases unit_cases p with h | h | h | h | h | h <;> rw [h] <;> first | decide | omega

theorem windowScale_pair {p : Params} (h : synthesisSize p p.classificationFftSize = p.classificationFftSize) : windowScale p p.classificationFftSize = ∑ i ∈ range p.classificationFftSize, windowPair p i := by
  unfold windowScale windowPair inset
  rw [h]

/-- The gain is one, once there have been frames enough. -/
theorem unityGain_one {p : Params} (h : Even p) {q : Nat} (hq : p.offset + p.classificationFftSize ≤ q + unityHop p) (hq' : p.offset ≤ q) : unityGain p q = 1 := by
  obtain ⟨hs, ho⟩ := windows_overlap h
  have hin : inset p = 0 := by unfold inset; rw [hs, Nat.sub_self]
  have hd := Nat.div_add_mod q (unityHop p)
  have hmod := Nat.mod_lt q (unityHop_pos p)
  have hlt : q - p.offset < (q / unityHop p + 1) * unityHop p := by
    rw [Nat.add_mul, one_mul, Nat.mul_comm]
    omega
  have := ho.one (pos := q - p.offset) hlt (by omega)
  rw [← this]
  unfold unityGain
  rw [windowScale_pair hs, hin, hs]
  simp only [Nat.add_zero]
  refine Finset.sum_congr rfl fun m _ => ?_
  by_cases hc : m * unityHop p + p.offset ≤ q ∧ q < m * unityHop p + p.offset + p.classificationFftSize
  · rw [if_pos hc, if_pos (by omega)]
  · rw [if_neg hc, if_neg (by omega)]

/-- From half a transform on. -/
theorem unityGain_later {p : Params} (h : Even p) {i : Nat} (hi : p.classificationFftSize ≤ 2 * i) : unityGain p (p.windowSourceSize / 2 + i) = 1 := by
  obtain ⟨h1, _, _, _, _, h6, h7⟩ := sizes_eq p
  have e : p.offset + p.classificationFftSize / 2 ≤ p.windowSourceSize / 2 := by
    unfold Params.offset
    rw [h6, h7, h1]
    split <;> omega
  exact unityGain_one h (by omega) (by omega)

/-- Nothing is lost where nothing is in the top two bins of any frame. -/
theorem unityLoss_zero {p : Params} {x : Nat → ℝ} (h : ∀ m k, p.classificationFftSize / 2 ≤ k + 1 → k ≤ p.classificationFftSize / 2 → FFT.spectrum p.classificationFftSize (frameOf p x m) k = 0) (q : Nat) :
    unityLoss p x q = 0 := by
  unfold unityLoss
  refine Finset.sum_eq_zero fun m _ => ?_
  split
  · rw [top_zero (h m), zero_mul, mul_zero]
  · rfl

end Verif.R3
