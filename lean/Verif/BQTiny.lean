import Verif.BQProps
/-!
# The resampler: property C48 (any positive ratio can be used)
-/
namespace Verif.BQ
open Verif.MathMisc
variable {α : Type}

/-- C48 in full: resampling any input at any positive ratio, from the start, goes well. -/
def C48_statement : Prop :=
  ∀ (α : Type) (cfg : Cfg α) (a : Call α), 0 < cfg.channels → 0 < a.ratio →
    a.outspace * cfg.channels ≤ a.out.length → a.incount * cfg.channels ≤ a.inp.length →
    ∃ res, run cfg init [.call a] = some res

theorem pickLoop_tiny {ratio : Rat} (h0 : 0 < ratio) (h1 : ratio < 1 / 384000) {m : Nat} (hm : m = 192000) :
    ∀ (left k fuel : Nat), k + left = m + 1 → left < fuel → 1 ≤ k →
    pickLoop ratio m fuel ⟨0, 1, 1, k, 0, 1, 1, k - 1⟩ = some (0, 1) := by
  intro left
  induction left with
  | zero =>
    intro k fuel hk hf hk1
    obtain ⟨fuel, rfl⟩ : ∃ f, fuel = f + 1 := ⟨fuel - 1, by omega⟩
    have hk' : k = 192001 := by omega
    subst hk' hm
    have : Farey.turn ⟨0, 1, 1, 192001, 0, 1, 1, 192001 - 1⟩ ratio 192000 = .inl (0, 1) := by
      unfold Farey.turn
      rw [if_neg (by simp)]
      unfold Farey.final
      have : ¬ (|ratio - ((1 : Nat) : Rat) / ((192000 : Nat) : Rat)| < |ratio - ((0 : Nat) : Rat) / ((1 : Nat) : Rat)|) := by
        rw [not_lt, abs_of_pos (by simpa using h0), abs_of_nonpos (by norm_num; linarith)]
        norm_num
        linarith
      rw [if_neg (by simp only [not_and]; intro _; exact this)]
    rw [pickLoop, this]
  | succ left ih =>
    intro k fuel hk hf hk1
    obtain ⟨fuel, rfl⟩ : ∃ f, fuel = f + 1 := ⟨fuel - 1, by omega⟩
    have hmed : Farey.mediant ⟨0, 1, 1, k, 0, 1, 1, k - 1⟩ = 1 / ((1 + k : Nat) : Rat) := by
      simp [Farey.mediant]
    have hkr : (0 : Rat) < ((1 + k : Nat) : Rat) := by exact_mod_cast (by omega : 0 < 1 + k)
    have hkm : ((1 + k : Nat) : Rat) ≤ 192001 := by exact_mod_cast (by omega : 1 + k ≤ 192001)
    have hge : (1 : Rat) / 192001 ≤ 1 / ((1 + k : Nat) : Rat) := one_div_le_one_div_of_le hkr hkm
    have : Farey.turn ⟨0, 1, 1, k, 0, 1, 1, k - 1⟩ ratio m = .inr ⟨0, 1, 1, k + 1, 0, 1, 1, k⟩ := by
      unfold Farey.turn
      rw [if_pos (by simp only; omega), hmed, if_neg, Farey.next, hmed, if_neg]
      · rfl
      · rw [gt_iff_lt, not_lt]; refine le_trans ?_ hge; linarith
      · rw [not_lt, abs_of_nonpos (by linarith), eps]
        linarith
    rw [pickLoop, this]
    exact ih (k + 1) fuel (by omega) (by omega) (by omega)

theorem pick_tiny {ratio : Rat} (h0 : 0 < ratio) (h1 : ratio < 1 / 384000) :
    pickNearestRational ratio 192000 = some (0, 1) := by
  unfold pickNearestRational
  obtain ⟨f, hf⟩ : ∃ f, ratio.ceil.toNat + 2 * 192000 + 2 = f + 1 := ⟨_, rfl⟩
  rw [hf]
  have hmed : Farey.mediant {} = 1 := by simp [Farey.mediant]
  have : Farey.turn {} ratio 192000 = .inr ⟨0, 1, 1, 1, 0, 1, 1, 0⟩ := by
    unfold Farey.turn
    rw [if_pos (by simp), hmed, if_neg, Farey.next, hmed, if_neg]
    · rfl
    · rw [gt_iff_lt, not_lt]; linarith
    · rw [not_lt, abs_of_nonpos (by linarith), eps]
      linarith
  rw [pickLoop, this]
  exact pickLoop_tiny h0 h1 rfl 192000 1 f rfl (by omega) (by omega)

/-- C48 is false of the code: for ratios below 1/384000 the numerator chosen is 0, and the code
divides by it. -/
theorem C48_violated : ¬ C48_statement := by
  intro h
  obtain ⟨res, hres⟩ := h Int (Ex.cfg 1) (Ex.call (Ex.ramp 0 10) 10 20 (1 / 1000000) false) (by decide)
    (by norm_num [Ex.call]) (by decide) (by decide)
  have hp : pickParams (Ex.cfg 1) (1 / 1000000) = fillParams .fastest (1 / 1000000) 0 1 := by
    unfold pickParams
    have : maxDenom (Ex.cfg 1) (1 / 1000000) = 192000 := rfl
    rw [this, pick_tiny (by norm_num) (by norm_num)]
    rfl
  have hs : ∀ t p, stateForRatio (Ex.cfg 1) t (1 / 1000000) p = none := by
    intro t p
    unfold stateForRatio
    rw [hp]
    have : fillParams .fastest (1 / 1000000) 0 1 = some ⟨1 / 1000000, 0, 1, ((1 : Nat) : Rat) / Quality.fastest.cut,
      ((0 : Nat) : Rat) / (((1 : Nat) : Rat) / Quality.fastest.cut)⟩ := rfl
    rw [this]
    simp
  have : resample (Ex.cfg 1) init (Ex.call (Ex.ramp 0 10) 10 20 (1 / 1000000) false).out 20 (Ex.ramp 0 10) 10 (1 / 1000000) false
      = none := by
    unfold resample prepare
    simp only [hs]
    rfl
  simp only [run, Ex.call] at hres this
  rw [this] at hres
  cases hres

/-- **C48 (partial).**  Resampling any input at any ratio of at least 1/40000, from the start,
goes well.  Missing: smaller ratios; below 1/384000 it is false (`C48_violated`). -/
theorem C48_partial {cfg : Cfg α} {a : Call α} (hpos : 0 < cfg.channels) (hr : 1 / 40000 ≤ a.ratio)
    (ho : a.outspace * cfg.channels ≤ a.out.length) (hi : a.incount * cfg.channels ≤ a.inp.length) :
    ∃ res, run cfg init [.call a] = some res := by
  obtain ⟨res, h, _⟩ := C21_bounds (ops := [.call a]) hpos (by
    intro op hop
    simp only [List.mem_cons, List.not_mem_nil, or_false] at hop
    subst hop
    exact ⟨ho, hi, hr⟩)
  exact ⟨res, h⟩

example : (1 : Rat) / 40000 ≤ (Ex.call (Ex.ramp 0 10) 10 20 (1 / 1000) false).ratio := by norm_num [Ex.call]

end Verif.BQ
