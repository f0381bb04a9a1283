import Verif.R3
import Verif.MathMiscProps
import Mathlib.Tactic.Linarith
import Mathlib.Tactic.Ring
/-!
# Sizes and hops of the R3 engine: C30, C43
-/
namespace Verif.R3
open Verif.Round

theorem validRate_bounds (r : Rat) : 8000 ≤ validRate r ∧ validRate r ≤ 192000 := by
  unfold validRate
  split
  · constructor <;> norm_num
  · split
    · constructor <;> norm_num
    · constructor <;> linarith

theorem pow2Div_spec {r : Rat} {d : Nat} (h : 0 < r) (h2 : r ≤ 192000) (hd : 1 ≤ d) :
    MathMisc.IsLeastPowerOfTwo (r / d) (pow2Div r d) := by
  obtain ⟨v, v1, v2⟩ := MathMisc.C11_roundUpDiv r d h hd (by
    have : (1 : Rat) ≤ d := by exact_mod_cast hd
    nlinarith)
  unfold pow2Div
  rw [v1]
  exact v2

/-- Halving the divisor doubles the power of two, unless it is 1 already. -/
theorem pow2Div_half {r : Rat} {d : Nat} (h : 0 < r) (h2 : r ≤ 192000) (hd : 1 ≤ d) (hr : (d : Rat) < r) :
    pow2Div r d = 2 * pow2Div r (2 * d) := by
  obtain ⟨⟨a, ha⟩, a1, a2⟩ := pow2Div_spec h h2 hd
  obtain ⟨⟨b, hb⟩, b1, b2⟩ := pow2Div_spec (d := 2 * d) h h2 (by omega)
  have hd' : (0 : Rat) < d := by exact_mod_cast hd
  have e : r / ((2 * d : Nat) : Rat) = r / d / 2 := by push_cast; field_simp
  rw [e] at b1 b2
  have hq : 1 < r / d := by rw [lt_div_iff₀ hd']; linarith
  have ha0 : 1 ≤ a := by
    rcases Nat.eq_zero_or_pos a with c | c
    · rw [c] at ha
      rw [ha] at a1
      norm_num at a1
      linarith
    · exact c
  have hle : pow2Div r d ≤ 2 ^ (b + 1) := by
    apply a2
    rw [hb] at b1
    push_cast at b1 ⊢
    rw [pow_succ]
    linarith
  have hge : pow2Div r (2 * d) ≤ 2 ^ (a - 1) := by
    apply b2
    rw [ha] at a1
    push_cast at a1 ⊢
    have : (2 : Rat) ^ a = 2 ^ (a - 1) * 2 := by rw [← pow_succ]; congr 1; omega
    linarith
  have : 2 ^ a = 2 ^ (a - 1) * 2 := by rw [← pow_succ]; congr 1; omega
  rw [pow_succ] at hle
  omega

variable (p : Params)

/-- The power of two at or above a 512th of the rate; the other sizes are multiples of it. -/
def unit : Nat := pow2Div p.rate 512

theorem rate_bounds : 8000 ≤ p.rate ∧ p.rate ≤ 192000 := validRate_bounds _

theorem sizes : pow2Div p.rate 256 = 2 * unit p ∧ pow2Div p.rate 128 = 4 * unit p ∧ pow2Div p.rate 64 = 8 * unit p ∧
    pow2Div p.rate 32 = 16 * unit p ∧ 16 ≤ unit p ∧ unit p ≤ 512 := by
  obtain ⟨h1, h2⟩ := rate_bounds p
  have h0 : 0 < p.rate := by linarith
  have e1 := pow2Div_half (d := 256) h0 h2 (by norm_num) (by push_cast; linarith)
  have e2 := pow2Div_half (d := 128) h0 h2 (by norm_num) (by push_cast; linarith)
  have e3 := pow2Div_half (d := 64) h0 h2 (by norm_num) (by push_cast; linarith)
  have e4 := pow2Div_half (d := 32) h0 h2 (by norm_num) (by push_cast; linarith)
  obtain ⟨⟨b, hb⟩, b1, b2⟩ := pow2Div_spec (d := 512) h0 h2 (by norm_num)
  rw [show 2 * 256 = 512 from rfl] at e1
  rw [show 2 * 128 = 256 from rfl] at e2
  rw [show 2 * 64 = 128 from rfl] at e3
  rw [show 2 * 32 = 64 from rfl] at e4
  unfold unit
  have hu : pow2Div p.rate 512 ≤ 2 ^ 9 := by
    apply b2
    push_cast
    rw [div_le_iff₀ (by norm_num)]
    linarith
  have hl : 16 ≤ pow2Div p.rate 512 := by
    by_contra hc
    have h8 : b ≤ 3 := by
      by_contra hb'
      have : 2 ^ 4 ≤ 2 ^ b := Nat.pow_le_pow_right (by norm_num) (by omega)
      omega
    have : 2 ^ b ≤ 2 ^ 3 := Nat.pow_le_pow_right (by norm_num) h8
    have h9 : (pow2Div p.rate 512 : Rat) ≤ 8 := by
      rw [hb]; exact_mod_cast this
    have : p.rate / (512 : Nat) ≤ 8 := b1.trans h9
    rw [div_le_iff₀ (by norm_num)] at this
    push_cast at this
    linarith
  refine ⟨by omega, by omega, by omega, by omega, hl, by omega⟩

/-- All the sizes in terms of the unit. -/
theorem sizes_eq : p.classificationFftSize = max 1024 (16 * unit p) ∧
    p.minPreferredOuthop = (if p.windowShort then 2 * unit p else unit p) ∧
    p.maxPreferredOuthop = (if p.windowShort then 5 * unit p else 4 * unit p) ∧
    p.maxInhopWithReadahead = (if p.windowShort then 4 * unit p else 8 * unit p) ∧
    p.maxInhop = (if p.windowShort then 12 * unit p else 16 * unit p) ∧
    p.longestFftSize = (if p.windowShort then max 1024 (16 * unit p) else 2 * max 1024 (16 * unit p)) ∧
    p.windowSourceSize = (if p.windowShort then max 1024 (16 * unit p) + 4 * unit p else 2 * max 1024 (16 * unit p)) := by
  obtain ⟨h1, h2, h3, h4, h5, h6⟩ := sizes p
  have hc : p.classificationFftSize = max 1024 (16 * unit p) := by
    unfold Params.classificationFftSize
    rw [h4]
    split <;> omega
  have hm : p.maxInhopWithReadahead = (if p.windowShort then 4 * unit p else 8 * unit p) := by
    unfold Params.maxInhopWithReadahead
    split <;> omega
  have hl : p.longestFftSize = (if p.windowShort then max 1024 (16 * unit p) else 2 * max 1024 (16 * unit p)) := by
    unfold Params.longestFftSize
    rw [hc]
    split <;> omega
  refine ⟨hc, ?_, ?_, hm, ?_, hl, ?_⟩
  · unfold Params.minPreferredOuthop
    split
    · exact h1
    · rfl
  · unfold Params.maxPreferredOuthop
    split <;> omega
  · unfold Params.maxInhop
    split <;> omega
  · unfold Params.windowSourceSize
    rw [hc, hm, hl]
    simp only
    split <;> split <;> omega

/-! ## C43 -/

/-- **C43.**  Whatever the sample rate and window option, and for every input hop the engine uses: every frame cut
for analysis lies inside the source window, the frame for the readahead included when there is one. -/
theorem C43_cuts (inhop : Nat) :
    (∀ size ∈ p.scales, (p.longestFftSize - size) / 2 + size ≤ p.windowSourceSize) ∧
      (inhop < p.maxInhopWithReadahead →
        (p.longestFftSize - p.classificationFftSize) / 2 + inhop + p.classificationFftSize ≤ p.windowSourceSize) := by
  obtain ⟨h1, _, _, h4, _, h6, h7⟩ := sizes_eq p
  have hs : p.shortestFftSize = if p.windowShort then max 1024 (16 * unit p) else max 1024 (16 * unit p) / 2 := by
    unfold Params.shortestFftSize
    rw [h1]
  constructor
  · intro size hsize
    unfold Params.scales at hsize
    rw [h1, h6, hs] at hsize
    rw [h6, h7]
    split at hsize
    · rename_i hw
      simp only [hw, if_true, List.mem_singleton] at hsize ⊢
      omega
    · rename_i hw
      simp only [hw, Bool.false_eq_true, if_false, List.mem_cons, List.not_mem_nil, or_false] at hsize ⊢
      omega
  · intro h
    rw [h4] at h
    rw [h1, h6, h7]
    split at h <;> simp_all <;> omega

theorem cutsInside_true {useReadahead : Bool} {inhop : Nat} (h : useReadahead = true → inhop < p.maxInhopWithReadahead) :
    cutsInside p useReadahead inhop = true := by
  obtain ⟨h1, h2⟩ := C43_cuts p inhop
  unfold cutsInside
  rw [Bool.and_eq_true]
  constructor
  · rw [List.all_eq_true]
    intro x hx
    simpa using h1 x hx
  · cases useReadahead with
    | false => rfl
    | true => simpa using h2 (h rfl)

/-- 8000 Hz with a short window: 1024 + 64 samples, readahead hops up to 63. -/
example : let p : Params := { sampleRate := 8000, channels := 1, windowShort := true }
    p.windowSourceSize = 1088 ∧ p.maxInhopWithReadahead = 64 ∧ p.scales = [1024] ∧ p.maxInhop = 192 := by
  decide +kernel

example : let p : Params := { sampleRate := 44100, channels := 1 }
    p.windowSourceSize = 4096 ∧ p.maxInhopWithReadahead = 1024 ∧ p.scales = [4096, 2048, 1024] ∧ p.maxInhop = 2048 := by
  decide +kernel

/-! ## C30 -/

theorem fixRatios_pos (t ps : Dbl) : 0 < (fixRatios t ps).1 ∧ 0 < (fixRatios t ps).2 := by
  have key : ∀ x : Dbl, ¬ (x.nonPos = true) → x.feq x = true → 0 < x.value := by
    intro x h1 h2
    cases x with
    | nan => simp [Dbl.feq] at h2
    | inf n => simp [Dbl.value]
    | fin q => simpa [Dbl.nonPos, Dbl.value] using h1
  unfold fixRatios
  simp only
  have hps : ¬ ((if ps.nonPos then Dbl.fin 1 else ps).nonPos = true) := by
    split
    · simp [Dbl.nonPos]
    · assumption
  have ht : ¬ ((if t.nonPos then Dbl.fin 1 else t).nonPos = true) := by
    split
    · simp [Dbl.nonPos]
    · assumption
  generalize (if ps.nonPos then Dbl.fin 1 else ps) = a at *
  generalize (if t.nonPos then Dbl.fin 1 else t) = b at *
  split
  · constructor <;> norm_num
  · rename_i h
    simp only [Bool.or_eq_true, Bool.not_eq_true', not_or, Bool.not_eq_false] at h
    exact ⟨key _ ht h.1.1.2, key _ hps h.1.1.1⟩

theorem fixRatios_fin {t ps : Rat} (ht : 0 < t) (hps : 0 < ps) : fixRatios (.fin t) (.fin ps) = (t, ps) := by
  unfold fixRatios
  have e : ∀ q : Rat, 0 < q → (Dbl.fin q).nonPos = false := by
    intro q hq; simp [Dbl.nonPos, hq]
  have e2 : ∀ q : Rat, 0 < q → (Dbl.fin q).feq (Dbl.fin q).half = false := by
    intro q hq
    simp only [Dbl.half, Dbl.feq, Dbl.fin.injEq, decide_eq_false_iff_not]
    intro h
    linarith
  have e3 : ∀ q : Rat, (Dbl.fin q).feq (Dbl.fin q) = true := by
    intro q; simp [Dbl.feq]
  simp [e _ ht, e _ hps, e2 _ ht, e2 _ hps, e3, Dbl.value]

theorem inhopFor_bounds (curve : Rat → Rat) (ratio : Rat) : 1 ≤ inhopFor p curve ratio ∧ inhopFor p curve ratio ≤ p.maxInhop := by
  obtain ⟨_, _, _, _, h5, _, _⟩ := sizes_eq p
  obtain ⟨_, _, _, _, hu, _⟩ := sizes p
  have hm : 1 ≤ p.maxInhop := by
    rw [h5]; split <;> omega
  have hm' : (1 : Rat) ≤ p.maxInhop := by exact_mod_cast hm
  unfold inhopFor minInhop
  simp only
  generalize proposedOuthop p curve ratio / ratio = y
  have y1 : 1 ≤ (if y < ((1 : Nat) : Rat) then ((1 : Nat) : Rat) else y) := by
    split
    · norm_num
    · rename_i h
      push_cast at h
      linarith
  generalize (if y < ((1 : Nat) : Rat) then ((1 : Nat) : Rat) else y) = z at *
  have x1 : 1 ≤ (if z > p.maxInhop then (p.maxInhop : Rat) else z) ∧ (if z > p.maxInhop then (p.maxInhop : Rat) else z) ≤ p.maxInhop := by
    split
    · exact ⟨hm', le_refl _⟩
    · exact ⟨y1, by linarith⟩
  generalize (if z > p.maxInhop then (p.maxInhop : Rat) else z) = x at *
  have f1 : 1 ≤ x.floor := Rat.le_floor_iff.mpr (by exact_mod_cast x1.1)
  have f2 : x.floor ≤ p.maxInhop := by
    have : (x.floor : Rat) ≤ ((p.maxInhop : Int) : Rat) := (Rat.floor_le x).trans (by exact_mod_cast x1.2)
    exact_mod_cast this
  omega

theorem proposedOuthop_bounds (curve : Rat → Rat) (ratio : Rat) :
    p.minPreferredOuthop ≤ proposedOuthop p curve ratio ∧ proposedOuthop p curve ratio ≤ p.maxPreferredOuthop := by
  obtain ⟨_, h2, h3, _, _, _, _⟩ := sizes_eq p
  obtain ⟨_, _, _, _, hu, _⟩ := sizes p
  have hm : p.minPreferredOuthop ≤ p.maxPreferredOuthop := by
    rw [h2, h3]; split <;> omega
  have hm' : (p.minPreferredOuthop : Rat) ≤ p.maxPreferredOuthop := by exact_mod_cast hm
  unfold proposedOuthop
  simp only
  generalize (if p.windowShort = true then _ else _ : Rat) = y
  have y1 : (if y > p.maxPreferredOuthop then (p.maxPreferredOuthop : Rat) else y) ≤ p.maxPreferredOuthop := by
    split
    · exact le_refl _
    · linarith
  generalize (if y > p.maxPreferredOuthop then (p.maxPreferredOuthop : Rat) else y) = z at *
  split
  · exact ⟨le_refl _, hm'⟩
  · constructor <;> linarith

/-- The input hop times the ratio, which is the output hop on average, is in the preferred range but for the
rounding of the input hop; unless the ratio is so large or so small that no input hop would do. -/
theorem inhopFor_preferred (curve : Rat → Rat) {ratio : Rat} (h0 : 0 < ratio) (h1 : ratio ≤ p.minPreferredOuthop)
    (h2 : (p.maxPreferredOuthop : Rat) ≤ ratio * p.maxInhop) :
    p.minPreferredOuthop - ratio < inhopFor p curve ratio * ratio ∧ inhopFor p curve ratio * ratio ≤ p.maxPreferredOuthop := by
  obtain ⟨b1, b2⟩ := proposedOuthop_bounds p curve ratio
  unfold inhopFor minInhop
  simp only
  generalize proposedOuthop p curve ratio = y at *
  have e1 : ¬ (y / ratio < ((1 : Nat) : Rat)) := by
    push_cast
    rw [not_lt, le_div_iff₀ h0]
    linarith
  rw [if_neg e1]
  have e2 : ¬ (y / ratio > p.maxInhop) := by
    rw [gt_iff_lt, not_lt, div_le_iff₀ h0]
    linarith
  rw [if_neg e2]
  obtain ⟨g1, g2⟩ := floor_bounds (y / ratio)
  have g0 : 0 ≤ (y / ratio).floor := by
    push_cast at e1
    exact Rat.le_floor_iff.mpr (by push_cast; linarith)
  have hc : (((y / ratio).floor.toNat : Nat) : Rat) = (y / ratio).floor := by
    have : (((y / ratio).floor.toNat : Nat) : Int) = (y / ratio).floor := Int.toNat_of_nonneg g0
    exact_mod_cast this
  rw [hc]
  have hy : y / ratio * ratio = y := by field_simp
  constructor <;> nlinarith

end Verif.R3
