import Verif.R2Sizes
import Verif.MathMiscProps
/-!
# The sizes chosen by the faster engine: C37
-/
namespace Verif.R2
open Verif.Round

/-! ## C37 -/

/-- Sizes the engine can work with, for an effective ratio `r`: the increment is at least one sample, the FFT size is a power of two, and at
least four windows overlap, of the input and (on average) of the output. -/
structure Usable (r : Rat) (z : Sizes) : Prop where
  increment : 1 ≤ z.increment
  power : ∃ k, z.fftSize = 2 ^ k
  longer : z.fftSize ≤ z.window
  input : 4 * z.increment ≤ z.fftSize
  output : 4 * (z.increment * r) ≤ z.fftSize

/-- C37 in full: for every rate from 8000 to 192000, every combination of options, every expected duration and whatever ratios and pitch scales
are passed, so long as the effective ratio is within 2^20 either way. -/
def C37_statement : Prop :=
  ∀ (p : Params) (duration : Nat) (t s : R3.Dbl), 8000 ≤ p.rate → p.rate ≤ 192000 →
    1 / 2 ^ 20 ≤ (R3.fixRatios t s).1 * (R3.fixRatios t s).2 → (R3.fixRatios t s).1 * (R3.fixRatios t s).2 ≤ 2 ^ 20 →
    ∃ z, calculateSizes p duration t s = some z ∧ Usable (z.timeRatio * z.pitchScale) z

/-- A real-time stretcher with short windows at 8000 Hz. -/
def Ex.low : Params := { rate := 8000, realTime := true, windowShort := true }

/-- C37 is false of the code: in real time with short windows at 8000 Hz (as at 11025 and 12000), when the pitch is
raised, `div` is 256 / 512 and the program divides by zero. -/
theorem C37_violated : ¬ C37_statement := by
  intro h
  obtain ⟨z, hz, _⟩ := h Ex.low 0 (.fin 1) (.fin (3 / 2)) (by decide) (by decide) (by decide +kernel) (by decide +kernel)
  have : calculateSizes Ex.low 0 (.fin 1) (.fin (3 / 2)) = none := by decide +kernel
  rw [this] at hz
  cases hz

/-! ### Conversions -/

theorem toInt_spec {x : Rat} (h0 : 0 ≤ x) (h1 : x < 2 ^ 31) : ∃ n : Nat, toInt x = some n ∧ (n : Rat) ≤ x ∧ x < n + 1 := by
  obtain ⟨f1, f2⟩ := floor_bounds x
  have hf : 0 ≤ x.floor := Rat.le_floor_iff.mpr (by exact_mod_cast h0)
  have e : ((x.floor.toNat : Nat) : Rat) = (x.floor : Rat) := by
    have : ((x.floor.toNat : Nat) : Int) = x.floor := by omega
    exact_mod_cast this
  refine ⟨x.floor.toNat, ?_, ?_, ?_⟩
  · unfold toInt; rw [if_pos h1]
  · rw [e]; exact f1
  · rw [e]; exact f2

theorem roundUpInt_spec {n : Int} (h1 : 1 ≤ n) (h2 : n < 2 ^ 63) : ∃ k, roundUpInt n = some (2 ^ k) ∧ n ≤ ((2 ^ k : Nat) : Int) ∧
    ∀ j : Nat, n ≤ ((2 ^ j : Nat) : Int) → 2 ^ k ≤ 2 ^ j := by
  obtain ⟨k, a1, a2, a3⟩ := MathMisc.roundUp_spec (n := n.toNat) (by omega) (by omega)
  refine ⟨k, ?_, by omega, fun j hj => a3 j (by omega)⟩
  unfold roundUpInt
  rw [if_pos h2, a1]

theorem ceil_spec {x : Rat} (h : 0 < x) : (lrint x.ceil) = x.ceil ∧ 1 ≤ x.ceil ∧ x ≤ x.ceil ∧ (x.ceil : Rat) < x + 1 := by
  refine ⟨lrint_int _, ?_, Rat.le_ceil, Rat.ceil_lt⟩
  have : 0 < x.ceil := Rat.lt_ceil_iff.mpr (by exact_mod_cast h)
  omega

/-- What the base size can be. -/
theorem base_spec {p : Params} (h1 : 8000 ≤ p.rate) (h2 : p.rate ≤ 192000) :
    ∃ k, baseFftSize p = some (2 ^ k) ∧ 8 ≤ k ∧ k ≤ 14 ∧ (9 ≤ k ∨ p.windowShort = true ∧ p.rate < 12024) := by
  have r1 : (8000 : Rat) ≤ p.rate := by exact_mod_cast h1
  have r2 : (p.rate : Rat) ≤ 192000 := by exact_mod_cast h2
  obtain ⟨f1, f2⟩ := floor_bounds (2048 * ((p.rate : Rat) / 48000))
  generalize hf : (2048 * ((p.rate : Rat) / 48000)).floor = f at f1 f2
  have b1 : 341 ≤ f := by
    have : (340 : Rat) < f := by linarith
    have : 340 < f := by exact_mod_cast this
    omega
  have b2 : f ≤ 8192 := by
    have : (f : Rat) ≤ 8192 := by linarith
    exact_mod_cast this
  obtain ⟨k, a1, a2, a3⟩ := MathMisc.roundUp_spec (n := f.toNat) (by omega) (by omega)
  have k1 : 9 ≤ k := by
    by_contra hc
    have : 2 ^ k ≤ 2 ^ 8 := Nat.pow_le_pow_right (by decide) (by omega)
    omega
  have k2 : k ≤ 13 := by
    by_contra hc
    have h := a3 13 (by omega)
    have : 2 ^ 14 ≤ 2 ^ k := Nat.pow_le_pow_right (by decide) (by omega)
    omega
  unfold baseFftSize
  rw [hf, a1]
  simp only [Option.bind_eq_bind, Option.bind_some]
  by_cases e : p.windowShort = p.windowLong
  · rw [if_pos e]
    exact ⟨k, rfl, by omega, by omega, Or.inl k1⟩
  rw [if_neg e]
  cases hs : p.windowShort with
  | true =>
    obtain ⟨j, rfl⟩ : ∃ j, k = j + 1 := ⟨k - 1, by omega⟩
    refine ⟨j, ?_, by omega, by omega, ?_⟩
    · rw [if_pos rfl]
      congr 1
      rw [Nat.pow_succ]; omega
    · by_cases hj : 9 ≤ j
      · exact Or.inl hj
      · right
        refine ⟨rfl, ?_⟩
        by_contra hc
        have : (12024 : Rat) ≤ p.rate := by exact_mod_cast (by omega : 12024 ≤ p.rate)
        have : (512 : Rat) < f := by linarith
        have : 512 < f := by exact_mod_cast this
        have : 2 ^ (j + 1) ≤ 2 ^ 9 := Nat.pow_le_pow_right (by decide) (by omega)
        omega
  | false =>
    refine ⟨k + 1, ?_, by omega, by omega, Or.inl (by omega)⟩
    rw [if_neg (by decide), Nat.pow_succ]
    rfl

/-! ### The loops -/

theorem halve_spec {limit r : Rat} (h1 : 1 ≤ r) : ∀ (fuel out inc : Nat), out < fuel → out < 2 ^ 31 → 1 ≤ out →
    (inc : Rat) * r ≤ out → (out : Rat) < (inc + 1) * r →
    ∃ o i : Nat, halve limit r fuel out inc = some (o, i) ∧ 1 ≤ o ∧ o ≤ out ∧ (i : Rat) * r ≤ o ∧ (o : Rat) < (i + 1) * r := by
  intro fuel
  induction fuel with
  | zero => intro out inc h; omega
  | succ fuel ih =>
    intro out inc hf hb ho hi hi'
    unfold halve
    split
    · rename_i hc
      have h2 : (2 : Rat) ≤ inc := by exact_mod_cast hc.2
      have h3 : (2 : Rat) ≤ out := by nlinarith
      have h4 : 2 ≤ out := by exact_mod_cast h3
      have hr : 0 < r := by linarith
      obtain ⟨n, b1, b2, b3⟩ := toInt_spec (x := ((out / 2 : Nat) : Rat) / r) (by positivity) (by
        rw [div_lt_iff₀ hr]
        have : ((out / 2 : Nat) : Rat) < 2 ^ 31 := by exact_mod_cast (by omega : out / 2 < 2 ^ 31)
        nlinarith)
      rw [le_div_iff₀ hr] at b2
      rw [div_lt_iff₀ hr] at b3
      rw [b1]
      simp only [Option.bind_eq_bind, Option.bind_some]
      obtain ⟨o, i, c1, c2, c3, c4, c5⟩ := ih (out / 2) n (by omega) (by omega) (by omega) b2 b3
      exact ⟨o, i, c1, c2, by omega, c4, c5⟩
    · exact ⟨out, inc, rfl, ho, by omega, hi, hi'⟩

theorem double_spec {r : Rat} (h1 : 1 ≤ r) (h2 : r ≤ 2 ^ 20) : ∀ (fuel out inc : Nat), r ≤ out + fuel → out < 2 ^ 22 → 1 ≤ out →
    (inc : Rat) * r ≤ out → (out : Rat) < (inc + 1) * r →
    ∃ o i : Nat, double r (fuel + 1) out inc = some (o, i) ∧ 1 ≤ i ∧ (i : Rat) * r ≤ o ∧ o < 2 ^ 22 := by
  have hr : 0 < r := by linarith
  intro fuel
  induction fuel with
  | zero =>
    intro out inc hf hb ho hi hi'
    unfold double
    split
    · rename_i hc
      have h0 : inc = 0 := by omega
      subst h0
      simp only [Nat.cast_zero, zero_add, one_mul, add_zero] at hi' hf
      linarith
    · exact ⟨out, inc, rfl, by omega, hi, hb⟩
  | succ fuel ih =>
    intro out inc hf hb ho hi hi'
    unfold double
    split
    · rename_i hc
      have h0 : inc = 0 := by omega
      subst h0
      have hlt : (out : Rat) < r := by simpa using hi'
      have hlt' : (out : Rat) < 2 ^ 20 := by linarith
      have ho' : out < 2 ^ 20 := by exact_mod_cast hlt'
      obtain ⟨n, b1, b2, b3⟩ := toInt_spec (x := ((out * 2 : Nat) : Rat) / r) (by positivity) (by
        rw [div_lt_iff₀ hr]
        have : ((out * 2 : Nat) : Rat) < 2 ^ 31 := by exact_mod_cast (by omega : out * 2 < 2 ^ 31)
        nlinarith)
      rw [le_div_iff₀ hr] at b2
      rw [div_lt_iff₀ hr] at b3
      rw [b1]
      simp only [Option.bind_eq_bind, Option.bind_some]
      refine ih (out * 2) n ?_ (by omega) (by omega) b2 b3
      push_cast at hf ⊢
      have : (1 : Rat) ≤ out := by exact_mod_cast ho
      linarith
    · exact ⟨out, inc, rfl, by omega, hi, hb⟩

theorem increments_spec {limit r : Rat} (h1 : 1 ≤ r) (h2 : r ≤ 2 ^ 20) {out : Nat} (ho : 1 ≤ out) (hb : out < 2 ^ 22) :
    ∃ o i : Nat, increments limit r out = some (o, i) ∧ 1 ≤ i ∧ (i : Rat) * r ≤ o ∧ o < 2 ^ 22 := by
  have hr : 0 < r := by linarith
  obtain ⟨n, b1, b2, b3⟩ := toInt_spec (x := (out : Rat) / r) (by positivity) (by
    rw [div_lt_iff₀ hr]
    have : (out : Rat) < 2 ^ 31 := by exact_mod_cast (by omega : out < 2 ^ 31)
    nlinarith)
  rw [le_div_iff₀ hr] at b2
  rw [div_lt_iff₀ hr] at b3
  obtain ⟨o, i, c1, c2, c3, c4, c5⟩ := halve_spec (limit := limit) h1 (out + 1) out n (by omega) (by omega) ho b2 b3
  obtain ⟨o', i', d1, d2, d3, d4⟩ := double_spec h1 h2 r.ceil.toNat o i (by
    have e : r ≤ ((r.ceil.toNat : Nat) : Rat) := by
      have a : r ≤ r.ceil := Rat.le_ceil
      have : r.ceil ≤ ((r.ceil.toNat : Nat) : Int) := by omega
      have : (r.ceil : Rat) ≤ ((r.ceil.toNat : Nat) : Rat) := by exact_mod_cast this
      linarith
    have : (0 : Rat) ≤ o := by positivity
    linarith) (by omega) c2 c4 c5
  refine ⟨o', i', ?_, d2, d3, d4⟩
  unfold increments
  simp only [b1, c1, Option.bind_eq_bind, Option.bind_some]
  exact d1

theorem below512_spec : ∀ (fuel inc : Nat), inc < fuel → 1 ≤ inc → ∃ i, below512 fuel inc = some i ∧ 1 ≤ i ∧ i ≤ inc ∧ i < 512 := by
  intro fuel
  induction fuel with
  | zero => intro inc h; omega
  | succ fuel ih =>
    intro inc hf hi
    unfold below512
    split
    · obtain ⟨i, a1, a2, a3, a4⟩ := ih (inc / 2) (by omega) (by omega)
      exact ⟨i, a1, a2, by omega, a4⟩
    · exact ⟨inc, rfl, hi, by omega, by omega⟩

theorem upTo8192_spec : ∀ (fuel k : Nat), 8192 ≤ 2 ^ k + fuel → ∃ j, upTo8192 (fuel + 1) (2 ^ k) = some (2 ^ j) ∧ 2 ^ k ≤ 2 ^ j := by
  intro fuel
  induction fuel with
  | zero =>
    intro k hf
    unfold upTo8192
    rw [if_neg (by omega)]
    exact ⟨k, rfl, Nat.le_refl _⟩
  | succ fuel ih =>
    intro k hf
    unfold upTo8192
    split
    · have hp : 1 ≤ 2 ^ k := Nat.one_le_two_pow
      obtain ⟨j, a1, a2⟩ := ih (k + 1) (by rw [Nat.pow_succ]; omega)
      rw [Nat.pow_succ] at a1 a2
      exact ⟨j, a1, by omega⟩
    · exact ⟨k, rfl, Nat.le_refl _⟩

theorem forDuration_spec (duration : Nat) : ∀ (fuel inc : Nat), inc < fuel → 1 ≤ inc →
    ∃ i, forDuration duration fuel inc = some i ∧ 1 ≤ i ∧ i ≤ inc := by
  intro fuel
  induction fuel with
  | zero => intro inc h; omega
  | succ fuel ih =>
    intro inc hf hi
    unfold forDuration
    split
    · obtain ⟨i, a1, a2, a3⟩ := ih (inc / 2) (by omega) (by omega)
      exact ⟨i, a1, a2, by omega⟩
    · exact ⟨inc, rfl, hi, by omega⟩

/-- Local variables that give usable sizes. -/
structure Fit (r : Rat) (l : Local) : Prop where
  inc : 1 ≤ l.inc
  power : ∃ k, l.window = 2 ^ k
  input : 4 * l.inc ≤ l.window
  output : 4 * (l.inc * r) ≤ l.window

theorem lengthen_spec {base : Nat} {w r : Rat} (hw : 4 ≤ w) (hw' : w ≤ 6) (h1 : 1 / 2 ^ 20 ≤ r) (h2 : r < 1) : ∀ (fuel : Nat) (l : Local),
    64 ≤ l.out + fuel → 1 ≤ l.out → Fit r l → ∃ l', lengthen base w r (fuel + 1) l = some l' ∧ Fit r l' := by
  have hr : 0 < r := lt_of_lt_of_le (by norm_num) h1
  intro fuel
  induction fuel with
  | zero =>
    intro l hf ho hl
    unfold lengthen
    rw [if_neg (by omega)]
    exact ⟨l, rfl, hl⟩
  | succ fuel ih =>
    intro l hf ho hl
    unfold lengthen
    split
    · rename_i hc
      have o1 : (1 : Rat) ≤ l.out := by exact_mod_cast ho
      have o2 : (l.out : Rat) ≤ 63 := by exact_mod_cast (by omega : l.out ≤ 63)
      have hx : (0 : Rat) < ((l.out * 2 : Nat) : Rat) / r := by
        push_cast; positivity
      obtain ⟨c1, c2, c3, c4⟩ := ceil_spec hx
      rw [c1]
      generalize (((l.out * 2 : Nat) : Rat) / r).ceil = n at c2 c3 c4
      have hxb : ((l.out * 2 : Nat) : Rat) / r ≤ 126 * 2 ^ 20 := by
        rw [div_le_iff₀ hr]
        push_cast
        nlinarith
      have e : ((n.toNat : Nat) : Rat) = n := by
        have : ((n.toNat : Nat) : Int) = n := by omega
        exact_mod_cast this
      have hy : (0 : Rat) < ((n.toNat : Nat) : Rat) * w := by
        rw [e]
        have : (1 : Rat) ≤ n := by exact_mod_cast c2
        positivity
      have hyb : ((n.toNat : Nat) : Rat) * w ≤ 2 ^ 32 := by
        rw [e]
        have h0 : (n : Rat) ≤ 126 * 2 ^ 20 + 1 := by linarith
        have h3 : (0 : Rat) ≤ n := by
          have : (1 : Rat) ≤ n := by exact_mod_cast c2
          linarith
        calc (n : Rat) * w ≤ (126 * 2 ^ 20 + 1) * 6 := by
              apply mul_le_mul h0 hw' (by linarith) (by norm_num)
          _ ≤ 2 ^ 32 := by norm_num
      obtain ⟨d1, d2, d3, d4⟩ := ceil_spec hy
      simp only [d1]
      generalize (((n.toNat : Nat) : Rat) * w).ceil = m at d2 d3 d4
      have hm : m < 2 ^ 63 := by
        have : (m : Rat) < 2 ^ 63 := by linarith
        exact_mod_cast this
      obtain ⟨k, g1, g2, _⟩ := roundUpInt_spec d2 hm
      rw [g1]
      simp only [Option.bind_eq_bind, Option.bind_some]
      have g2' : (m : Rat) ≤ ((2 ^ k : Nat) : Rat) := by exact_mod_cast g2
      have hin : 4 * ((n.toNat : Nat) : Rat) ≤ ((2 ^ k : Nat) : Rat) := by
        have : (0 : Rat) ≤ ((n.toNat : Nat) : Rat) := by positivity
        nlinarith
      refine ih ⟨n.toNat, l.out * 2, 2 ^ k⟩ ?_ ?_ ⟨?_, ⟨k, rfl⟩, ?_, ?_⟩
      · show 64 ≤ l.out * 2 + fuel
        omega
      · show 1 ≤ l.out * 2
        omega
      · show 1 ≤ n.toNat
        omega
      · show 4 * n.toNat ≤ 2 ^ k
        exact_mod_cast hin
      · show 4 * (((n.toNat : Nat) : Rat) * r) ≤ ((2 ^ k : Nat) : Rat)
        have : (0 : Rat) ≤ ((n.toNat : Nat) : Rat) := by positivity
        nlinarith
    · exact ⟨l, rfl, hl⟩

/-! ### The four cases -/

theorem squashRT_spec {p : Params} {k : Nat} (k1 : 8 ≤ k) (k2 : k ≤ 14) (s : Rat) {r : Rat} (h1 : 1 / 2 ^ 20 ≤ r) (h2 : r < 1) :
    ∃ l, squashRT p (2 ^ k) s r = some l ∧ Fit r l := by
  have hr : 0 < r := lt_of_lt_of_le (by norm_num) h1
  unfold squashRT
  have hw : ∀ c : Bool, 4 ≤ (if c = true then 9 / 2 else 6 : Rat) ∧ (if c = true then 9 / 2 else 6 : Rat) ≤ 6 := by
    intro c; cases c <;> norm_num
  generalize (decide (s < 1) && !resampleBefore p s) = c
  obtain ⟨w1, w2⟩ := hw c
  generalize (if c = true then 9 / 2 else 6 : Rat) = w at w1 w2
  have b1 : 2 ^ 8 ≤ 2 ^ k := Nat.pow_le_pow_right (by decide) k1
  have b2 : 2 ^ k ≤ 2 ^ 14 := Nat.pow_le_pow_right (by decide) k2
  have b1' : (256 : Rat) ≤ ((2 ^ k : Nat) : Rat) := by exact_mod_cast b1
  have b2' : ((2 ^ k : Nat) : Rat) ≤ 16384 := by exact_mod_cast b2
  have hwp : 0 < w := by linarith
  obtain ⟨n, c1, c2, c3⟩ := toInt_spec (x := ((2 ^ k : Nat) : Rat) / w) (by positivity) (by
    rw [div_lt_iff₀ hwp]; nlinarith)
  rw [le_div_iff₀ hwp] at c2
  rw [div_lt_iff₀ hwp] at c3
  have n1 : 1 ≤ n := by
    by_contra hc
    have : n = 0 := by omega
    subst this
    simp only [Nat.cast_zero, zero_add, one_mul] at c3
    linarith
  have n1' : (1 : Rat) ≤ n := by exact_mod_cast n1
  have n2' : (n : Rat) ≤ 4096 := by nlinarith
  have hf0 : (0 : Rat) ≤ (((n : Rat) * r).floor : Rat) := by
    have : 0 ≤ ((n : Rat) * r).floor := Rat.le_floor_iff.mpr (by push_cast; positivity)
    exact_mod_cast this
  obtain ⟨m, d1, d2, d3⟩ := toInt_spec (x := (((n : Rat) * r).floor : Rat)) hf0 (by
    have := Rat.floor_le ((n : Rat) * r)
    nlinarith)
  simp only [c1, d1, Option.bind_eq_bind, Option.bind_some]
  have hin : 4 * (n : Rat) ≤ ((2 ^ k : Nat) : Rat) := by nlinarith
  refine lengthen_spec w1 w2 h1 h2 63 ⟨n, if m < 64 ∧ m < 1 then 1 else m, 2 ^ k⟩ ?_ ?_ ⟨n1, ⟨k, rfl⟩, ?_, ?_⟩
  · show 64 ≤ (if m < 64 ∧ m < 1 then 1 else m) + 63
    split <;> omega
  · show 1 ≤ (if m < 64 ∧ m < 1 then 1 else m)
    split <;> omega
  · exact_mod_cast hin
  · show 4 * ((n : Rat) * r) ≤ ((2 ^ k : Nat) : Rat)
    nlinarith

theorem scaled {r i d a w : Rat} (hr : 1 ≤ r) (hd : 0 < d) (hi : i * d ≤ a) (ha : 4 * (a * r) ≤ w * d) : 4 * (i * r) ≤ w := by
  refine le_of_mul_le_mul_right ?_ hd
  have := mul_le_mul_of_nonneg_right hi (by linarith : (0 : Rat) ≤ r)
  linarith

theorem reduce_spec {s r : Rat} (hs : 1 < s) (hr : 1 ≤ r) {l : Local} (hl : Fit r l) (h512 : 512 ≤ l.window) (hb : l.window < 2 ^ 60) :
    ∃ l', reduce s l = some l' ∧ Fit r l' := by
  obtain ⟨k, hk⟩ := hl.power
  have hw0 : (0 : Rat) ≤ (l.window : Rat) / s := by positivity
  have hle : lrint ((l.window : Rat) / s) ≤ l.window := by
    have : (l.window : Rat) / s ≤ ((l.window : Int) : Rat) := by
      rw [div_le_iff₀ (by linarith)]
      have : (0 : Rat) ≤ l.window := by positivity
      push_cast
      nlinarith
    have := lrint_mono this
    rwa [lrint_int] at this
  have h0 := lrint_nonneg hw0
  generalize hn : lrint ((l.window : Rat) / s) = n at hle h0
  have key : ∃ new : Nat, roundUpInt n = some new ∧ (new = 0 ∨ ∃ j, new = 2 ^ j ∧ j ≤ k) := by
    by_cases h : n = 0
    · subst h
      exact ⟨0, by decide, Or.inl rfl⟩
    · obtain ⟨j, a1, _, a3⟩ := roundUpInt_spec (n := n) (by omega) (by omega)
      refine ⟨2 ^ j, a1, Or.inr ⟨j, rfl, ?_⟩⟩
      have := a3 k (by rw [← hk]; exact hle)
      exact (Nat.pow_le_pow_iff_right (by decide)).mp this
  obtain ⟨new, a1, a2⟩ := key
  have hk9 : 9 ≤ k := by
    by_contra hc
    have : 2 ^ k ≤ 2 ^ 8 := Nat.pow_le_pow_right (by decide) (by omega)
    omega
  have key2 : ∃ j, (if new < 512 then 512 else new) = 2 ^ j ∧ j ≤ k := by
    split
    · exact ⟨9, rfl, hk9⟩
    · rcases a2 with h | ⟨j, h, hj⟩
      · omega
      · exact ⟨j, h, hj⟩
  obtain ⟨j, c1, c2⟩ := key2
  unfold reduce
  rw [hn, a1]
  simp only [Option.bind_eq_bind, Option.bind_some]
  rw [c1]
  have hdiv : l.window / 2 ^ j = 2 ^ (k - j) := by rw [hk, Nat.pow_div c2 (by decide)]
  rw [hdiv]
  have hpos : 0 < 2 ^ (k - j) := Nat.pos_of_ne_zero (by positivity)
  split
  · rename_i hc
    rw [if_neg (by omega)]
    have hmul : l.window = 2 ^ j * 2 ^ (k - j) := by rw [hk, ← Nat.pow_add]; congr 1; omega
    have hw' : l.window / 2 ^ (k - j) = 2 ^ j := by rw [hmul, Nat.mul_div_cancel _ hpos]
    have hi : 4 * (l.inc / 2 ^ (k - j)) * 2 ^ (k - j) ≤ 4 * l.inc := by
      rw [Nat.mul_assoc]
      exact Nat.mul_le_mul_left _ (Nat.div_mul_le_self _ _)
    have hin := hl.input
    have hout := hl.output
    refine ⟨_, rfl, ⟨?_, ⟨j, hw'⟩, ?_, ?_⟩⟩
    · show 1 ≤ l.inc / 2 ^ (k - j)
      exact (Nat.one_le_div_iff hpos).mpr (by omega)
    · show 4 * (l.inc / 2 ^ (k - j)) ≤ l.window / 2 ^ (k - j)
      exact (Nat.le_div_iff_mul_le hpos).mpr (by omega)
    · show 4 * (((l.inc / 2 ^ (k - j) : Nat) : Rat) * r) ≤ ((l.window / 2 ^ (k - j) : Nat) : Rat)
      rw [hw']
      rw [hmul] at hout
      have hi' : ((l.inc / 2 ^ (k - j) : Nat) : Rat) * ((2 ^ (k - j) : Nat) : Rat) ≤ l.inc := by
        exact_mod_cast Nat.div_mul_le_self l.inc (2 ^ (k - j))
      have hp' : (0 : Rat) < ((2 ^ (k - j) : Nat) : Rat) := by exact_mod_cast hpos
      have e : (((2 ^ j * 2 ^ (k - j) : Nat)) : Rat) = ((2 ^ j : Nat) : Rat) * ((2 ^ (k - j) : Nat) : Rat) := by push_cast; ring
      rw [e] at hout
      exact scaled hr hp' hi' hout
  · exact ⟨l, rfl, hl⟩

theorem stretchRT_spec {p : Params} {k : Nat} (k1 : 8 ≤ k) (k2 : k ≤ 14) {s r : Rat} (h1 : 1 ≤ r) (h2 : r ≤ 2 ^ 20)
    (hok : 9 ≤ k ∨ ¬ (1 < s ∧ resampleBefore p s = true)) : ∃ l, stretchRT p (2 ^ k) s r = some l ∧ Fit r l := by
  unfold stretchRT
  simp only
  have hw : ∀ c : Bool, 4 ≤ (if r = 1 then 4 else if c = true then 9 / 2 else 8 : Rat) ∧ (if r = 1 then 4 else if c = true then 9 / 2 else 8 : Rat) ≤ 8 := by
    intro c; split
    · norm_num
    · cases c <;> norm_num
  have hrsb : (decide (s > 1) && resampleBefore p s) = true → 1 < s ∧ resampleBefore p s = true := by
    intro h; simpa using h
  generalize (decide (s > 1) && resampleBefore p s) = c at hrsb
  obtain ⟨w1, w2⟩ := hw c
  generalize (if r = 1 then 4 else if c = true then 9 / 2 else 8 : Rat) = w at w1 w2
  have b1 : 2 ^ 8 ≤ 2 ^ k := Nat.pow_le_pow_right (by decide) k1
  have b2 : 2 ^ k ≤ 2 ^ 14 := Nat.pow_le_pow_right (by decide) k2
  have b1' : (256 : Rat) ≤ ((2 ^ k : Nat) : Rat) := by exact_mod_cast b1
  have b2' : ((2 ^ k : Nat) : Rat) ≤ 16384 := by exact_mod_cast b2
  have hwp : 0 < w := by linarith
  obtain ⟨n, c1, c2, c3⟩ := toInt_spec (x := ((2 ^ k : Nat) : Rat) / w) (by positivity) (by
    rw [div_lt_iff₀ hwp]; nlinarith)
  rw [le_div_iff₀ hwp] at c2
  rw [div_lt_iff₀ hwp] at c3
  have n1 : 1 ≤ n := by
    by_contra hc
    have : n = 0 := by omega
    subst this
    simp only [Nat.cast_zero, zero_add, one_mul] at c3
    linarith
  have n2 : n ≤ 4096 := by
    have : (n : Rat) ≤ 4096 := by
      have : (0 : Rat) ≤ n := by positivity
      nlinarith
    exact_mod_cast this
  obtain ⟨o, i, d1, d2, d3, d4⟩ := increments_spec (limit := 1024 * ((p.rate : Rat) / 48000)) h1 h2 n1 (by omega)
  have i1 : (1 : Rat) ≤ i := by exact_mod_cast d2
  have io : (i : Rat) ≤ o := by nlinarith
  have o1 : 1 ≤ o := by
    have : i ≤ o := by exact_mod_cast io
    omega
  have o1' : (1 : Rat) ≤ o := by exact_mod_cast o1
  have o2' : (o : Rat) < 2 ^ 22 := by exact_mod_cast d4
  have m1 : 4 * (o : Int) ≤ lrint ((o : Rat) * w) := by
    have : ((4 * (o : Int) : Int) : Rat) ≤ (o : Rat) * w := by push_cast; nlinarith
    have := lrint_mono this
    rwa [lrint_int] at this
  have m2 : lrint ((o : Rat) * w) ≤ 2 ^ 25 := by
    have : (o : Rat) * w ≤ ((2 ^ 25 : Int) : Rat) := by push_cast; nlinarith
    have := lrint_mono this
    rwa [lrint_int] at this
  obtain ⟨j, g1, g2, g3⟩ := roundUpInt_spec (n := lrint ((o : Rat) * w)) (by omega) (by omega)
  have j2 := g3 25 (by omega)
  simp only [c1, d1, g1, Option.bind_eq_bind, Option.bind_some]
  have hfit : Fit r ⟨i, o, if 2 ^ k < 2 ^ j then 2 ^ j else 2 ^ k⟩ := by
    have hge : 4 * o ≤ (if 2 ^ k < 2 ^ j then 2 ^ j else 2 ^ k) := by
      split <;> omega
    have hge' : 4 * (o : Rat) ≤ (((if 2 ^ k < 2 ^ j then 2 ^ j else 2 ^ k) : Nat) : Rat) := by exact_mod_cast hge
    refine ⟨d2, ?_, ?_, ?_⟩
    · show ∃ k', (if 2 ^ k < 2 ^ j then 2 ^ j else 2 ^ k) = 2 ^ k'
      split
      · exact ⟨j, rfl⟩
      · exact ⟨k, rfl⟩
    · show 4 * i ≤ (if 2 ^ k < 2 ^ j then 2 ^ j else 2 ^ k)
      have : i ≤ o := by exact_mod_cast io
      omega
    · show 4 * ((i : Rat) * r) ≤ (((if 2 ^ k < 2 ^ j then 2 ^ j else 2 ^ k) : Nat) : Rat)
      linarith
  cases c with
  | false =>
    rw [if_neg (by decide)]
    exact ⟨_, rfl, hfit⟩
  | true =>
    rw [if_pos rfl]
    obtain ⟨s1, s2⟩ := hrsb rfl
    have k9 : 9 ≤ k := by
      rcases hok with h | h
      · exact h
      · exact absurd ⟨s1, s2⟩ h
    have b9 : 2 ^ 9 ≤ 2 ^ k := Nat.pow_le_pow_right (by decide) k9
    refine reduce_spec s1 h1 hfit ?_ ?_
    · show 512 ≤ (if 2 ^ k < 2 ^ j then 2 ^ j else 2 ^ k)
      split <;> omega
    · show (if 2 ^ k < 2 ^ j then 2 ^ j else 2 ^ k) < 2 ^ 60
      split <;> omega

theorem squashOffline_spec {k : Nat} (k1 : 8 ≤ k) {r : Rat} (h1 : 1 / 2 ^ 20 ≤ r) (h2 : r < 1) :
    ∃ l, squashOffline (2 ^ k) r = some l ∧ Fit r l := by
  have hr : 0 < r := lt_of_lt_of_le (by norm_num) h1
  have b1 : 2 ^ 8 ≤ 2 ^ k := Nat.pow_le_pow_right (by decide) k1
  obtain ⟨i, a1, a2, a3, a4⟩ := below512_spec (2 ^ k + 1) (2 ^ k / 4) (by omega) (by omega)
  have i1 : (1 : Rat) ≤ i := by exact_mod_cast a2
  have i2 : (i : Rat) < 512 := by exact_mod_cast a4
  have hf0 : (0 : Rat) ≤ (((i : Rat) * r).floor : Rat) := by
    have : 0 ≤ ((i : Rat) * r).floor := Rat.le_floor_iff.mpr (by push_cast; positivity)
    exact_mod_cast this
  obtain ⟨m, d1, d2, d3⟩ := toInt_spec (x := (((i : Rat) * r).floor : Rat)) hf0 (by
    have := Rat.floor_le ((i : Rat) * r)
    nlinarith)
  unfold squashOffline
  simp only [a1, d1, Option.bind_eq_bind, Option.bind_some]
  split
  · have hx : (0 : Rat) < (1 : Rat) / r := by positivity
    obtain ⟨c1, c2, c3, c4⟩ := ceil_spec hx
    rw [c1]
    have hb : (1 : Rat) / r ≤ 2 ^ 20 := by
      rw [div_le_iff₀ hr]
      have := mul_le_mul_of_nonneg_left h1 (by norm_num : (0 : Rat) ≤ 2 ^ 20)
      norm_num at this ⊢
      linarith
    generalize ((1 : Rat) / r).ceil = n at c2 c3 c4
    have hn : n < 2 ^ 63 := by
      have : (n : Rat) < 2 ^ 63 := by linarith
      exact_mod_cast this
    obtain ⟨j, g1, g2, _⟩ := roundUpInt_spec c2 hn
    rw [g1]
    simp only [Option.bind_some]
    have hp : 1 ≤ 2 ^ j := Nat.one_le_two_pow
    refine ⟨_, rfl, ⟨hp, ⟨j + 2, by simp only [Nat.pow_succ]; omega⟩, ?_, ?_⟩⟩
    · show 4 * 2 ^ j ≤ 2 ^ j * 4
      omega
    · show 4 * (((2 ^ j : Nat) : Rat) * r) ≤ ((2 ^ j * 4 : Nat) : Rat)
      push_cast
      have : (0 : Rat) ≤ 2 ^ j := by positivity
      nlinarith
  · refine ⟨_, rfl, ⟨a2, ⟨k, rfl⟩, ?_, ?_⟩⟩
    · show 4 * i ≤ 2 ^ k
      omega
    · show 4 * ((i : Rat) * r) ≤ ((2 ^ k : Nat) : Rat)
      have : (4 * i : Rat) ≤ ((2 ^ k : Nat) : Rat) := by exact_mod_cast (by omega : 4 * i ≤ 2 ^ k)
      nlinarith

theorem stretchOffline_spec {k : Nat} (k1 : 8 ≤ k) (k2 : k ≤ 14) {r : Rat} (h1 : 1 ≤ r) (h2 : r ≤ 2 ^ 20) :
    ∃ l, stretchOffline (2 ^ k) r = some l ∧ Fit r l := by
  have b1 : 2 ^ 8 ≤ 2 ^ k := Nat.pow_le_pow_right (by decide) k1
  have b2 : 2 ^ k ≤ 2 ^ 14 := Nat.pow_le_pow_right (by decide) k2
  obtain ⟨o, i, d1, d2, d3, d4⟩ := increments_spec (limit := 1024) h1 h2 (out := 2 ^ k / 6) (by omega) (by omega)
  have i1 : (1 : Rat) ≤ i := by exact_mod_cast d2
  have io : (i : Rat) ≤ o := by nlinarith
  have io' : i ≤ o := by exact_mod_cast io
  obtain ⟨j, g1, g2, _⟩ := MathMisc.roundUp_spec (n := o * 6) (by omega) (by omega)
  have hmax : ∃ m, max (2 ^ k) (2 ^ j) = 2 ^ m := by
    rcases Nat.le_total (2 ^ k) (2 ^ j) with h | h
    · exact ⟨j, Nat.max_eq_right h⟩
    · exact ⟨k, Nat.max_eq_left h⟩
  obtain ⟨m, hm⟩ := hmax
  have hge : 6 * o ≤ 2 ^ m := by rw [← hm]; omega
  have hwin : ∃ q, (if r > 5 then upTo8192 8192 (2 ^ m) else some (2 ^ m)) = some (2 ^ q) ∧ 2 ^ m ≤ 2 ^ q := by
    split
    · exact upTo8192_spec 8191 m (by have : 1 ≤ 2 ^ m := Nat.one_le_two_pow; omega)
    · exact ⟨m, rfl, Nat.le_refl _⟩
  obtain ⟨q, q1, q2⟩ := hwin
  unfold stretchOffline
  simp only [d1, g1, hm, Option.bind_eq_bind, Option.bind_some]
  refine ⟨⟨i, o, 2 ^ q⟩, ?_, ⟨d2, ⟨q, rfl⟩, ?_, ?_⟩⟩
  · revert q1
    split
    · intro q1
      rw [q1]
      rfl
    · intro q1
      rw [Option.some.inj q1]
      rfl
  · show 4 * i ≤ 2 ^ q
    omega
  · show 4 * ((i : Rat) * r) ≤ ((2 ^ q : Nat) : Rat)
    have : (4 * o : Rat) ≤ ((2 ^ q : Nat) : Rat) := by exact_mod_cast (by omega : 4 * o ≤ 2 ^ q)
    linarith

/-- **C37 (partial).**  For every rate from 8000 to 192000, every combination of options, every expected duration and whatever
ratios are passed, the effective ratio being within 2^20 either way: the calculation ends, and the sizes are usable.
Missing: stretchers that resample first (real time, pitch scale above 1, neither high quality nor high consistency) with short windows at
a rate below 12024 Hz, where it is false (`C37_violated`). -/
theorem C37_partial {p : Params} (h1 : 8000 ≤ p.rate) (h2 : p.rate ≤ 192000) (duration : Nat) {t s : R3.Dbl}
    (hlo : 1 / 2 ^ 20 ≤ (R3.fixRatios t s).1 * (R3.fixRatios t s).2) (hhi : (R3.fixRatios t s).1 * (R3.fixRatios t s).2 ≤ 2 ^ 20)
    (hok : p.windowShort = true → p.rate < 12024 → ¬ (1 < (R3.fixRatios t s).2 ∧ resampleBefore p (R3.fixRatios t s).2 = true)) :
    ∃ z, calculateSizes p duration t s = some z ∧ Usable (z.timeRatio * z.pitchScale) z := by
  obtain ⟨k, a1, a2, a3, a4⟩ := base_spec h1 h2
  generalize hR : R3.fixRatios t s = R at hlo hhi hok
  have hok' : 9 ≤ k ∨ ¬ (1 < R.2 ∧ resampleBefore p R.2 = true) := by
    rcases a4 with h | ⟨h, h'⟩
    · exact Or.inl h
    · exact Or.inr (hok h h')
  have hl : ∃ l, chosen p (2 ^ k) R.2 (R.1 * R.2) = some l ∧ Fit (R.1 * R.2) l := by
    unfold chosen
    split
    · split
      · rename_i hr
        exact squashRT_spec a2 a3 _ hlo hr
      · rename_i hr
        exact stretchRT_spec a2 a3 (not_lt.mp hr) hhi hok'
    · split
      · rename_i hr
        exact squashOffline_spec a2 hlo hr
      · rename_i hr
        exact stretchOffline_spec a2 a3 (not_lt.mp hr) hhi
  obtain ⟨l, c1, c2⟩ := hl
  obtain ⟨i, d1, d2, d3⟩ := forDuration_spec duration (l.inc + 1) l.inc (by omega) c2.inc
  refine ⟨⟨R.1, R.2, i, l.window, if p.smoothing then l.window * 2 else l.window⟩, ?_, ⟨d2, c2.power, ?_, ?_, ?_⟩⟩
  · unfold calculateSizes
    rw [hR]
    simp only [a1, c1, d1, Option.bind_eq_bind, Option.bind_some]
    rfl
  · show l.window ≤ (if p.smoothing then l.window * 2 else l.window)
    split <;> omega
  · show 4 * i ≤ l.window
    have := c2.input
    omega
  · show 4 * ((i : Rat) * (R.1 * R.2)) ≤ (l.window : Rat)
    have h3 : (i : Rat) ≤ l.inc := by exact_mod_cast d3
    have h4 : 0 < R.1 * R.2 := lt_of_lt_of_le (by norm_num) hlo
    have := c2.output
    nlinarith

/-- The hypotheses can be met. -/
example : ∃ z, calculateSizes { rate := 44100, realTime := true } 1000 (.fin (2 / 3)) (.fin (3 / 2)) = some z ∧
    Usable (z.timeRatio * z.pitchScale) z := by
  refine C37_partial (by decide) (by decide) _ (by decide +kernel) (by decide +kernel) ?_
  intro h
  cases h

example : calculateSizes { rate := 44100, realTime := true } 0 (.fin (2 / 3)) (.fin (3 / 2)) = some ⟨2 / 3, 3 / 2, 512, 2048, 2048⟩ := by
  decide +kernel

end Verif.R2
