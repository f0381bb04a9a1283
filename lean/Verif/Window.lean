import Mathlib.Analysis.SpecialFunctions.Trigonometric.Basic
import Mathlib.Tactic.LinearCombination
import Mathlib.Tactic.Positivity
import Mathlib.Tactic.FieldSimp
/-!
# Model of `src/common/Window.h`: the windows the finer engine uses

Values are real numbers, exact.  The windows that no engine uses (rectangular, Bartlett, Hamming, Blackman, Gaussian, Parzen, Nuttall, Blackman-Harris) are left out.
-/
namespace Verif.Window

/-- Window.h:149-150, 256-266 `cosinewin`: the Hann window of size `n`. -/
noncomputable def hann (n i : Nat) : ℝ := 1 / 2 - 1 / 2 * Real.cos (2 * Real.pi * i / n)

/-- Window.h:204-225: the trigonometric polynomial. -/
noncomputable def bump (x : ℝ) : ℝ :=
  2.57392230162633461887
  - 1.58661480271141974718 * Real.cos x
  + 3.80257516644523141380 * Real.sin x
  - 1.93437090055110760822 * Real.cos (2 * x)
  - 3.27163999159752183488 * Real.sin (2 * x)
  + 3.26617449847621266201 * Real.cos (3 * x)
  - 0.30335261753524439543 * Real.sin (3 * x)
  - 0.92126091064427817479 * Real.cos (4 * x)
  + 2.33100177294084742741 * Real.sin (4 * x)
  - 1.19953922321306438725 * Real.cos (5 * x)
  - 1.25098147932225423062 * Real.sin (5 * x)
  + 0.99132076607048635886 * Real.cos (6 * x)
  - 0.34506787787355830410 * Real.sin (6 * x)
  - 0.04028033685700077582 * Real.cos (7 * x)
  + 0.55461815542612269425 * Real.sin (7 * x)
  - 0.21882110175036428856 * Real.cos (8 * x)
  - 0.10756484378756643594 * Real.sin (8 * x)
  + 0.06025986430527170007 * Real.cos (9 * x)
  - 0.05777077835678736534 * Real.sin (9 * x)
  + 0.00920984524892982936 * Real.cos (10 * x)
  + 0.01501989089735343216 * Real.sin (10 * x)

/-- Window.h:199-226: an element of the first part, `k` being the index. -/
noncomputable def rise (n k : Nat) : ℝ := bump (2 * Real.pi * ((((k + n / 4 : Nat) : ℝ) + 1 / 2) / n - 7 / 4))

/-- Window.h:187-235 `NiemitaloForwardWindow` of size `n`.  What is read of the array for the second part is in the first part. -/
noncomputable def forward (n k : Nat) : ℝ :=
  if k < n - n / 8 - n / 4 then rise n k
  else if k < n - n / 4 then
    let j := n / 8 - 1 - (k - (n - n / 8 - n / 4))
    (1 - rise n (n / 2 - 1 - j) * rise n (n / 2 + j)) / rise n (n / 4 + j)
  else 0

/-- Window.h:237-243 `NiemitaloReverseWindow`: the same from the end. -/
noncomputable def reverse (n k : Nat) : ℝ := forward n (n - 1 - k)

/-! ### The polynomial is positive where it is divided by -/

theorem bump_pos {x t : ℝ} (t0 : 0 ≤ t) (t1 : t < 1 / 2) (hc : Real.cos x * (1 + t ^ 2) = 2 * t) (hs : Real.sin x * (1 + t ^ 2) = -(1 - t ^ 2)) : 0 < bump x := by
  have hc1 : Real.cos (1 * x) * (1 + t ^ 2) ^ 1 = 2 * t := by rw [one_mul, pow_one]; exact hc
  have hs1 : Real.sin (1 * x) * (1 + t ^ 2) ^ 1 = -(1 - t ^ 2) := by rw [one_mul, pow_one]; exact hs
  have hc2 : Real.cos (2 * x) * (1 + t ^ 2) ^ 2 = (-1)*1 + (6)*t^2 + (-1)*t^4 := by
    rw [show (2 : ℝ) * x = 1 * x + x by ring, Real.cos_add]
    linear_combination (Real.cos x * (1 + t ^ 2)) * hc1 - (Real.sin x * (1 + t ^ 2)) * hs1 + ((2)*t) * hc - ((-1)*1 + (1)*t^2) * hs
  have hs2 : Real.sin (2 * x) * (1 + t ^ 2) ^ 2 = (-4)*t + (4)*t^3 := by
    rw [show (2 : ℝ) * x = 1 * x + x by ring, Real.sin_add]
    linear_combination (Real.cos x * (1 + t ^ 2)) * hs1 + (Real.sin x * (1 + t ^ 2)) * hc1 + ((-1)*1 + (1)*t^2) * hc + ((2)*t) * hs
  have hc3 : Real.cos (3 * x) * (1 + t ^ 2) ^ 3 = (-6)*t + (20)*t^3 + (-6)*t^5 := by
    rw [show (3 : ℝ) * x = 2 * x + x by ring, Real.cos_add]
    linear_combination (Real.cos x * (1 + t ^ 2)) * hc2 - (Real.sin x * (1 + t ^ 2)) * hs2 + ((-1)*1 + (6)*t^2 + (-1)*t^4) * hc - ((-4)*t + (4)*t^3) * hs
  have hs3 : Real.sin (3 * x) * (1 + t ^ 2) ^ 3 = (1)*1 + (-15)*t^2 + (15)*t^4 + (-1)*t^6 := by
    rw [show (3 : ℝ) * x = 2 * x + x by ring, Real.sin_add]
    linear_combination (Real.cos x * (1 + t ^ 2)) * hs2 + (Real.sin x * (1 + t ^ 2)) * hc2 + ((-4)*t + (4)*t^3) * hc + ((-1)*1 + (6)*t^2 + (-1)*t^4) * hs
  have hc4 : Real.cos (4 * x) * (1 + t ^ 2) ^ 4 = (1)*1 + (-28)*t^2 + (70)*t^4 + (-28)*t^6 + (1)*t^8 := by
    rw [show (4 : ℝ) * x = 3 * x + x by ring, Real.cos_add]
    linear_combination (Real.cos x * (1 + t ^ 2)) * hc3 - (Real.sin x * (1 + t ^ 2)) * hs3 + ((-6)*t + (20)*t^3 + (-6)*t^5) * hc - ((1)*1 + (-15)*t^2 + (15)*t^4 + (-1)*t^6) * hs
  have hs4 : Real.sin (4 * x) * (1 + t ^ 2) ^ 4 = (8)*t + (-56)*t^3 + (56)*t^5 + (-8)*t^7 := by
    rw [show (4 : ℝ) * x = 3 * x + x by ring, Real.sin_add]
    linear_combination (Real.cos x * (1 + t ^ 2)) * hs3 + (Real.sin x * (1 + t ^ 2)) * hc3 + ((1)*1 + (-15)*t^2 + (15)*t^4 + (-1)*t^6) * hc + ((-6)*t + (20)*t^3 + (-6)*t^5) * hs
  have hc5 : Real.cos (5 * x) * (1 + t ^ 2) ^ 5 = (10)*t + (-120)*t^3 + (252)*t^5 + (-120)*t^7 + (10)*t^9 := by
    rw [show (5 : ℝ) * x = 4 * x + x by ring, Real.cos_add]
    linear_combination (Real.cos x * (1 + t ^ 2)) * hc4 - (Real.sin x * (1 + t ^ 2)) * hs4 + ((1)*1 + (-28)*t^2 + (70)*t^4 + (-28)*t^6 + (1)*t^8) * hc - ((8)*t + (-56)*t^3 + (56)*t^5 + (-8)*t^7) * hs
  have hs5 : Real.sin (5 * x) * (1 + t ^ 2) ^ 5 = (-1)*1 + (45)*t^2 + (-210)*t^4 + (210)*t^6 + (-45)*t^8 + (1)*t^10 := by
    rw [show (5 : ℝ) * x = 4 * x + x by ring, Real.sin_add]
    linear_combination (Real.cos x * (1 + t ^ 2)) * hs4 + (Real.sin x * (1 + t ^ 2)) * hc4 + ((8)*t + (-56)*t^3 + (56)*t^5 + (-8)*t^7) * hc + ((1)*1 + (-28)*t^2 + (70)*t^4 + (-28)*t^6 + (1)*t^8) * hs
  have hc6 : Real.cos (6 * x) * (1 + t ^ 2) ^ 6 = (-1)*1 + (66)*t^2 + (-495)*t^4 + (924)*t^6 + (-495)*t^8 + (66)*t^10 + (-1)*t^12 := by
    rw [show (6 : ℝ) * x = 5 * x + x by ring, Real.cos_add]
    linear_combination (Real.cos x * (1 + t ^ 2)) * hc5 - (Real.sin x * (1 + t ^ 2)) * hs5 + ((10)*t + (-120)*t^3 + (252)*t^5 + (-120)*t^7 + (10)*t^9) * hc - ((-1)*1 + (45)*t^2 + (-210)*t^4 + (210)*t^6 + (-45)*t^8 + (1)*t^10) * hs
  have hs6 : Real.sin (6 * x) * (1 + t ^ 2) ^ 6 = (-12)*t + (220)*t^3 + (-792)*t^5 + (792)*t^7 + (-220)*t^9 + (12)*t^11 := by
    rw [show (6 : ℝ) * x = 5 * x + x by ring, Real.sin_add]
    linear_combination (Real.cos x * (1 + t ^ 2)) * hs5 + (Real.sin x * (1 + t ^ 2)) * hc5 + ((-1)*1 + (45)*t^2 + (-210)*t^4 + (210)*t^6 + (-45)*t^8 + (1)*t^10) * hc + ((10)*t + (-120)*t^3 + (252)*t^5 + (-120)*t^7 + (10)*t^9) * hs
  have hc7 : Real.cos (7 * x) * (1 + t ^ 2) ^ 7 = (-14)*t + (364)*t^3 + (-2002)*t^5 + (3432)*t^7 + (-2002)*t^9 + (364)*t^11 + (-14)*t^13 := by
    rw [show (7 : ℝ) * x = 6 * x + x by ring, Real.cos_add]
    linear_combination (Real.cos x * (1 + t ^ 2)) * hc6 - (Real.sin x * (1 + t ^ 2)) * hs6 + ((-1)*1 + (66)*t^2 + (-495)*t^4 + (924)*t^6 + (-495)*t^8 + (66)*t^10 + (-1)*t^12) * hc - ((-12)*t + (220)*t^3 + (-792)*t^5 + (792)*t^7 + (-220)*t^9 + (12)*t^11) * hs
  have hs7 : Real.sin (7 * x) * (1 + t ^ 2) ^ 7 = (1)*1 + (-91)*t^2 + (1001)*t^4 + (-3003)*t^6 + (3003)*t^8 + (-1001)*t^10 + (91)*t^12 + (-1)*t^14 := by
    rw [show (7 : ℝ) * x = 6 * x + x by ring, Real.sin_add]
    linear_combination (Real.cos x * (1 + t ^ 2)) * hs6 + (Real.sin x * (1 + t ^ 2)) * hc6 + ((-12)*t + (220)*t^3 + (-792)*t^5 + (792)*t^7 + (-220)*t^9 + (12)*t^11) * hc + ((-1)*1 + (66)*t^2 + (-495)*t^4 + (924)*t^6 + (-495)*t^8 + (66)*t^10 + (-1)*t^12) * hs
  have hc8 : Real.cos (8 * x) * (1 + t ^ 2) ^ 8 = (1)*1 + (-120)*t^2 + (1820)*t^4 + (-8008)*t^6 + (12870)*t^8 + (-8008)*t^10 + (1820)*t^12 + (-120)*t^14 + (1)*t^16 := by
    rw [show (8 : ℝ) * x = 7 * x + x by ring, Real.cos_add]
    linear_combination (Real.cos x * (1 + t ^ 2)) * hc7 - (Real.sin x * (1 + t ^ 2)) * hs7 + ((-14)*t + (364)*t^3 + (-2002)*t^5 + (3432)*t^7 + (-2002)*t^9 + (364)*t^11 + (-14)*t^13) * hc - ((1)*1 + (-91)*t^2 + (1001)*t^4 + (-3003)*t^6 + (3003)*t^8 + (-1001)*t^10 + (91)*t^12 + (-1)*t^14) * hs
  have hs8 : Real.sin (8 * x) * (1 + t ^ 2) ^ 8 = (16)*t + (-560)*t^3 + (4368)*t^5 + (-11440)*t^7 + (11440)*t^9 + (-4368)*t^11 + (560)*t^13 + (-16)*t^15 := by
    rw [show (8 : ℝ) * x = 7 * x + x by ring, Real.sin_add]
    linear_combination (Real.cos x * (1 + t ^ 2)) * hs7 + (Real.sin x * (1 + t ^ 2)) * hc7 + ((1)*1 + (-91)*t^2 + (1001)*t^4 + (-3003)*t^6 + (3003)*t^8 + (-1001)*t^10 + (91)*t^12 + (-1)*t^14) * hc + ((-14)*t + (364)*t^3 + (-2002)*t^5 + (3432)*t^7 + (-2002)*t^9 + (364)*t^11 + (-14)*t^13) * hs
  have hc9 : Real.cos (9 * x) * (1 + t ^ 2) ^ 9 = (18)*t + (-816)*t^3 + (8568)*t^5 + (-31824)*t^7 + (48620)*t^9 + (-31824)*t^11 + (8568)*t^13 + (-816)*t^15 + (18)*t^17 := by
    rw [show (9 : ℝ) * x = 8 * x + x by ring, Real.cos_add]
    linear_combination (Real.cos x * (1 + t ^ 2)) * hc8 - (Real.sin x * (1 + t ^ 2)) * hs8 + ((1)*1 + (-120)*t^2 + (1820)*t^4 + (-8008)*t^6 + (12870)*t^8 + (-8008)*t^10 + (1820)*t^12 + (-120)*t^14 + (1)*t^16) * hc - ((16)*t + (-560)*t^3 + (4368)*t^5 + (-11440)*t^7 + (11440)*t^9 + (-4368)*t^11 + (560)*t^13 + (-16)*t^15) * hs
  have hs9 : Real.sin (9 * x) * (1 + t ^ 2) ^ 9 = (-1)*1 + (153)*t^2 + (-3060)*t^4 + (18564)*t^6 + (-43758)*t^8 + (43758)*t^10 + (-18564)*t^12 + (3060)*t^14 + (-153)*t^16 + (1)*t^18 := by
    rw [show (9 : ℝ) * x = 8 * x + x by ring, Real.sin_add]
    linear_combination (Real.cos x * (1 + t ^ 2)) * hs8 + (Real.sin x * (1 + t ^ 2)) * hc8 + ((16)*t + (-560)*t^3 + (4368)*t^5 + (-11440)*t^7 + (11440)*t^9 + (-4368)*t^11 + (560)*t^13 + (-16)*t^15) * hc + ((1)*1 + (-120)*t^2 + (1820)*t^4 + (-8008)*t^6 + (12870)*t^8 + (-8008)*t^10 + (1820)*t^12 + (-120)*t^14 + (1)*t^16) * hs
  have hc10 : Real.cos (10 * x) * (1 + t ^ 2) ^ 10 = (-1)*1 + (190)*t^2 + (-4845)*t^4 + (38760)*t^6 + (-125970)*t^8 + (184756)*t^10 + (-125970)*t^12 + (38760)*t^14 + (-4845)*t^16 + (190)*t^18 + (-1)*t^20 := by
    rw [show (10 : ℝ) * x = 9 * x + x by ring, Real.cos_add]
    linear_combination (Real.cos x * (1 + t ^ 2)) * hc9 - (Real.sin x * (1 + t ^ 2)) * hs9 + ((18)*t + (-816)*t^3 + (8568)*t^5 + (-31824)*t^7 + (48620)*t^9 + (-31824)*t^11 + (8568)*t^13 + (-816)*t^15 + (18)*t^17) * hc - ((-1)*1 + (153)*t^2 + (-3060)*t^4 + (18564)*t^6 + (-43758)*t^8 + (43758)*t^10 + (-18564)*t^12 + (3060)*t^14 + (-153)*t^16 + (1)*t^18) * hs
  have hs10 : Real.sin (10 * x) * (1 + t ^ 2) ^ 10 = (-20)*t + (1140)*t^3 + (-15504)*t^5 + (77520)*t^7 + (-167960)*t^9 + (167960)*t^11 + (-77520)*t^13 + (15504)*t^15 + (-1140)*t^17 + (20)*t^19 := by
    rw [show (10 : ℝ) * x = 9 * x + x by ring, Real.sin_add]
    linear_combination (Real.cos x * (1 + t ^ 2)) * hs9 + (Real.sin x * (1 + t ^ 2)) * hc9 + ((-1)*1 + (153)*t^2 + (-3060)*t^4 + (18564)*t^6 + (-43758)*t^8 + (43758)*t^10 + (-18564)*t^12 + (3060)*t^14 + (-153)*t^16 + (1)*t^18) * hc + ((18)*t + (-816)*t^3 + (8568)*t^5 + (-31824)*t^7 + (48620)*t^9 + (-31824)*t^11 + (8568)*t^13 + (-816)*t^15 + (18)*t^17) * hs
  obtain ⟨y, hy⟩ : ∃ y, y = 1 - 2 * t := ⟨_, rfl⟩
  have y0 : 0 < y := by rw [hy]; linarith
  have key : bump x * (1 + t ^ 2) ^ 10 = (250246415176144113/2000000000000000000) * (t ^ 0 * y ^ 20) + (287090755722822958679/50000000000000000000) * (t ^ 1 * y ^ 19) + (3159577349556490819673/25000000000000000000) * (t ^ 2 * y ^ 18) + (88676592101609343099771/50000000000000000000) * (t ^ 3 * y ^ 17) + (889000923669932625587433/50000000000000000000) * (t ^ 4 * y ^ 16) + (1689937214911365182417999/12500000000000000000) * (t ^ 5 * y ^ 15) + (5049867422895414092872973/6250000000000000000) * (t ^ 6 * y ^ 14) + (48532894103894456551573327/12500000000000000000) * (t ^ 7 * y ^ 13) + (76148772293413958172412477/5000000000000000000) * (t ^ 8 * y ^ 12) + (1231421209734970657334663881/25000000000000000000) * (t ^ 9 * y ^ 11) + (1652195703586993187965961407/12500000000000000000) * (t ^ 10 * y ^ 10) + (7377058048785628525784697821/25000000000000000000) * (t ^ 11 * y ^ 9) + (13689599802363895077028415861/25000000000000000000) * (t ^ 12 * y ^ 8) + (10504736914143170059082087619/12500000000000000000) * (t ^ 13 * y ^ 7) + (6600160885957490937988452097/6250000000000000000) * (t ^ 14 * y ^ 6) + (13364394339318467968826730027/12500000000000000000) * (t ^ 15 * y ^ 5) + (42549604868038968085589831093/50000000000000000000) * (t ^ 16 * y ^ 4) + (25645421266631407890902379727/50000000000000000000) * (t ^ 17 * y ^ 3) + (5504621074840693328387098609/25000000000000000000) * (t ^ 18 * y ^ 2) + (24020989058963511682626527/400000000000000000) * (t ^ 19 * y ^ 1) + (391661405739800476546045069/50000000000000000000) * (t ^ 20 * y ^ 0) := by
    rw [hy]; unfold bump
    linear_combination (-79330740135570987359/50000000000000000000) * (1 + t ^ 2) ^ 9 * hc + (19012875832226157069/5000000000000000000) * (1 + t ^ 2) ^ 9 * hs + (-96718545027555380411/50000000000000000000) * (1 + t ^ 2) ^ 8 * hc2 + (-5111937486871127867/1562500000000000000) * (1 + t ^ 2) ^ 8 * hs2 + (326617449847621266201/100000000000000000000) * (1 + t ^ 2) ^ 7 * hc3 + (-30335261753524439543/100000000000000000000) * (1 + t ^ 2) ^ 7 * hs3 + (-92126091064427817479/100000000000000000000) * (1 + t ^ 2) ^ 6 * hc4 + (233100177294084742741/100000000000000000000) * (1 + t ^ 2) ^ 6 * hs4 + (-4798156892852257549/4000000000000000000) * (1 + t ^ 2) ^ 5 * hc5 + (-62549073966112711531/50000000000000000000) * (1 + t ^ 2) ^ 5 * hs5 + (49566038303524317943/50000000000000000000) * (1 + t ^ 2) ^ 4 * hc6 + (-3450678778735583041/10000000000000000000) * (1 + t ^ 2) ^ 4 * hs6 + (-2014016842850038791/50000000000000000000) * (1 + t ^ 2) ^ 3 * hc7 + (2218472621704490777/4000000000000000000) * (1 + t ^ 2) ^ 3 * hs7 + (-2735263771879553607/12500000000000000000) * (1 + t ^ 2) ^ 2 * hc8 + (-5378242189378321797/50000000000000000000) * (1 + t ^ 2) ^ 2 * hs8 + (6025986430527170007/100000000000000000000) * (1 + t ^ 2) ^ 1 * hc9 + (-2888538917839368267/50000000000000000000) * (1 + t ^ 2) ^ 1 * hs9 + (115123065611622867/12500000000000000000) * (1 + t ^ 2) ^ 0 * hc10 + (93874318108458951/6250000000000000000) * (1 + t ^ 2) ^ 0 * hs10
  have hd : 0 < (1 + t ^ 2) ^ 10 := by positivity
  have : 0 < bump x * (1 + t ^ 2) ^ 10 := by rw [key]; positivity
  exact (mul_pos_iff_of_pos_right hd).mp this

theorem bump_pos_of {x θ : ℝ} (h0 : 0 ≤ θ) (h1 : θ ≤ Real.pi / 4) (hc : Real.cos x = Real.sin θ) (hs : Real.sin x = -Real.cos θ) : 0 < bump x := by
  have hpi := Real.pi_pos
  have c4 : Real.cos (Real.pi / 4) ≤ Real.cos θ := Real.cos_le_cos_of_nonneg_of_le_pi h0 (by linarith) h1
  rw [Real.cos_pi_div_four] at c4
  have r2 : (7 : ℝ) / 5 ≤ Real.sqrt 2 := Real.le_sqrt_of_sq_le (by norm_num)
  have hcθ : 7 / 10 ≤ Real.cos θ := by linarith
  have hsθ : 0 ≤ Real.sin θ := Real.sin_nonneg_of_nonneg_of_le_pi h0 (by linarith)
  have hq := Real.sin_sq_add_cos_sq θ
  have hd : 0 < 1 + Real.cos θ := by linarith
  -- the tangent of half the angle
  obtain ⟨t, ht⟩ : ∃ t, t = Real.sin θ / (1 + Real.cos θ) := ⟨_, rfl⟩
  have hts : t * (1 + Real.cos θ) = Real.sin θ := by rw [ht]; field_simp
  have t0 : 0 ≤ t := by rw [ht]; positivity
  have hd2 : (1 + t ^ 2) * (1 + Real.cos θ) = 2 := by
    have : (1 + t ^ 2) * (1 + Real.cos θ) * (1 + Real.cos θ) = 2 * (1 + Real.cos θ) := by
      linear_combination (t * (1 + Real.cos θ) + Real.sin θ) * hts + hq
    exact mul_right_cancel₀ hd.ne' this
  have t1 : t < 1 / 2 := by nlinarith
  refine bump_pos t0 t1 ?_ ?_
  · rw [hc]; linear_combination (-(1 + t ^ 2)) * hts + t * hd2
  · rw [hs]; linear_combination -hd2

/-- The first part of the window is positive in its second quarter, up to three eighths. -/
theorem rise_pos {n k : Nat} (hn : n % 8 = 0) (h1 : n / 4 ≤ k) (h2 : k < 3 * (n / 8)) : 0 < rise n k := by
  obtain ⟨m, rfl⟩ : ∃ m, n = 8 * m := ⟨n / 8, by omega⟩
  have hm : 0 < m := by omega
  have e4 : 8 * m / 4 = 2 * m := by omega
  have e8 : 8 * m / 8 = m := by omega
  rw [e4] at h1
  rw [e8] at h2
  obtain ⟨i, rfl⟩ := Nat.exists_eq_add_of_le h1
  have hi : i < m := by omega
  have hmr : (0 : ℝ) < m := by exact_mod_cast hm
  have hir : (i : ℝ) + 1 ≤ m := by exact_mod_cast hi
  have hpi := Real.pi_pos
  obtain ⟨θ, hθ⟩ : ∃ θ, θ = 2 * Real.pi * ((i + 1 / 2) / (8 * m)) := ⟨_, rfl⟩
  have hx : 2 * Real.pi * ((((2 * m + i + 8 * m / 4 : Nat) : ℝ) + 1 / 2) / ((8 * m : Nat) : ℝ) - 7 / 4) = θ - Real.pi / 2 - (1 : ℤ) * (2 * Real.pi) := by
    rw [e4, hθ]
    push_cast
    field_simp
    ring
  unfold rise
  rw [hx]
  refine bump_pos_of (θ := θ) ?_ ?_ ?_ ?_
  · rw [hθ]; positivity
  · rw [hθ]
    have : ((i : ℝ) + 1 / 2) / (8 * m) ≤ 1 / 8 := by
      rw [div_le_iff₀ (by positivity)]; linarith
    nlinarith
  · rw [Real.cos_sub_int_mul_two_pi, Real.cos_sub_pi_div_two]
  · rw [Real.sin_sub_int_mul_two_pi, Real.sin_sub_pi_div_two]

/-! ### Forward and reverse overlap to one -/

/-- What a sample is multiplied by on its way through analysis and synthesis with the pair of windows. -/
noncomputable def pair (n k : Nat) : ℝ := forward n k * reverse n k

theorem pair_mirror {n k : Nat} (h : k < n) : pair n (n - 1 - k) = pair n k := by
  unfold pair reverse
  rw [show n - 1 - (n - 1 - k) = k by omega, mul_comm]

theorem pair_outside {n k : Nat} (hn : n % 8 = 0) (h : k < n / 4 ∨ (n - n / 4 ≤ k)) : pair n k = 0 := by
  unfold pair reverse
  rcases h with h | h
  · have : forward n (n - 1 - k) = 0 := by
      unfold forward
      rw [if_neg (by omega), if_neg (by omega)]
    rw [this, mul_zero]
  · have : forward n k = 0 := by
      unfold forward
      rw [if_neg (by omega), if_neg (by omega)]
    rw [this, zero_mul]

theorem pair_first {n k : Nat} (h : k < n - n / 8 - n / 4) : forward n k = rise n k := by
  unfold forward; rw [if_pos h]

/-- Around five eighths the products add up to one. -/
theorem pair_around {n i : Nat} (hn : n % 8 = 0) (hi : i < n / 8) : pair n (n - n / 8 - n / 4 + i) + pair n (n - n / 8 - n / 4 - 1 - i) = 1 := by
  obtain ⟨m, rfl⟩ : ∃ m, n = 8 * m := ⟨n / 8, by omega⟩
  have e2 : 8 * m / 2 = 4 * m := by omega
  have e4 : 8 * m / 4 = 2 * m := by omega
  have e8 : 8 * m / 8 = m := by omega
  rw [e8] at hi
  have hr := rise_pos (n := 8 * m) (k := 3 * m - 1 - i) (by omega) (by omega) (by omega)
  unfold pair reverse
  rw [e4, e8]
  have f1 : forward (8 * m) (8 * m - m - 2 * m + i) = (1 - rise (8 * m) (3 * m + i) * rise (8 * m) (5 * m - 1 - i)) / rise (8 * m) (3 * m - 1 - i) := by
    unfold forward
    rw [e2, e4, e8, if_neg (by omega), if_pos (by omega)]
    simp only
    rw [show 4 * m - 1 - (m - 1 - (8 * m - m - 2 * m + i - (8 * m - m - 2 * m))) = 3 * m + i by omega,
      show 4 * m + (m - 1 - (8 * m - m - 2 * m + i - (8 * m - m - 2 * m))) = 5 * m - 1 - i by omega,
      show 2 * m + (m - 1 - (8 * m - m - 2 * m + i - (8 * m - m - 2 * m))) = 3 * m - 1 - i by omega]
  rw [f1, pair_first (by omega), pair_first (by omega), pair_first (by omega),
    show 8 * m - 1 - (8 * m - m - 2 * m + i) = 3 * m - 1 - i by omega, show 8 * m - m - 2 * m - 1 - i = 5 * m - 1 - i by omega,
    show 8 * m - 1 - (5 * m - 1 - i) = 3 * m + i by omega]
  field_simp
  ring

/-- The pair of windows overlaps to exactly one at a distance of a quarter. -/
theorem pair_quarter {n i : Nat} (hn : n % 8 = 0) (hi : i < n / 4) : pair n (n / 4 + i) + pair n (n / 2 + i) = 1 := by
  obtain ⟨m, rfl⟩ : ∃ m, n = 8 * m := ⟨n / 8, by omega⟩
  have e2 : 8 * m / 2 = 4 * m := by omega
  have e4 : 8 * m / 4 = 2 * m := by omega
  have e8 : 8 * m / 8 = m := by omega
  rw [e2, e4]
  rw [e4] at hi
  by_cases h : i < m
  · have := pair_around (n := 8 * m) (i := m - 1 - i) (by omega) (by omega)
    rw [e4, e8] at this
    rw [← pair_mirror (n := 8 * m) (k := 2 * m + i) (by omega), ← this,
      show 8 * m - 1 - (2 * m + i) = 8 * m - m - 2 * m + (m - 1 - i) by omega, show 4 * m + i = 8 * m - m - 2 * m - 1 - (m - 1 - i) by omega]
  · have := pair_around (n := 8 * m) (i := i - m) (by omega) (by omega)
    rw [e4, e8] at this
    rw [← pair_mirror (n := 8 * m) (k := 2 * m + i) (by omega), ← this,
      show 8 * m - 1 - (2 * m + i) = 8 * m - m - 2 * m - 1 - (i - m) by omega, show 4 * m + i = 8 * m - m - 2 * m + (i - m) by omega]
    ring

end Verif.Window
