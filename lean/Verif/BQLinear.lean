import Verif.BQMap
import Verif.BQProps4
import Mathlib.Analysis.SpecialFunctions.Trigonometric.Basic
import Mathlib.Analysis.Real.Pi.Bounds
/-!
# The resampler is linear (C103)

Samples are exact real numbers, or not numbers (`none`), which is what a cross-fade of length 0 makes of them.
-/
namespace Verif.BQ

/-- Sum of products, not a number if one of the factors is not. -/
def dotBy {α : Type} (zero : α) (add : α → α → α) (mul : α → α → α) (cs xs : List (Option α)) : Option α :=
  (List.zipWith (fun c x => c.bind fun c => x.map (mul c)) cs xs).foldr (fun x y => x.bind fun x => y.map (add x)) (some zero)

/-- BQResampler.cpp:211-212 `mixture`. -/
noncomputable def mixture (m n : Nat) : ℝ := 1 / 2 * (1 - Real.cos (Real.pi * (m / n)))

/-- The arithmetic of BQResampler.cpp on real numbers: lines 612-616 (`lerp`), 592-619 (`dot`, `dot1`), 639 (`scaled`), 210-215 (`mix`; for a fade of length 0 the extent is infinite or 0/0, neither of which
has a cosine).  `w` are the filter values (`make_filter`). -/
noncomputable def numbers (w : Nat → Rat → Nat → ℝ) : Arith (Option ℝ) where
  zero := some 0
  window := fun n ptz i => some (w n ptz i)
  lerp := fun x y r => x.bind fun x => y.map fun y => x * (1 - r) + y * r
  dot := dotBy 0 (· + ·) (· * ·)
  dot1 := dotBy 0 (· + ·) (· * ·)
  scaled := fun q x => x.map (· * q)
  mix := fun m n r f => r.bind fun r => f.map fun f => r * mixture m n + f * (1 - mixture m n)
  mixNone := fun _ _ => none

/-- The same for pairs of numbers, in each part; filter values are in the first part. -/
noncomputable def pairs (w : Nat → Rat → Nat → ℝ) : Arith (Option (ℝ × ℝ)) where
  zero := some (0, 0)
  window := fun n ptz i => some (w n ptz i, 0)
  lerp := fun x y r => x.bind fun x => y.map fun y => (x.1 * (1 - r) + y.1 * r, 0)
  dot := dotBy (0, 0) (fun x y => (x.1 + y.1, x.2 + y.2)) (fun c x => (c.1 * x.1, c.1 * x.2))
  dot1 := dotBy (0, 0) (fun x y => (x.1 + y.1, x.2 + y.2)) (fun c x => (c.1 * x.1, c.1 * x.2))
  scaled := fun q x => x.map fun x => (x.1 * q, x.2 * q)
  mix := fun m n r f => r.bind fun r => f.map fun f => (r.1 * mixture m n + f.1 * (1 - mixture m n), r.2 * mixture m n + f.2 * (1 - mixture m n))
  mixNone := fun _ _ => none

/-- `a` times the first and `b` times the second. -/
def blend (a b : ℝ) (x : ℝ × ℝ) : ℝ := a * x.1 + b * x.2

theorem dotBy_blend (a b : ℝ) : ∀ cs xs : List (Option (ℝ × ℝ)), (dotBy (0, 0) (fun x y => (x.1 + y.1, x.2 + y.2)) (fun c x => (c.1 * x.1, c.1 * x.2)) cs xs).map (blend a b) =
    dotBy 0 (· + ·) (· * ·) (cs.map (Option.map Prod.fst)) (xs.map (Option.map (blend a b)))
  | [], _ => by simp [dotBy, blend]
  | _ :: _, [] => by simp [dotBy, blend]
  | c :: cs, x :: xs => by
    have ih := dotBy_blend a b cs xs
    unfold dotBy at ih ⊢
    simp only [List.map_cons, List.zipWith_cons_cons, List.foldr_cons]
    rw [← ih]
    cases c with
    | none => rfl
    | some c =>
      cases x with
      | none => rfl
      | some x =>
        simp only [Option.map_some, Option.bind_some, Option.map_map]
        congr 1
        funext y
        simp only [Function.comp_def, blend]
        ring

/-- Any combination of the parts agrees with the arithmetic. -/
noncomputable def blended (w : Nat → Rat → Nat → ℝ) (a b : ℝ) : Along (pairs w) (numbers w) where
  val := Option.map (blend a b)
  co := Option.map Prod.fst
  zero := by simp [pairs, numbers, blend]
  coZero := rfl
  window := fun _ _ _ => rfl
  lerp := fun x y r => by cases x <;> cases y <;> rfl
  dot := dotBy_blend a b
  dot1 := dotBy_blend a b
  scaled := fun q x => by
    cases x
    · rfl
    · simp only [pairs, numbers, Option.map_some, blend]
      congr 1
      ring
  mix := fun m n r f => by
    cases r <;> cases f <;> simp [pairs, numbers, blend]
    ring
  mixNone := fun _ _ => rfl

/-- `a` times one sample and `b` times another. -/
def combine (a b : ℝ) (x y : Option ℝ) : Option ℝ := x.bind fun x => y.map fun y => a * x + b * y

/-- The first and the second of the pairs. -/
def left : Option (ℝ × ℝ) → Option ℝ := Option.map Prod.fst
def right : Option (ℝ × ℝ) → Option ℝ := Option.map Prod.snd

theorem blended_run {w : Nat → Rat → Nat → ℝ} {cfg : Cfg (Option ℝ)} (hw : cfg.ar = numbers w) (a b : ℝ) (ops : List (Op (Option (ℝ × ℝ)))) :
    run cfg init (ops.map (mapOp (Option.map (blend a b)))) = (run (cfg.over (pairs w)) init ops).map (List.map fun x => (x.1.map (Option.map (blend a b)), x.2)) := by
  have e := run_map (cfg := cfg.over (pairs w)) (blended w a b) ops init
  have : (cfg.over (pairs w)).over (numbers w) = cfg := by rw [← hw]; rfl
  rw [this] at e
  exact e

/-- C103.  Two histories of calls (and resets) with the same sizes and ratios but different audio, and the history in which the audio is `a` times the first plus `b` times the second: so are the results,
and as many frames come out. -/
theorem C103_linear {w : Nat → Rat → Nat → ℝ} {cfg : Cfg (Option ℝ)} (hw : cfg.ar = numbers w) (a b : ℝ) {ops : List (Op (Option (ℝ × ℝ)))} {xs ys : List (List (Option ℝ) × Nat)}
    (hx : run cfg init (ops.map (mapOp left)) = some xs) (hy : run cfg init (ops.map (mapOp right)) = some ys) :
    run cfg init (ops.map (mapOp fun z => combine a b (left z) (right z))) = some (List.zipWith (fun x y => (List.zipWith (combine a b) x.1 y.1, x.2)) xs ys) ∧ xs.map Prod.snd = ys.map Prod.snd := by
  have e1 := blended_run hw 1 0 ops
  have e2 := blended_run hw 0 1 ops
  have e3 := blended_run hw a b ops
  have k1 : Option.map (blend 1 0) = left := by
    funext z
    cases z <;> simp [blend, left]
  have k2 : Option.map (blend 0 1) = right := by
    funext z
    cases z <;> simp [blend, right]
  have k3 : Option.map (blend a b) = fun z => combine a b (left z) (right z) := by
    funext z
    cases z <;> simp [blend, left, right, combine]
  rw [k1, hx] at e1
  rw [k2, hy] at e2
  rw [k3] at e3
  obtain ⟨zs, hz, rfl⟩ := Option.map_eq_some_iff.mp e1.symm
  rw [hz] at e2 e3
  obtain rfl := Option.some.inj e2
  rw [e3]
  refine ⟨?_, by simp⟩
  rw [Option.map_some, List.zipWith_map, List.zipWith_self]
  refine congrArg some (List.map_congr_left fun z _ => ?_)
  rw [List.zipWith_map, List.zipWith_self]

theorem mapOp_valid {α β : Type} (f : α → β) {c : Nat} {op : Op α} (h : op.Valid c) : (mapOp f op).Valid c := by
  cases op with
  | call a => exact ⟨by rw [List.length_map]; exact h.out, by rw [List.length_map]; exact h.inp, h.ratio⟩
  | reset => trivial

/-- The hypotheses of C103_linear: any audio in two blocks for a stereo resampler, with a change of ratio between them, and once more after a reset. -/
example (w : Nat → Rat → Nat → ℝ) (x y : Nat → ℝ) : ∃ xs ys,
    let cfg : Cfg (Option ℝ) := ⟨numbers w, .fastest, false, true, 44100, 2⟩
    let block : Nat → Rat → Op (Option (ℝ × ℝ)) := fun i r => .call ⟨List.replicate 80 (some (0, 0)), 40, (List.range 40).map fun k => some (x (i + k), y (i + k)), 20, r, false⟩
    run cfg init ([block 0 1, block 40 (3 / 2), .reset, block 80 2].map (mapOp left)) = some xs ∧ run cfg init ([block 0 1, block 40 (3 / 2), .reset, block 80 2].map (mapOp right)) = some ys := by
  have hv : ∀ (i : Nat) (r : Rat), ValidRatio r → (Op.call ⟨List.replicate 80 (some ((0 : ℝ), (0 : ℝ))), 40, (List.range 40).map fun k => some (x (i + k), y (i + k)), 20, r, false⟩).Valid 2 := by
    intro i r hr
    exact ⟨by simp, by simp, hr⟩
  have hall : ∀ f : Option (ℝ × ℝ) → Option ℝ, ∀ op ∈ ([Op.call ⟨List.replicate 80 (some ((0 : ℝ), (0 : ℝ))), 40, (List.range 40).map fun k => some (x (0 + k), y (0 + k)), 20, 1, false⟩,
      Op.call ⟨List.replicate 80 (some ((0 : ℝ), (0 : ℝ))), 40, (List.range 40).map fun k => some (x (40 + k), y (40 + k)), 20, 3 / 2, false⟩, .reset,
      Op.call ⟨List.replicate 80 (some ((0 : ℝ), (0 : ℝ))), 40, (List.range 40).map fun k => some (x (80 + k), y (80 + k)), 20, 2, false⟩].map (mapOp f)), op.Valid 2 := by
    intro f op hop
    obtain ⟨o, ho, rfl⟩ := List.mem_map.mp hop
    refine mapOp_valid f ?_
    simp only [List.mem_cons, List.not_mem_nil, or_false] at ho
    rcases ho with rfl | rfl | rfl | rfl
    · exact hv 0 1 (by unfold ValidRatio; norm_num)
    · exact hv 40 (3 / 2) (by unfold ValidRatio; norm_num)
    · trivial
    · exact hv 80 2 (by unfold ValidRatio; norm_num)
  obtain ⟨xs, hx, -⟩ := C21_bounds (cfg := (⟨numbers w, .fastest, false, true, 44100, 2⟩ : Cfg (Option ℝ))) (by norm_num) (hall left)
  obtain ⟨ys, hy, -⟩ := C21_bounds (cfg := (⟨numbers w, .fastest, false, true, 44100, 2⟩ : Cfg (Option ℝ))) (by norm_num) (hall right)
  exact ⟨xs, ys, hx, hy⟩

end Verif.BQ
