import Verif.R3
import Verif.BQLinear
/-!
# The finer engine with the built-in resampler, over the reals

The resampler that R3Stretcher.cpp:280-323 `createResampler` makes when the library is built without others (Resampler.cpp:827-1005 `D_BQResampler`), as the resampler of the model of the calls.
-/
namespace Verif.BQ
open Verif.MovingMedian (setAt)

/-- The arithmetic of BQResampler.cpp on real numbers, as `numbers` but without the value that is not a number: for a cross-fade of length 0 there is a zero here.  With sudden changes of ratio there are no
cross-fades (C46_partial); for the others this is a simplification. -/
noncomputable def reals (w : Nat → Rat → Nat → ℝ) : Arith ℝ where
  zero := 0
  window := w
  lerp := fun x y r => x * (1 - r) + y * r
  dot := fun cs xs => (List.zipWith (· * ·) cs xs).sum
  dot1 := fun cs xs => (List.zipWith (· * ·) cs xs).sum
  scaled := fun q x => x * q
  mix := fun m n r f => r * mixture m n + f * (1 - mixture m n)
  mixNone := fun _ _ => 0

/-- There is only silence in the buffers. -/
def Res.Silent (r : Res ℝ) : Prop := (∀ a ∈ r.s.buffer, a = 0) ∧ ∀ a ∈ r.fade.buffer, a = 0

theorem zipWith_silent : ∀ cs xs : List ℝ, (List.zipWith (· * ·) cs (xs.map fun _ => (0 : ℝ))).sum = 0
  | [], _ => rfl
  | _ :: _, [] => rfl
  | c :: cs, x :: xs => by rw [List.map_cons, List.zipWith_cons_cons, List.sum_cons, zipWith_silent cs xs, mul_zero, zero_add]

/-- The same without sums: a help for `resample_silent`. -/
noncomputable def deaf (w : Nat → Rat → Nat → ℝ) : Arith ℝ := { reals w with dot := fun _ _ => 0, dot1 := fun _ _ => 0 }

/-- Silencing all samples agrees with the arithmetic. -/
noncomputable def silenced (w : Nat → Rat → Nat → ℝ) : Along (deaf w) (reals w) where
  val := fun _ => 0
  co := fun x => x
  zero := rfl
  coZero := rfl
  window := fun _ _ _ => rfl
  lerp := fun _ _ _ => rfl
  dot := fun cs xs => by show (0 : ℝ) = (List.zipWith (· * ·) (cs.map fun x => x) (xs.map fun _ => 0)).sum; rw [zipWith_silent]
  dot1 := fun cs xs => by show (0 : ℝ) = (List.zipWith (· * ·) (cs.map fun x => x) (xs.map fun _ => 0)).sum; rw [zipWith_silent]
  scaled := fun q _ => by show (0 : ℝ) = 0 * q; rw [zero_mul]
  mix := fun m n _ _ => by show (0 : ℝ) = 0 * mixture m n + 0 * (1 - mixture m n); ring
  mixNone := fun _ _ => rfl

theorem map_silent {l : List ℝ} (h : ∀ a ∈ l, a = 0) : l.map (fun _ => (0 : ℝ)) = l := by
  conv_rhs => rw [← List.map_id l]
  exact List.map_congr_left fun a ha => (h a ha).symm

theorem silent_map (l : List ℝ) : ∀ a ∈ l.map (fun _ => (0 : ℝ)), a = 0 := by
  intro a ha
  obtain ⟨_, _, rfl⟩ := List.mem_map.mp ha
  rfl

theorem resample_silent {w : Nat → Rat → Nat → ℝ} {cfg : Cfg ℝ} (hw : cfg.ar = reals w) {r : Res ℝ} (hr : r.Silent) {out inp : List ℝ} (ho : ∀ a ∈ out, a = 0) (hi : ∀ a ∈ inp, a = 0)
    {space count : Nat} {ratio : Rat} {final : Bool} {x : Res ℝ × List ℝ × Nat} (h : resample cfg r out space inp count ratio final = some x) : x.1.Silent ∧ ∀ a ∈ x.2.1, a = 0 := by
  have e : (cfg.over (deaf w)).over (reals w) = cfg := by rw [← hw]; rfl
  have es : ∀ s : State ℝ, (∀ a ∈ s.buffer, a = 0) → (silenced w).state s = s := by
    intro s hs
    show (⟨s.params, s.initialPhase, s.currentPhase, s.currentChannel, s.filterLength, s.phaseInfo, s.sorted.map fun x => x, s.buffer.map fun _ => 0, s.left, s.centre, s.fill⟩ : State ℝ) = s
    rw [map_silent hs, List.map_id']
  have er : (silenced w).res r = r := by
    show (⟨(silenced w).state r.s, (silenced w).state r.fade, r.fadeCount, r.initialised⟩ : Res ℝ) = r
    rw [es _ hr.1, es _ hr.2]
  have hm := resample_map (cfg := cfg.over (deaf w)) (h := (silenced w : Along (cfg.over (deaf w)).ar (reals w))) r out space inp count ratio final
  have hm : resample ((cfg.over (deaf w)).over (reals w)) ((silenced w).res r) (out.map (silenced w).val) space (inp.map (silenced w).val) count ratio final = _ := hm
  rw [e, er, show out.map (silenced w).val = out from map_silent ho, show inp.map (silenced w).val = inp from map_silent hi, h] at hm
  obtain ⟨y, _, rfl⟩ := Option.map_eq_some_iff.mp hm.symm
  exact ⟨⟨silent_map _, silent_map _⟩, silent_map _⟩

theorem setAt_all {α : Type} {P : α → Prop} {l l' : List α} {i : Nat} {x : α} (hl : ∀ a ∈ l, P a) (hx : P x) (h : setAt l i x = some l') : ∀ a ∈ l', P a := by
  unfold setAt at h
  split at h
  · cases h
    intro a ha
    rcases List.mem_or_eq_of_mem_set ha with ha | rfl
    · exact hl a ha
    · exact hx
  · cases h

theorem interleaveFrame_all {α : Type} {P : α → Prop} {src : List (List α)} (hs : ∀ l ∈ src, ∀ a ∈ l, P a) (i : Nat) : ∀ n j idx (dst : List α) x, (∀ a ∈ dst, P a) →
    VectorOps.interleaveFrame src i n j idx dst = some x → ∀ a ∈ x.2, P a
  | 0, _, _, _, _, hd, h => by cases h; exact hd
  | n + 1, j, idx, dst, x, hd, h => by
    obtain ⟨ch, h1, h⟩ := Option.bind_eq_some_iff.mp h
    obtain ⟨v, h2, h⟩ := Option.bind_eq_some_iff.mp h
    obtain ⟨d, h3, h⟩ := Option.bind_eq_some_iff.mp h
    exact interleaveFrame_all hs i n (j + 1) (idx + 1) d x (setAt_all hd (hs ch (List.mem_of_getElem? h1) v (List.mem_of_getElem? h2)) h3) h

theorem interleaveLoop_all {α : Type} {P : α → Prop} {src : List (List α)} (hs : ∀ l ∈ src, ∀ a ∈ l, P a) (c : Nat) : ∀ n i idx (dst x : List α), (∀ a ∈ dst, P a) →
    VectorOps.interleaveLoop src c n i idx dst = some x → ∀ a ∈ x, P a
  | 0, _, _, _, _, hd, h => by cases h; exact hd
  | n + 1, i, idx, dst, x, hd, h => by
    obtain ⟨d, h1, h⟩ := Option.bind_eq_some_iff.mp h
    exact interleaveLoop_all hs c n (i + 1) d.1 d.2 x (interleaveFrame_all hs i c 0 idx dst d hd h1) h

theorem deinterleaveFrame_all {α : Type} {P : α → Prop} {src : List α} (hs : ∀ a ∈ src, P a) (i : Nat) : ∀ n j idx (dst : List (List α)) x, (∀ l ∈ dst, ∀ a ∈ l, P a) →
    VectorOps.deinterleaveFrame src i n j idx dst = some x → ∀ l ∈ x.2, ∀ a ∈ l, P a
  | 0, _, _, _, _, hd, h => by cases h; exact hd
  | n + 1, j, idx, dst, x, hd, h => by
    obtain ⟨v, h1, h⟩ := Option.bind_eq_some_iff.mp h
    obtain ⟨ch, h2, h⟩ := Option.bind_eq_some_iff.mp h
    obtain ⟨ch', h3, h⟩ := Option.bind_eq_some_iff.mp h
    obtain ⟨d, h4, h⟩ := Option.bind_eq_some_iff.mp h
    exact deinterleaveFrame_all hs i n (j + 1) (idx + 1) d x (setAt_all (P := fun l => ∀ a ∈ l, P a) hd (setAt_all (hd ch (List.mem_of_getElem? h2)) (hs v (List.mem_of_getElem? h1)) h3) h4) h

theorem deinterleaveLoop_all {α : Type} {P : α → Prop} {src : List α} (hs : ∀ a ∈ src, P a) (c : Nat) : ∀ n i idx (dst x : List (List α)), (∀ l ∈ dst, ∀ a ∈ l, P a) →
    VectorOps.deinterleaveLoop src c n i idx dst = some x → ∀ l ∈ x, ∀ a ∈ l, P a
  | 0, _, _, _, _, hd, h => by cases h; exact hd
  | n + 1, i, idx, dst, x, hd, h => by
    obtain ⟨d, h1, h⟩ := Option.bind_eq_some_iff.mp h
    exact deinterleaveLoop_all hs c n (i + 1) d.1 d.2 x (deinterleaveFrame_all hs i c 0 idx dst d hd h1) h

theorem resamplePlanar_silent {w : Nat → Rat → Nat → ℝ} {cfg : Cfg ℝ} (hw : cfg.ar = reals w) {r : Res ℝ} (hr : r.Silent) {iin iout : List ℝ} {out inp : List (List ℝ)} (hii : ∀ a ∈ iin, a = 0)
    (hio : ∀ a ∈ iout, a = 0) (ho : ∀ l ∈ out, ∀ a ∈ l, a = 0) (hi : ∀ l ∈ inp, ∀ a ∈ l, a = 0) {space count : Nat} {ratio : Rat} {final : Bool} {x : Res ℝ × List (List ℝ) × Nat}
    (h : resamplePlanar cfg r iin iout out space inp count ratio final = some x) : x.1.Silent ∧ ∀ l ∈ x.2.1, ∀ a ∈ l, a = 0 := by
  unfold resamplePlanar at h
  split at h
  · obtain ⟨o, h1, h⟩ := Option.bind_eq_some_iff.mp h
    obtain ⟨i, h2, h⟩ := Option.bind_eq_some_iff.mp h
    obtain ⟨⟨r', o', n⟩, h3, h⟩ := Option.bind_eq_some_iff.mp h
    obtain ⟨out', h4, h⟩ := Option.bind_eq_some_iff.mp h
    cases h
    obtain ⟨a, b⟩ := resample_silent hw hr (ho o (List.mem_of_getElem? h1)) (hi i (List.mem_of_getElem? h2)) h3
    exact ⟨a, setAt_all (P := fun l => ∀ a ∈ l, a = 0) ho b h4⟩
  · rename_i hc
    obtain ⟨i, h2, h⟩ := Option.bind_eq_some_iff.mp h
    obtain ⟨⟨r', o', n⟩, h3, h⟩ := Option.bind_eq_some_iff.mp h
    obtain ⟨out', h4, h⟩ := Option.bind_eq_some_iff.mp h
    cases h
    have hz : ∀ a ∈ i, a = 0 := by
      unfold VectorOps.v_interleave at h2
      split at h2
      · exact interleaveLoop_all (P := fun a => a = 0) hi _ _ _ _ _ _ hii h2
      · exact interleaveLoop_all (P := fun a => a = 0) hi _ _ _ _ _ _ hii h2
    obtain ⟨a, b⟩ := resample_silent hw hr hio hz h3
    refine ⟨a, ?_⟩
    unfold VectorOps.v_deinterleave at h4
    split at h4
    · exact deinterleaveLoop_all (P := fun a => a = 0) b _ _ _ _ _ _ ho h4
    · exact deinterleaveLoop_all (P := fun a => a = 0) b _ _ _ _ _ _ ho h4

end Verif.BQ

namespace Verif.R3
open Verif.BQ (reals)

/-- R3Stretcher.cpp:280-308: the settings with which the resampler is made. -/
noncomputable def resamplerCfg (p : Params) (w : Nat → Rat → Nat → ℝ) : BQ.Cfg ℝ where
  ar := reals w
  quality := .fastestTolerable
  mostlyFixed := !p.realTime
  smooth := p.realTime
  rate := p.sampleRate
  channels := p.channels

/-- Resampler.cpp:877-904 `D_BQResampler::resample` on frames: `n` frames of room, the frames `b`.  What was in the scratch buffers and in the room makes no difference (C22_planar); here it is zeros.
An access outside an array is `none` from there on. -/
noncomputable def builtinResample (cfg : BQ.Cfg ℝ) (r : Option (BQ.Res ℝ)) (n : Nat) (b : List (Frame ℝ)) (ratio : Rat) (final : Bool) : Option (BQ.Res ℝ) × List (Frame ℝ) :=
  match r.bind fun r => BQ.resamplePlanar cfg r (List.replicate (b.length * cfg.channels) 0) (List.replicate (n * cfg.channels) 0) (List.replicate cfg.channels (List.replicate n 0)) n
      ((List.range cfg.channels).map fun c => b.map fun f => f c) b.length ratio final with
  | none => (none, [])
  | some (r, out, k) => (some r, (List.range k).map fun i c => (((out[c]?).getD [])[i]?).getD 0)

/-- The built-in resampler; the effective ratio (Resampler.cpp:982-985) and the curve are parameters. -/
noncomputable def builtinEnv {τ : Type} (cfg : BQ.Cfg ℝ) (base : Env ℝ τ (Option (BQ.Res ℝ))) : Env ℝ τ (Option (BQ.Res ℝ)) :=
  { base with rsInit := some BQ.init, rsReset := Option.map BQ.reset, resample := builtinResample cfg }

theorem builtin_silent {w : Nat → Rat → Nat → ℝ} {cfg : BQ.Cfg ℝ} (hw : cfg.ar = reals w) {r : Option (BQ.Res ℝ)} (hr : ∀ q, r = some q → q.Silent) (n : Nat) {b : List (Frame ℝ)}
    (hb : ∀ x ∈ b, ∀ c < cfg.channels, x c = 0) (ratio : Rat) (final : Bool) :
    (∀ q, (builtinResample cfg r n b ratio final).1 = some q → q.Silent) ∧ ∀ x ∈ (builtinResample cfg r n b ratio final).2, ∀ c, x c = 0 := by
  unfold builtinResample
  split
  · exact ⟨fun q hq => (by cases hq), fun x hx => (by cases hx)⟩
  · rename_i r' out k h
    obtain ⟨q, hq, h⟩ := Option.bind_eq_some_iff.mp h
    obtain ⟨a, b⟩ := BQ.resamplePlanar_silent hw (hr q hq) (fun a ha => List.eq_of_mem_replicate ha) (fun a ha => List.eq_of_mem_replicate ha)
      (fun l hl a ha => List.eq_of_mem_replicate (List.eq_of_mem_replicate hl ▸ ha)) (by
        intro l hl a ha
        obtain ⟨c, hc, rfl⟩ := List.mem_map.mp hl
        obtain ⟨f, hf, rfl⟩ := List.mem_map.mp ha
        exact hb f hf c (List.mem_range.mp hc)) h
    refine ⟨fun q' hq' => by cases hq'; exact a, ?_⟩
    intro x hx c
    obtain ⟨i, _, rfl⟩ := List.mem_map.mp hx
    show (((out[c]?).getD [])[i]?).getD 0 = 0
    cases ho : out[c]? with
    | none => rfl
    | some l =>
      rw [Option.getD_some]
      cases hl : l[i]? with
      | none => rfl
      | some v => exact b l (List.mem_of_getElem? ho) v (List.mem_of_getElem? hl)

end Verif.R3
