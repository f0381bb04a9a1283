import Verif.BQProps
/-!
# The resampler: properties C24 and C47
-/
namespace Verif.BQ
variable {α : Type}

/-! ## C24: output space and lost input -/

/-- C24 in full: if every call but the last has the documented output space,
`ceil(incount * ratio)`, and the last has more than it uses, then no input is lost: what comes
out is what comes out of a single call with all the input and space to spare. -/
def C24_statement : Prop :=
  ∀ (α : Type) (cfg : Cfg α) (ratio : Rat) (blocks : List (Call α)) (last one : Call α)
    (res res' : List (List α × Nat)),
    0 < cfg.channels → ValidRatio ratio → Session cfg.channels ratio true blocks last →
    (∀ a ∈ blocks, ((a.incount : Rat) * ratio).ceil ≤ a.outspace) →
    Session cfg.channels ratio true [] one →
    (∀ j, j < cfg.channels → input cfg.channels j (blocks ++ [last]) = input cfg.channels j [one]) →
    run cfg init (blocks.map Op.call ++ [Op.call last]) = some res →
    run cfg init [Op.call one] = some res' →
    (∀ on, res.getLast? = some on → on.2 < last.outspace) → Roomy [one] res' →
    ∀ j, j < cfg.channels → output cfg.channels j res = output cfg.channels j res'

namespace Ex
/-- Blocks of 13 and 2 frames at ratio 1/2, with space for 7 and 1. -/
def blocks24 : List (Call Int) := [call (ramp 1 13) 13 7 (1 / 2) false, call (ramp 14 2) 2 1 (1 / 2) false]
def last24 : Call Int := call [] 0 20 (1 / 2) true
def one24 : Call Int := call (ramp 1 15) 15 20 (1 / 2) true
def out24 : Option (List (List Int × Nat)) :=
  run (cfg 1) init (blocks24.map Op.call ++ [Op.call last24])
def out24' : Option (List (List Int × Nat)) := run (cfg 1) init [Op.call one24]
def res24 : List (List Int × Nat) :=
  [(List.replicate 40 77, 0), (1 :: List.replicate 39 77, 1), ([3, 5, 7, 9, 11, 13] ++ List.replicate 34 77, 6)]
def res24' : List (List Int × Nat) := [([1, 3, 5, 7, 9, 11, 13, 15] ++ List.replicate 32 77, 8)]
end Ex

/-- C24 is false of the code.  At ratio 1/2, after 13 frames, a call with 2 frames and space for
1 frame, which is `ceil(2 * 1/2)`, takes in 1 frame, makes 1 frame and returns with the
second frame lost. -/
theorem C24_violated : ¬ C24_statement := by
  intro h
  have hv : ValidRatio (1 / 2) := by unfold ValidRatio; norm_num
  have := h Int (Ex.cfg 1) (1 / 2) Ex.blocks24 Ex.last24 Ex.one24 Ex.res24 Ex.res24' (by decide) hv
    (by
      refine ⟨?_, ⟨by decide, by decide, hv⟩, rfl, rfl⟩
      intro a ha
      simp only [Ex.blocks24, List.mem_cons, List.not_mem_nil, or_false] at ha
      rcases ha with rfl | rfl
      · exact ⟨⟨by decide, by decide, hv⟩, rfl, rfl⟩
      · exact ⟨⟨by decide, by decide, hv⟩, rfl, rfl⟩)
    (by decide +kernel)
    (by
      refine ⟨?_, ⟨by decide, by decide, hv⟩, rfl, rfl⟩
      intro a ha
      simp at ha)
    (by decide +kernel) (by decide +kernel) (by decide +kernel)
    (by
      intro on hon
      simp only [Ex.res24, List.getLast?_cons_cons, List.getLast?_singleton, Option.some.injEq] at hon
      subst hon
      decide)
    (by
      unfold Roomy Ex.res24'
      exact List.Forall₂.cons (by decide) List.Forall₂.nil)
    0 (by decide)
  revert this
  decide +kernel

theorem not_due_zero {cfg : Cfg α} {p : Params} (hn : 0 < p.num) : ¬ DueS cfg p false 0 0 := by
  rw [due_false, dropped_zero hn (Nat.mod_lt _ hn)]
  omega

/-- Starting from nothing due, `m` more samples of input make at most `ceil(m * num / den)`
samples due. -/
theorem due_count {cfg : Cfg α} {p : Params} (hn : 0 < p.num) {N m k n : Nat}
    (h1 : ¬ DueS cfg p false N k) (h2 : ∀ j, j < n → DueS cfg p false (N + m) (k + j)) (h0 : 0 < n) :
    (n - 1) * p.den < m * p.num := by
  rw [due_false] at h1
  have h3 := due_false.mp (h2 (n - 1) (by omega))
  have hip : filterLengthFor cfg.quality p / 2 % p.num < p.num := Nat.mod_lt _ hn
  have a1 := (dropped_spec hn hip p.den k).2
  have a2 := (dropped_spec hn hip p.den (k + (n - 1))).1
  generalize dropped p.num p.den (filterLengthFor cfg.quality p / 2 % p.num) k = d at *
  generalize dropped p.num p.den (filterLengthFor cfg.quality p / 2 % p.num) (k + (n - 1)) = d' at *
  have h4 : d' + 1 ≤ d + m := by omega
  have h5 := Nat.mul_le_mul_right p.num h4
  rw [Nat.add_mul, Nat.add_mul] at h5
  rw [Nat.add_mul] at a2
  omega

theorem mono_roomy {cfg : Cfg α} (hc : cfg.channels = 1) {ratio : Rat} (hr : ValidRatio ratio)
    {p : Params} (hn : 0 < p.num) {final : Bool} {last : Call α} :
    ∀ (blocks : List (Call α)) (xs : List α) (k : Nat) (r : Res α),
    Session 1 ratio final blocks last → Going cfg ratio p xs k r → ¬ DueS cfg p false xs.length k →
    (∀ a ∈ blocks, a.incount * p.num ≤ (a.outspace - 1) * p.den ∧ 0 < a.outspace) →
    ∀ res, run cfg r (blocks.map Op.call ++ [Op.call last]) = some res →
      ∃ res1 on, res = res1 ++ [on] ∧ Roomy blocks res1 := by
  intro blocks
  induction blocks with
  | nil =>
    intro xs k r hs hg _ hb res hrun
    simp only [List.map_nil, List.nil_append, run] at hrun
    cases hx : resample cfg r last.out last.outspace last.inp last.incount last.ratio last.final with
    | none => rw [hx] at hrun; cases hrun
    | some x =>
      rw [hx] at hrun
      simp only [Option.bind_eq_bind, Option.bind_some] at hrun
      cases hrun
      exact ⟨[], _, rfl, List.Forall₂.nil⟩
  | cons b blocks ih =>
    intro xs k r hs hg hdue hb res hrun
    obtain ⟨v1, v2, v3⟩ := hs.blocks b (by simp)
    have vo := v1.out
    have vi := v1.inp
    rw [Nat.mul_one] at vo vi
    obtain ⟨r', out', n, m, a1, a2, a3, a4, a5, a6, a7⟩ := resample_going hc hr hg vo vi false
    obtain ⟨hb1, hb2⟩ := hb b (by simp)
    have hlt : n < b.outspace := by
      rcases Nat.eq_zero_or_pos n with h0 | h0
      · omega
      · have h1 := due_count hn hdue a7 h0
        have h2 : m * p.num ≤ b.incount * p.num := Nat.mul_le_mul_right _ a3
        have h3 : (n - 1) * p.den < (b.outspace - 1) * p.den := by omega
        have := Nat.lt_of_mul_lt_mul_right h3
        omega
    obtain ⟨c1, c2⟩ := a5 hlt
    simp only [List.map_cons, List.cons_append, run, v2, v3, a1, Option.bind_eq_bind, Option.bind_some] at hrun
    cases hx : run cfg r' (blocks.map Op.call ++ [Op.call last]) with
    | none => rw [hx] at hrun; cases hrun
    | some res0 =>
      rw [hx] at hrun
      simp only [Option.bind_some] at hrun
      cases hrun
      obtain ⟨res1, on, d1, d2⟩ := ih _ _ r' ⟨fun a ha => hs.blocks a (by simp [ha]), hs.last⟩ a2
        (by rw [List.length_append, List.length_take, Nat.min_eq_left (by omega)]; exact c2)
        (fun a ha => hb a (by simp [ha])) res0 hx
      exact ⟨(out', n) :: res1, on, by rw [d1]; rfl, List.Forall₂.cons hlt d2⟩

/-- **C24 (partial).**  One frame more than documented is enough: in a session in which every
call but the last has space for at least `ceil(incount * e) + 1` frames, `e` being the effective
ratio, each of these calls returns fewer frames than it has space for, so that nothing is
lost and `C20_partition` and `C19_length` apply.  Missing: that the documented space is enough,
which is false (`C24_violated`). -/
theorem C24_partial {cfg : Cfg α} (hpos : 0 < cfg.channels) {ratio : Rat} (hr : ValidRatio ratio) {final : Bool}
    {blocks : List (Call α)} {last : Call α} (hs : Session cfg.channels ratio final blocks last) :
    ∃ e, effectiveRatio cfg ratio = some e ∧
      ((∀ a ∈ blocks, ((a.incount : Rat) * e).ceil + 1 ≤ a.outspace) →
        ∃ res on, run cfg init (blocks.map Op.call ++ [Op.call last]) = some (res ++ [on]) ∧ Roomy blocks res) := by
  obtain ⟨p, g1, g2, g3, g4, g5, g6⟩ := init_going (cfg := monoCfg cfg) hr
  have hd0 : (0 : Rat) < p.den := by exact_mod_cast g3
  refine ⟨(p.num : Rat) / p.den, ?_, ?_⟩
  · have : pickParams cfg ratio = some p := g1.pick
    simp [effectiveRatio, this]
  · intro hsp
    have hv : ∀ op ∈ blocks.map Op.call ++ [Op.call last], op.Valid cfg.channels := by
      intro op hop
      rcases List.mem_append.mp hop with h | h
      · obtain ⟨b, hb, rfl⟩ := List.mem_map.mp h
        exact (hs.blocks b hb).1
      · simp only [List.mem_singleton] at h
        subst h; exact hs.last.1
    obtain ⟨res, a1, a2, a3⟩ := run_sim rfl hpos _ init (fun _ => init) (init_sim _) (fun _ _ => init_good _) hv
    obtain ⟨res', b1, b2⟩ := a3 0 hpos
    have hmap : (blocks.map Op.call ++ [Op.call last]).map (Op.chan cfg.channels 0) =
        (blocks.map (Call.chan cfg.channels 0)).map Op.call ++ [Op.call (last.chan cfg.channels 0)] := by
      simp [Op.chan]
    rw [hmap] at b1
    obtain ⟨res1, on, c1, c2⟩ := mono_roomy (cfg := monoCfg cfg) rfl hr g2 (blocks.map (Call.chan cfg.channels 0)) [] 0
      init (session_chan hs hpos) g1 (not_due_zero g2)
      (by
        intro a ha
        obtain ⟨b, hb, rfl⟩ := List.mem_map.mp ha
        have h1 := hsp b hb
        simp only [Call.chan]
        have h0 : 0 ≤ ((b.incount : Rat) * ((p.num : Rat) / p.den)).ceil := by
          have : ((-1 : Int) : Rat) < (b.incount : Rat) * ((p.num : Rat) / p.den) := by
            have : (0 : Rat) ≤ (b.incount : Rat) * ((p.num : Rat) / p.den) := by positivity
            push_cast; linarith
          have := Rat.lt_ceil_iff.mpr this
          omega
        have hpos' : 0 < b.outspace := by omega
        refine ⟨?_, hpos'⟩
        have h2 : ((b.incount : Rat) * ((p.num : Rat) / p.den)).ceil ≤ ((b.outspace - 1 : Nat) : Int) := by omega
        rw [Rat.ceil_le_iff, ← mul_div_assoc, div_le_iff₀ hd0] at h2
        exact_mod_cast h2)
      res' b1
    subst c1
    obtain ⟨res2, on2, rfl⟩ : ∃ res2 on2, res = res2 ++ [on2] := by
      have hl := b2.length_eq
      rcases List.eq_nil_or_concat res with h | ⟨l, x, h⟩
      · subst h; simp at hl
      · exact ⟨l, x, by simpa using h⟩
    refine ⟨res2, on2, a1, ?_⟩
    have hll : res2.length = res1.length := by
      have := b2.length_eq
      simpa using this
    clear a1 a2 a3 b1
    have b3 : List.Forall₂ (fun on on' => on.2 = on'.2 ∧ chan cfg.channels 0 on.2 on.1 = on'.1.take on.2) res2 res1 := by
      have := List.forall₂_take_append _ _ _ b2
      rw [← hll, List.take_left] at this
      exact this
    clear b2 hs hsp hv hmap
    unfold Roomy at *
    induction b3 generalizing blocks with
    | nil => cases blocks <;> cases c2; exact List.Forall₂.nil
    | cons h _ ih =>
      cases blocks with
      | nil => cases c2
      | cons b bs =>
        cases c2 with
        | cons h1 h2 =>
          refine List.Forall₂.cons ?_ (ih h2 (by simpa using hll))
          rw [h.1]; exact h1

/-- The hypothesis of `C24_partial` is met by the blocks of 13 and 2 frames with space for 8 and
2; now nothing is lost. -/
example : (∀ a ∈ [Ex.call (Ex.ramp 1 13) 13 8 (1 / 2) false, Ex.call (Ex.ramp 14 2) 2 2 (1 / 2) false],
      ((a.incount : Rat) * (1 / 2)).ceil + 1 ≤ a.outspace) ∧
    (run (Ex.cfg 1) init ([Ex.call (Ex.ramp 1 13) 13 8 (1 / 2) false, Ex.call (Ex.ramp 14 2) 2 2 (1 / 2) false,
      Ex.last24].map Op.call)).map (output 1 0) = some [1, 3, 5, 7, 9, 11, 13, 15] := by
  decide +kernel

/-! ## C47: the value of each sample -/

/-- Value `i` of the filter at the ratio with parameters `p`: computed for the ratio, or
interpolated from a prototype. -/
def tap (cfg : Cfg α) (p : Params) (i : Int) : α :=
  if cfg.mostlyFixed then cfg.ar.window (filterLengthFor cfg.quality p) p.peakToZero i.toNat
  else interp cfg (filterLengthFor cfg.quality p) i.toNat

/-- Sample `m` of the input `xs`, which is silent before its start and after its end. -/
def at0 (z : α) (xs : List α) (m : Int) : α := if m < 0 then z else (xs[m.toNat]?).getD z

/-- The sum, over the `n` input samples from `m` on, of the input weighed by the filter with its
centre placed at the time of output sample `k`, which is `k * den / num`. -/
def centred (cfg : Cfg α) (p : Params) (xs : List α) (k : Nat) (m : Int) (n : Nat) : α :=
  weigh cfg p
    ((List.range n).map fun (i : Nat) =>
      tap cfg p (((filterLengthFor cfg.quality p / 2 : Nat) : Int) + (m + i) * p.num - (k : Int) * p.den))
    ((List.range n).map fun (i : Nat) => at0 cfg.ar.zero xs (m + i))

/-- The place in the filter of input sample `m` for output sample `k`. -/
def place (cfg : Cfg α) (p : Params) (k : Nat) (m : Int) : Int :=
  ((filterLengthFor cfg.quality p / 2 : Nat) : Int) + m * p.num - (k : Int) * p.den

/-- C47 in full: in a session at a fixed ratio, output sample `k` is the sum over *all* input
samples under the filter. -/
def C47_statement : Prop :=
  ∀ (α : Type) (cfg : Cfg α) (ratio : Rat) (final : Bool) (blocks : List (Call α)) (last : Call α)
    (res : List (List α × Nat)) (p : Params),
    0 < cfg.channels → ValidRatio ratio → Session cfg.channels ratio final blocks last →
    run cfg init (blocks.map Op.call ++ [Op.call last]) = some res → Roomy (blocks ++ [last]) res →
    pickParams cfg ratio = some p →
    ∀ j, j < cfg.channels → ∀ k x, (output cfg.channels j res)[k]? = some x →
      ∃ (m : Int) (n : Nat), x = centred (monoCfg cfg) p (input cfg.channels j (blocks ++ [last])) k m n ∧
        place cfg p k (m - 1) < 0 ∧ 0 ≤ place cfg p k m ∧
        place cfg p k (m + n - 1) < filterLengthFor cfg.quality p ∧
        (filterLengthFor cfg.quality p : Int) ≤ place cfg p k (m + n)

/-- **C47 (partial).**  In a session at a fixed ratio, however divided into blocks, in which each
call returned fewer frames than it had space for, output sample `k` on channel `j` is the
sum of the input on channel `j` weighed by the filter with its centre placed exactly at
the time `k * den / num`: input sample `m` gets filter value
`half + m * num - k * den`.  There is no delay and no drift.  The sum begins with the first
input sample under the filter and leaves out at most the last one.  Missing: that it never
leaves it out, which is false (`C47_violated`). -/
theorem C47_partial {cfg : Cfg α} (hpos : 0 < cfg.channels) {ratio : Rat} (hr : ValidRatio ratio) {final : Bool}
    {blocks : List (Call α)} {last : Call α} (hs : Session cfg.channels ratio final blocks last) :
    ∃ p, pickParams cfg ratio = some p ∧
    ∃ res, run cfg init (blocks.map Op.call ++ [Op.call last]) = some res ∧
      (Roomy (blocks ++ [last]) res → ∀ j, j < cfg.channels → ∀ k x, (output cfg.channels j res)[k]? = some x →
      ∃ (m : Int) (n : Nat), x = centred (monoCfg cfg) p (input cfg.channels j (blocks ++ [last])) k m n ∧
        place cfg p k (m - 1) < 0 ∧ 0 ≤ place cfg p k m ∧
        place cfg p k (m + n - 1) < filterLengthFor cfg.quality p ∧
        (filterLengthFor cfg.quality p : Int) ≤ place cfg p k (m + n + 1)) := by
  obtain ⟨p, a1, a2, a3, f1, f2, res, a4, a5⟩ := session_output hpos hr hs
  refine ⟨p, a1, res, a4, ?_⟩
  intro hroom j hj k x hx
  obtain ⟨K, b1, b2, b3⟩ := a5 hroom j hj
  generalize input cfg.channels j (blocks ++ [last]) = xs at *
  rw [b1] at hx
  have hk : k < K := by
    have := List.getElem?_eq_some_iff.mp hx
    simpa using this.1
  have hx' : x = val (monoCfg cfg) p xs k := by
    have := List.getElem?_eq_some_iff.mp hx
    obtain ⟨_, h⟩ := this
    simpa using h.symm
  have hq : (monoCfg cfg).quality = cfg.quality := rfl
  have hreach : reach (monoCfg cfg) p = filterLengthFor cfg.quality p / 2 / p.num := rfl
  have hplace : ∀ m, place cfg p k m = ((filterLengthFor cfg.quality p / 2 : Nat) : Int) + m * p.num - (k : Int) * p.den :=
    fun _ => rfl
  unfold val value at hx'
  unfold centred tap
  simp only [hq, hreach, hplace, Nat.sub_zero, Nat.zero_add] at hx' ⊢
  generalize hfl : filterLengthFor cfg.quality p = fl at *
  have hip : fl / 2 % p.num < p.num := Nat.mod_lt _ a2
  have c1 := phaseAt_add a2 hip p.den k
  have c2 := phaseAt_lt a2 hip p.den k
  have c3 : p.num * (fl / 2 / p.num) + fl / 2 % p.num = fl / 2 := Nat.div_add_mod _ _
  generalize dropped p.num p.den (fl / 2 % p.num) k = d at *
  generalize phaseAt p.num p.den (fl / 2 % p.num) k = ph at *
  generalize fl / 2 / p.num = bl at *
  generalize hipe : fl / 2 % p.num = ip at *
  have hbl : (bl : Int) * p.num + ip = ((fl / 2 : Nat) : Int) := by
    rw [← c3]; push_cast; ring
  have c1' : (ph : Int) + k * p.den = d * p.num + ip := by exact_mod_cast c1
  have hpl : ∀ i : Int, ((fl / 2 : Nat) : Int) + ((d : Int) - bl + i) * p.num - (k : Int) * p.den = i * p.num + ph := by
    intro i
    rw [← hbl]
    linarith
  generalize hn : min (ceilDiv (fl - ph) p.num) (2 * bl + 1) = n at *
  refine ⟨(d : Int) - bl, n, ?_, ?_, ?_, ?_, ?_⟩
  · rw [hx']
    congr 1
    · unfold coefs
      apply List.map_congr_left
      intro i hi
      rw [hpl i]
      have : ((i : Int) * p.num + ph).toNat = i * p.num + ph := by
        have : ((i : Int) * p.num + ph) = ((i * p.num + ph : Nat) : Int) := by push_cast; ring
        rw [this]; rfl
      rw [this]
    · apply List.map_congr_left
      intro i hi
      unfold sig at0
      by_cases hlt : d + i < bl
      · rw [if_pos hlt, if_pos (by omega)]
      · rw [if_neg hlt, if_neg (by omega), show ((d : Int) - bl + i).toNat = d + i - bl by omega]
  · have := hpl (-1)
    rw [show (d : Int) - bl + -1 = (d : Int) - bl - 1 by ring] at this
    rw [this]
    omega
  · have := hpl 0
    rw [show (d : Int) - bl + 0 = (d : Int) - bl by ring] at this
    rw [this]
    omega
  · have := hpl ((n : Int) - 1)
    rw [show (d : Int) - bl + ((n : Int) - 1) = (d : Int) - bl + n - 1 by ring] at this
    rw [this]
    have hn0 : 0 < n := by
      rw [← hn]
      have hlt : 0 < ceilDiv (fl - ph) p.num := by
        rw [lt_ceilDiv a2]
        have : p.num ≤ max p.den p.num := Nat.le_max_right _ _
        omega
      omega
    have h1 : n - 1 < ceilDiv (fl - ph) p.num := by omega
    rw [lt_ceilDiv a2] at h1
    have h2 : ((n : Int) - 1) * p.num = (((n - 1) * p.num : Nat) : Int) := by
      rw [Nat.cast_mul, Nat.cast_sub (by omega)]; simp
    rw [h2]
    omega
  · have := hpl ((n : Int) + 1)
    rw [show (d : Int) - bl + ((n : Int) + 1) = (d : Int) - bl + n + 1 by ring] at this
    rw [this]
    have h2 : ((n : Int) + 1) * p.num = (((n + 1) * p.num : Nat) : Int) := by push_cast; ring
    rw [h2]
    rcases Nat.lt_or_ge (2 * bl + 1) (ceilDiv (fl - ph) p.num) with h | h
    · have : n = 2 * bl + 1 := by omega
      subst this
      have e : (2 * bl + 1 + 1) * p.num = 2 * (p.num * bl) + 2 * p.num := by ring
      rw [e]
      omega
    · have : n = ceilDiv (fl - ph) p.num := by omega
      have h3 := (ceilDiv_le (a := fl - ph) (c := n) a2).mp (by omega)
      have e : (n + 1) * p.num = n * p.num + p.num := by ring
      rw [e]
      omega

namespace Ex
/-- A resampler whose samples tell how many input samples they were made from. -/
def counting : Cfg Int := { cfg 1 with ar := { ar with dot1 := fun a _ => a.length } }
def call47 : Call Int := call (ramp 1 10) 10 20 (3 / 2) true
def res47 : List (List Int × Nat) :=
  [([13, 13, 13, 13, 13, 13, 13, 13, 13, 13, 13, 13, 13, 13, 13] ++ List.replicate 25 77, 15)]
end Ex

/-- C47 is false of the code: the buffer, of `2 * (half / num) + 1` frames, can be one frame too
short for the filter.  At ratio 3/2 the filter has 41 values; at phase 0 it spans 14 input
samples, but the buffer has room for 13, and the sample is made without the last. -/
theorem C47_violated : ¬ C47_statement := by
  intro h
  have hv : ValidRatio (3 / 2) := by unfold ValidRatio; norm_num
  have hp : (pickParams Ex.counting (3 / 2)).map (fun p => (p.num, p.den, filterLengthFor .fastest p)) = some (3, 2, 41) := by
    decide +kernel
  cases hpp : pickParams Ex.counting (3 / 2) with
  | none => rw [hpp] at hp; cases hp
  | some p =>
    rw [hpp] at hp
    simp only [Option.map_some, Option.some.injEq, Prod.mk.injEq] at hp
    obtain ⟨p1, p2, p3⟩ := hp
    have hs : Session 1 (3 / 2) true [] Ex.call47 := by
      refine ⟨?_, ⟨by decide, by decide, hv⟩, rfl, rfl⟩
      intro a ha
      simp at ha
    obtain ⟨m, n, e, c1, c2, c3, c4⟩ := h Int Ex.counting (3 / 2) true [] Ex.call47 Ex.res47 p (by decide) hv hs
      (by decide +kernel) (List.Forall₂.cons (by decide) List.Forall₂.nil) hpp 0 (by decide) 1 13 (by decide +kernel)
    have e' : (13 : Int) = n := by
      rw [e]
      simp [centred, weigh, monoCfg, Ex.counting, Ex.cfg, Ex.ar]
    have hfl : filterLengthFor Ex.counting.quality p = 41 := p3
    unfold place at c1 c2 c3 c4
    simp only [hfl, p1, p2] at c1 c2 c3 c4
    omega

end Verif.BQ
