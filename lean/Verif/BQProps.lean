import Verif.BQSession
/-!
# The resampler: properties C19, C20, C21, C22, C24, C47
-/
namespace Verif.BQ
variable {α : Type}

/-! A resampler to try things out on: samples are integers, the filter passes the sample at
its centre, and cross-fading keeps the new sample. -/
namespace Ex
def ar : Arith Int where
  zero := 0
  window := fun n _ i => if i = n / 2 then 1 else 0
  lerp := fun a _ _ => a
  dot := fun a b => (List.zipWith (· * ·) a b).sum
  dot1 := fun a b => (List.zipWith (· * ·) a b).sum
  scaled := fun _ x => x
  mix := fun _ _ _ b => b
  mixNone := fun _ _ => -1
def cfg (channels : Nat) : Cfg Int := ⟨ar, .fastest, true, true, 44100, channels⟩
def call (inp : List Int) (n space : Nat) (ratio : Rat) (final : Bool) : Call Int :=
  ⟨List.replicate 40 77, space, inp, n, ratio, final⟩
def ramp (a n : Nat) : List Int := (List.range n).map fun i => (a + i : Int)
end Ex

/-! ## C21 and C22 -/

/-- **C21.**  In every history of valid calls and resets, with any number of channels, every
call goes well (reading only the frames it was given: the input array may be no
larger), returns at most as many frames as there is space for, and writes only the frames
it returns. -/
theorem C21_bounds {cfg : Cfg α} (hpos : 0 < cfg.channels) {ops : List (Op α)}
    (hv : ∀ op ∈ ops, op.Valid cfg.channels) :
    ∃ res, run cfg init ops = some res ∧
      List.Forall₂ (fun a on => on.2 ≤ a.outspace ∧ on.1.length = a.out.length ∧
        ∀ k, on.2 * cfg.channels ≤ k → on.1[k]? = a.out[k]?) (calls ops) res := by
  obtain ⟨res, a1, a2, _⟩ := run_sim rfl hpos ops init (fun _ => init) (init_sim _)
    (fun _ _ => init_good _) hv
  exact ⟨res, a1, a2⟩

/-- **C22.**  In every history of valid calls and resets, with changes of ratio at any time:
each call returns the number of frames that a mono resampler given only channel `j`
returns, and channel `j` of its output is the output of that mono resampler.
`monoCfg` is the mono resampler with its sums computed as the one with several channels
computes them (see `C22_same_sum`). -/
theorem C22_channels {cfg : Cfg α} (hpos : 0 < cfg.channels) {ops : List (Op α)}
    (hv : ∀ op ∈ ops, op.Valid cfg.channels) :
    ∃ res, run cfg init ops = some res ∧
      ∀ j, j < cfg.channels → ∃ res', run (monoCfg cfg) init (ops.map (Op.chan cfg.channels j)) = some res' ∧
        List.Forall₂ (fun on on' => on.2 = on'.2 ∧ chan cfg.channels j on.2 on.1 = on'.1.take on.2) res res' := by
  obtain ⟨res, a1, _, a3⟩ := run_sim rfl hpos ops init (fun _ => init) (init_sim _)
    (fun _ _ => init_good _) hv
  exact ⟨res, a1, a3⟩

/-- **C22.**  If the mono sum (`v_multiply_and_sum`, in single precision) and the sum used
with several channels (in double precision) agree, that mono resampler is the ordinary one. -/
theorem C22_same_sum {cfg : Cfg α} (h : cfg.ar.dot1 = cfg.ar.dot) : monoCfg cfg = { cfg with channels := 1 } := by
  obtain ⟨⟨_, _, _, _, _, _, _, _⟩, _, _, _, _, _⟩ := cfg
  simp only at h
  subst h
  simp [monoCfg]

/-- **C22.**  No channel influences another: if two histories have the same calls, resets and
samples on channel `j`, whatever the other channels hold, the same comes out on channel `j`. -/
theorem C22_no_leak {cfg : Cfg α} (hpos : 0 < cfg.channels) {ops ops' : List (Op α)}
    (hv : ∀ op ∈ ops, op.Valid cfg.channels) (hv' : ∀ op ∈ ops', op.Valid cfg.channels) {j : Nat}
    (hj : j < cfg.channels)
    (heq : ops.map (Op.chan cfg.channels j) = ops'.map (Op.chan cfg.channels j)) :
    ∃ res res', run cfg init ops = some res ∧ run cfg init ops' = some res' ∧
      res.map (fun on => chan cfg.channels j on.2 on.1) = res'.map (fun on => chan cfg.channels j on.2 on.1) := by
  obtain ⟨res, a1, a2⟩ := C22_channels hpos hv
  obtain ⟨res', b1, b2⟩ := C22_channels hpos hv'
  refine ⟨res, res', a1, b1, ?_⟩
  obtain ⟨m, c1, c2⟩ := a2 j hj
  obtain ⟨m', d1, d2⟩ := b2 j hj
  rw [heq, d1] at c1
  cases c1
  clear a1 b1 a2 b2 d1
  induction c2 generalizing res' with
  | nil => cases d2; rfl
  | cons h _ ih =>
    cases d2 with
    | cons h' h'' =>
      simp only [List.map_cons]
      rw [ih _ h'', h.2, h'.2, h.1, h'.1]

example : (Op.call (Ex.call (Ex.ramp 1 30) 15 20 (1 / 2) false)).Valid 2 := by
  refine ⟨by decide, by decide, ?_⟩
  show (1 : Rat) / 40000 ≤ 1 / 2
  norm_num
example : run (Ex.cfg 2) init [.call (Ex.call (Ex.ramp 1 20) 10 20 1 false),
      .call (Ex.call (Ex.ramp 21 36) 18 20 (1 / 2) false), .reset, .call (Ex.call (Ex.ramp 1 4) 2 2 (3 / 2) true)]
    = some [([1, 2, 3, 4, 5, 6] ++ List.replicate 34 77, 3),
      ([7, 8, 11, 12, 15, 16, 19, 20, 23, 24, 27, 28] ++ List.replicate 28 77, 6),
      ([0, 0, 0, 0] ++ List.replicate 36 77, 2)] := by
  decide +kernel

/-! ## C20: block boundaries do not matter -/

theorem session_chan {c : Nat} {ratio : Rat} {final : Bool} {blocks : List (Call α)} {last : Call α}
    (h : Session c ratio final blocks last) {j : Nat} (hj : j < c) :
    Session 1 ratio final (blocks.map (Call.chan c j)) (last.chan c j) := by
  have key : ∀ a : Call α, a.Valid c → (a.chan c j).Valid 1 := by
    intro a ha
    refine ⟨?_, ?_, ha.ratio⟩
    · simp only [Call.chan, (chan_length hj ha.out).1, Nat.mul_one, Nat.le_refl]
    · simp only [Call.chan, (chan_length hj ha.inp).1, Nat.mul_one, Nat.le_refl]
  refine ⟨?_, key _ h.last.1, h.last.2⟩
  intro a ha
  obtain ⟨b, hb, rfl⟩ := List.mem_map.mp ha
  exact ⟨key _ (h.blocks b hb).1, (h.blocks b hb).2⟩

theorem input_chan {c j : Nat} (hj : j < c) {cs : List (Call α)} (h : ∀ a ∈ cs, a.Valid c) :
    input 1 0 (cs.map (Call.chan c j)) = input c j cs := by
  unfold input
  rw [List.map_map]
  congr 1
  apply List.map_congr_left
  intro a ha
  obtain ⟨b1, _⟩ := chan_length hj (h a ha).inp
  simp only [Function.comp, Call.chan]
  rw [chan_one _ _ (by omega), List.take_of_length_le (by omega)]

theorem output_chan {c j : Nat} {res res' : List (List α × Nat)} (hj : j < c)
    (h : List.Forall₂ (fun on on' => on.2 = on'.2 ∧ chan c j on.2 on.1 = on'.1.take on.2) res res')
    (hl : ∀ on ∈ res, on.2 * c ≤ on.1.length) : output 1 0 res' = output c j res := by
  unfold output
  congr 1
  induction h with
  | nil => rfl
  | cons h _ ih =>
    rename_i a b l l' _
    simp only [List.map_cons]
    rw [ih (fun on hon => hl on (by simp [hon])), h.2]
    congr 1
    have h1 := (chan_length hj (hl a (by simp))).1
    rw [h.2] at h1
    rw [← h.1]
    apply chan_one
    simp at h1
    omega

theorem roomy_chan {c j : Nat} {cs : List (Call α)} {res res' : List (List α × Nat)}
    (h : List.Forall₂ (fun on on' => on.2 = on'.2 ∧ chan c j on.2 on.1 = on'.1.take on.2) res res')
    (hr : Roomy cs res) : Roomy (cs.map (Call.chan c j)) res' := by
  unfold Roomy at *
  induction hr generalizing res' with
  | nil => cases h; exact List.Forall₂.nil
  | cons hr _ ih =>
    cases h with
    | cons h h' =>
      refine List.Forall₂.cons ?_ (ih h')
      rw [← h.1]; exact hr

theorem forall₂_mem {A B : Type} {R : A → B → Prop} {l : List A} {l' : List B} (h : List.Forall₂ R l l') {b : B}
    (hb : b ∈ l') : ∃ a ∈ l, R a b := by
  induction h with
  | nil => simp at hb
  | cons h _ ih =>
    rcases List.mem_cons.mp hb with h' | h'
    · subst h'; exact ⟨_, by simp, h⟩
    · obtain ⟨a, ha, hr⟩ := ih h'
      exact ⟨a, by simp [ha], hr⟩

theorem calls_map (l : List (Call α)) (a : Call α) : calls (l.map Op.call ++ [Op.call a]) = l ++ [a] := by
  induction l with
  | nil => rfl
  | cons b l ih => simp only [List.map_cons, List.cons_append, calls, ih]

/-- A session with any number of channels. -/
theorem session_output {cfg : Cfg α} (hpos : 0 < cfg.channels) {ratio : Rat} (hr : ValidRatio ratio) {final : Bool}
    {blocks : List (Call α)} {last : Call α} (hs : Session cfg.channels ratio final blocks last) :
    ∃ p, pickParams cfg ratio = some p ∧ 0 < p.num ∧ 0 < p.den ∧
      12 * max p.den p.num + 1 ≤ filterLengthFor cfg.quality p ∧ filterLengthFor cfg.quality p % 2 = 1 ∧
    ∃ res, run cfg init (blocks.map Op.call ++ [Op.call last]) = some res ∧
      (Roomy (blocks ++ [last]) res → ∀ j, j < cfg.channels → ∃ K,
        output cfg.channels j res =
          (List.range K).map (val (monoCfg cfg) p (input cfg.channels j (blocks ++ [last]))) ∧
        (∀ k, k < K → DueS cfg p final (input cfg.channels j (blocks ++ [last])).length k) ∧
        ¬ DueS cfg p final (input cfg.channels j (blocks ++ [last])).length K) := by
  obtain ⟨p, g1, g2, g3, g4, g5, g6⟩ := init_going (cfg := monoCfg cfg) hr
  have hval : ∀ a ∈ blocks ++ [last], a.Valid cfg.channels := by
    intro a ha
    rcases List.mem_append.mp ha with h | h
    · exact (hs.blocks a h).1
    · simp only [List.mem_singleton] at h
      subst h; exact hs.last.1
  have hv : ∀ op ∈ blocks.map Op.call ++ [Op.call last], op.Valid cfg.channels := by
    intro op hop
    rcases List.mem_append.mp hop with h | h
    · obtain ⟨b, hb, rfl⟩ := List.mem_map.mp h
      exact (hs.blocks b hb).1
    · simp only [List.mem_singleton] at h
      subst h; exact hs.last.1
  obtain ⟨res, a1, a2, a3⟩ := run_sim rfl hpos _ init (fun _ => init) (init_sim _) (fun _ _ => init_good _) hv
  refine ⟨p, g1.pick, g2, g3, g5, g6, res, a1, ?_⟩
  intro hroom j hj
  obtain ⟨res', b1, b2⟩ := a3 j hj
  obtain ⟨res'', c1, c2⟩ := session_going (cfg := monoCfg cfg) rfl hr (blocks.map (Call.chan cfg.channels j)) [] 0 init
    (session_chan hs hj) g1 (fun j hj => by omega)
  have hmap : (blocks.map Op.call ++ [Op.call last]).map (Op.chan cfg.channels j) =
      (blocks.map (Call.chan cfg.channels j)).map Op.call ++ [Op.call (last.chan cfg.channels j)] := by
    simp [Op.chan]
  rw [hmap, c1] at b1
  have e := Option.some.inj b1
  rw [← e] at b2
  have hroom' : Roomy (blocks.map (Call.chan cfg.channels j) ++ [last.chan cfg.channels j]) res'' := by
    have := roomy_chan b2 hroom
    simpa using this
  obtain ⟨K, d1, d2, d3⟩ := c2 hroom'
  have hin : input 1 0 (blocks.map (Call.chan cfg.channels j) ++ [last.chan cfg.channels j]) =
      input cfg.channels j (blocks ++ [last]) := by
    rw [← input_chan hj hval]; simp
  have hlens : ∀ on ∈ res, on.2 * cfg.channels ≤ on.1.length := by
    rw [calls_map] at a2
    intro on hon
    obtain ⟨a, ha, e1, e2, _⟩ := forall₂_mem a2 hon
    rw [e2]
    exact Nat.le_trans (Nat.mul_le_mul_right _ e1) (hval a ha).out
  rw [output_chan hj b2 hlens, hin] at d1
  rw [hin] at d2 d3
  simp only [List.range_zero, List.map_nil, List.nil_append] at d1 d2 d3
  exact ⟨K, d1, d2, d3⟩

/-- **C20.**  At a fixed ratio, what comes out does not depend on how the input was divided
into blocks: any two sessions with the same input on channel `j`, however divided, both
ended with or both without the final flag, in which each call returned fewer frames
than it had space for, put out the same samples on channel `j`. -/
theorem C20_partition {cfg : Cfg α} (hpos : 0 < cfg.channels) {ratio : Rat} (hr : ValidRatio ratio) {final : Bool}
    {blocks blocks' : List (Call α)} {last last' : Call α} (hs : Session cfg.channels ratio final blocks last)
    (hs' : Session cfg.channels ratio final blocks' last') :
    ∃ res res', run cfg init (blocks.map Op.call ++ [Op.call last]) = some res ∧
      run cfg init (blocks'.map Op.call ++ [Op.call last']) = some res' ∧
      (Roomy (blocks ++ [last]) res → Roomy (blocks' ++ [last']) res' → ∀ j, j < cfg.channels →
        input cfg.channels j (blocks ++ [last]) = input cfg.channels j (blocks' ++ [last']) →
        output cfg.channels j res = output cfg.channels j res') := by
  obtain ⟨p, a1, _, _, _, _, res, a2, a3⟩ := session_output hpos hr hs
  obtain ⟨p', b1, _, _, _, _, res', b2, b3⟩ := session_output hpos hr hs'
  refine ⟨res, res', a2, b2, ?_⟩
  intro h h' j hj hin
  obtain ⟨K, c1, c2, c3⟩ := a3 h j hj
  obtain ⟨K', d1, d2, d3⟩ := b3 h' j hj
  have hp : p = p' := by rw [a1] at b1; exact Option.some.inj b1
  subst hp
  rw [← hin] at d1 d2 d3
  have hK : K = K' := by
    rcases Nat.lt_trichotomy K K' with h | h | h
    · exact absurd (d2 K h) c3
    · exact h
    · exact absurd (c2 K' h) d3
  rw [c1, d1, hK]

example : (Session 1 (3 / 2) true [Ex.call (Ex.ramp 1 8) 8 20 (3 / 2) false, Ex.call [] 0 20 (3 / 2) false]
      (Ex.call (Ex.ramp 9 2) 2 20 (3 / 2) true)) ∧
    (run (Ex.cfg 1) init ([Ex.call (Ex.ramp 1 8) 8 20 (3 / 2) false, Ex.call [] 0 20 (3 / 2) false].map Op.call ++
      [Op.call (Ex.call (Ex.ramp 9 2) 2 20 (3 / 2) true)])).map (output 1 0)
      = some [1, 0, 0, 3, 0, 0, 5, 0, 0, 7, 0, 0, 9, 0, 0] ∧
    (run (Ex.cfg 1) init [Op.call (Ex.call (Ex.ramp 1 10) 10 20 (3 / 2) true)]).map (output 1 0)
      = some [1, 0, 0, 3, 0, 0, 5, 0, 0, 7, 0, 0, 9, 0, 0] := by
  have hv : ValidRatio (3 / 2) := by unfold ValidRatio; norm_num
  refine ⟨⟨?_, ⟨by decide, by decide, hv⟩, rfl, rfl⟩, by decide +kernel, by decide +kernel⟩
  intro a ha
  simp only [List.mem_cons, List.not_mem_nil, or_false] at ha
  rcases ha with rfl | rfl
  · exact ⟨⟨by decide, by decide, hv⟩, rfl, rfl⟩
  · exact ⟨⟨by decide, by decide, hv⟩, rfl, rfl⟩

/-! ## C19: the length of the output -/

/-- BQResampler.cpp:229-236 `getEffectiveRatio`, before the first call; `effective` is set on
line 370. -/
def effectiveRatio (cfg : Cfg α) (ratio : Rat) : Option Rat := do
  let p ← pickParams cfg ratio
  pure ((p.num : Rat) / p.den)

/-- **C19.**  A session of any blocks ended with the final flag, in which each call returned
fewer frames than it had space for, puts out `K` samples on every channel with
`N * e ≤ K < N * e + e + 1`, where `N` is the number of samples put in and `e` is the
effective ratio. -/
theorem C19_length {cfg : Cfg α} (hpos : 0 < cfg.channels) {ratio : Rat} (hr : ValidRatio ratio)
    {blocks : List (Call α)} {last : Call α} (hs : Session cfg.channels ratio true blocks last) :
    ∃ e, effectiveRatio cfg ratio = some e ∧ 0 < e ∧
    ∃ res, run cfg init (blocks.map Op.call ++ [Op.call last]) = some res ∧
      (Roomy (blocks ++ [last]) res → ∀ j, j < cfg.channels →
        ((input cfg.channels j (blocks ++ [last])).length : Rat) * e ≤ ((output cfg.channels j res).length : Rat) ∧
        ((output cfg.channels j res).length : Rat) <
          ((input cfg.channels j (blocks ++ [last])).length : Rat) * e + e + 1) := by
  obtain ⟨p, a1, a2, a3, _, _, res, a4, a5⟩ := session_output hpos hr hs
  have hn0 : (0 : Rat) < p.num := by exact_mod_cast a2
  have hd0 : (0 : Rat) < p.den := by exact_mod_cast a3
  refine ⟨(p.num : Rat) / p.den, by simp [effectiveRatio, a1], by positivity, res, a4, ?_⟩
  intro h j hj
  obtain ⟨K, b1, b2, b3⟩ := a5 h j hj
  rw [b1]
  simp only [List.length_map, List.length_range]
  generalize (input cfg.channels j (blocks ++ [last])).length = N at *
  obtain ⟨c1, c2⟩ := due_total a2 b2 b3
  have c1' : (N : Rat) * p.num ≤ K * p.den := by exact_mod_cast c1
  constructor
  · rw [← mul_div_assoc, div_le_iff₀ hd0]; exact c1'
  · rcases Nat.eq_zero_or_pos K with hK | hK
    · subst hK
      have : (0 : Rat) ≤ (N : Rat) * (p.num / p.den) + p.num / p.den := by positivity
      push_cast
      linarith
    · have c2' : ((K - 1 : Nat) : Rat) * p.den < N * p.num + p.num := by exact_mod_cast c2 hK
      have : ((K - 1 : Nat) : Rat) = (K : Rat) - 1 := by
        rw [Nat.cast_sub (by omega)]; simp
      rw [this] at c2'
      have : (K : Rat) - 1 < ((N : Rat) * p.num + p.num) / p.den := by
        rw [lt_div_iff₀ hd0]; exact c2'
      have e : ((N : Rat) * p.num + p.num) / p.den = N * (p.num / p.den) + p.num / p.den := by ring
      rw [e] at this
      linarith

/-- **C19.**  The effective ratio differs from the ratio asked for by less than
`1 / maxDenom + 1e-9`. -/
theorem C19_effective (cfg : Cfg α) {ratio : Rat} (hr : ValidRatio ratio) :
    ∃ e, effectiveRatio cfg ratio = some e ∧ |ratio - e| < 1 / maxDenom cfg ratio + 1 / 10 ^ 9 := by
  have hpos : 0 < ratio := lt_of_lt_of_le (by norm_num) hr
  obtain ⟨m1, _, _⟩ := maxDenom_ge cfg hpos
  obtain ⟨n, d, a1, a2, a3, a4⟩ := MathMisc.C12_partial ratio (maxDenom cfg ratio) (le_of_lt hpos) m1
  obtain ⟨p, b1, b2, b3, b4, b5, b6, b7⟩ := fillParams_spec cfg.quality ratio n d (by omega)
  refine ⟨(p.num : Rat) / p.den, ?_, ?_⟩
  · simp [effectiveRatio, pickParams, a1, b1]
  · have hd : (d : Rat) ≠ 0 := by
      have : 0 < d := by omega
      positivity
    have hp : (p.den : Rat) ≠ 0 := by positivity
    have : (p.num : Rat) / p.den = (n : Rat) / d := by
      rw [div_eq_div_iff hp hd]
      exact_mod_cast b5
    rw [this]; exact a4

example : effectiveRatio (Ex.cfg 1) (3 / 2) = some (3 / 2) := by decide +kernel

end Verif.BQ
