import Verif.LiveLemmas
import Verif.BQProps
/-!
# The counting resampler of the live shifter counts as the resampler does
-/
namespace Verif.Live
open Verif.BQ (Cfg Res Call Op)
variable {α : Type}

/-- Input is taken until the goal is reached, and no further. -/
theorem takes_eq {R : Rs} (h : R.Ok) {goal : Nat} : ∀ {m i n : Nat}, m ≤ i → goal ≤ R.due (n + m) →
    (m = 0 ∨ R.due (n + m - 1) < goal) → R.takes goal i n = m := by
  intro m
  induction m with
  | zero =>
    intro i n _ hg _
    cases i with
    | zero => rfl
    | succ i => unfold Rs.takes; rw [Nat.add_zero] at hg; rw [if_pos hg]
  | succ m ih =>
    intro i n hm hg hl
    obtain ⟨i, rfl⟩ : ∃ i', i = i' + 1 := ⟨i - 1, by omega⟩
    have h1 : R.due (n + (m + 1) - 1) < goal := by omega
    have h2 : R.due n ≤ R.due (n + (m + 1) - 1) := due_mono h (by omega)
    unfold Rs.takes
    rw [if_neg (by omega), ih (by omega) (by rw [show n + 1 + m = n + (m + 1) by omega]; exact hg) ?_]
    by_cases hm0 : m = 0
    · exact Or.inl hm0
    · right
      have e : n + 1 + m - 1 = n + (m + 1) - 1 := by omega
      rw [e]; exact h1

/-- When the model of the resampler makes its frame `k`. -/
theorem dueS_iff {cfg : Cfg α} {p : BQ.Params} (hn : 0 < p.num) (hd : 0 < p.den) {n k : Nat} :
    BQ.DueS cfg p false n k ↔ k < (ofParams cfg.quality p).due n := by
  rw [BQ.due_false]
  unfold BQ.dropped Rs.due ofParams BQ.reach
  simp only
  generalize BQ.filterLengthFor cfg.quality p / 2 / p.num = r
  generalize BQ.filterLengthFor cfg.quality p / 2 % p.num = ip
  split
  · constructor
    · intro h; omega
    · intro h; omega
  · rename_i hr
    rw [Nat.lt_succ_iff, Nat.le_div_iff_mul_le hd]
    constructor
    · intro h
      have : BQ.ceilDiv (k * p.den - ip) p.num ≤ n - r - 1 := by omega
      have := (BQ.ceilDiv_le hn).mp this
      omega
    · intro h
      have := (BQ.ceilDiv_le (c := n - r - 1) hn).mpr (by omega : k * p.den - ip ≤ (n - r - 1) * p.num)
      omega

theorem ofParams_ok (q : BQ.Quality) {p : BQ.Params} (hn : 0 < p.num) (hd : 0 < p.den) : (ofParams q p).Ok :=
  ⟨hn, hd, Nat.mod_lt _ hn⟩

/-- One call. -/
theorem resample_call {cfg : Cfg α} (hc : cfg.channels = 1) {ratio : Rat} (hr : BQ.ValidRatio ratio)
    {p : BQ.Params} (hn : 0 < p.num) (hd : 0 < p.den) {xs : List α} {k : Nat} {r : Res α}
    (h : BQ.Going cfg ratio p xs k r) (hk : k ≤ (ofParams cfg.quality p).due xs.length)
    {out : List α} {outspace : Nat} (ho : outspace ≤ out.length)
    {inp : List α} {incount : Nat} (hi : incount ≤ inp.length) :
    ∃ r' out' ys, BQ.resample cfg r out outspace inp incount ratio false =
        some (r', out', ((ofParams cfg.quality p).call ⟨xs.length, k⟩ incount outspace).2) ∧
      ((ofParams cfg.quality p).call ⟨xs.length, k⟩ incount outspace).1 =
        ⟨ys.length, k + ((ofParams cfg.quality p).call ⟨xs.length, k⟩ incount outspace).2⟩ ∧
      BQ.Going cfg ratio p ys (k + ((ofParams cfg.quality p).call ⟨xs.length, k⟩ incount outspace).2) r' ∧
      k + ((ofParams cfg.quality p).call ⟨xs.length, k⟩ incount outspace).2 ≤ (ofParams cfg.quality p).due ys.length := by
  obtain ⟨r', out', n, m, a1, a2, a3, a4, a5, _, a7, a8⟩ := BQ.resample_going_least hc hr h ho hi false
  have hok := ofParams_ok cfg.quality hn hd
  generalize hR : ofParams cfg.quality p = R at hk hok ⊢
  have hdue : ∀ {n k : Nat}, BQ.DueS cfg p false n k ↔ k < R.due n := by
    intro n k; rw [← hR]; exact dueS_iff hn hd
  have hlen : (xs ++ inp.take m).length = xs.length + m := by
    rw [List.length_append, List.length_take, Nat.min_eq_left (by omega)]
  have hmono : R.due xs.length ≤ R.due (xs.length + m) := due_mono hok (by omega)
  have hup : k + n ≤ R.due (xs.length + m) := by
    by_cases hn0 : n = 0
    · omega
    · have := hdue.mp (a7 (n - 1) (by omega))
      omega
  have key : R.call ⟨xs.length, k⟩ incount outspace = (⟨xs.length + m, k + n⟩, n) := by
    have ht : R.takes (k + outspace) incount xs.length = m := by
      by_cases hns : n = outspace
      · subst hns
        refine takes_eq hok a3 hup ?_
        rcases a8 rfl with h0 | ⟨h1, h2⟩
        · exact Or.inl h0
        · by_cases hm0 : m = 0
          · exact Or.inl hm0
          · right
            have : ¬ BQ.DueS cfg p false (xs.length + m - 1) (k + n - 1) := by
              rw [BQ.due_false]; omega
            rw [hdue] at this
            omega
      · obtain ⟨b1, b2⟩ := a5 (by omega)
        subst b1
        rw [hdue] at b2
        have : R.due (xs.length + m - 1) ≤ R.due (xs.length + m) := due_mono hok (by omega)
        exact takes_all hok (by omega)
    unfold Rs.call
    simp only
    rw [ht]
    have hmin : min outspace (R.due (xs.length + m) - k) = n := by
      by_cases hns : n = outspace
      · omega
      · obtain ⟨b1, b2⟩ := a5 (by omega)
        rw [hdue] at b2
        omega
    rw [hmin]
  rw [key]
  refine ⟨r', out', xs ++ inp.take m, a1, by rw [hlen], a2, by rw [hlen]; exact hup⟩

/-- The numbers given by calls one after another, each with so much input and so much space. -/
def counts (R : Rs) : Pos → List (Nat × Nat) → List Nat
  | _, [] => []
  | s, (m, sp) :: cs => (R.call s m sp).2 :: counts R (R.call s m sp).1 cs

theorem run_counts {cfg : Cfg α} (hc : cfg.channels = 1) {ratio : Rat} (hr : BQ.ValidRatio ratio)
    {p : BQ.Params} (hn : 0 < p.num) (hd : 0 < p.den) : ∀ (cs : List (Call α)) (xs : List α) (k : Nat) (r : Res α),
    (∀ a ∈ cs, a.Valid 1 ∧ a.ratio = ratio ∧ a.final = false) → BQ.Going cfg ratio p xs k r →
    k ≤ (ofParams cfg.quality p).due xs.length →
    ∃ res, BQ.run cfg r (cs.map Op.call) = some res ∧
      res.map (·.2) = counts (ofParams cfg.quality p) ⟨xs.length, k⟩ (cs.map fun a => (a.incount, a.outspace)) := by
  intro cs
  induction cs with
  | nil => intro xs k r _ _ _; exact ⟨[], rfl, rfl⟩
  | cons a cs ih =>
    intro xs k r hv hg hk
    obtain ⟨v1, v2, v3⟩ := hv a (by simp)
    have vo := v1.out
    have vi := v1.inp
    rw [Nat.mul_one] at vo vi
    obtain ⟨r', out', ys, a1, a2, a3, a4⟩ := resample_call hc hr hn hd hg hk vo vi
    obtain ⟨res, b1, b2⟩ := ih ys _ r' (fun b hb => hv b (by simp [hb])) a3 a4
    refine ⟨(out', ((ofParams cfg.quality p).call ⟨xs.length, k⟩ a.incount a.outspace).2) :: res, ?_, ?_⟩
    · simp only [List.map_cons, BQ.run, v2, v3, a1, b1, Option.bind_eq_bind, Option.bind_some]
      rfl
    · simp only [List.map_cons, counts, b2, a2]

/-- The choice of parameters depends on nothing of the configuration but the quality and the kind of
ratio changes; in particular not on the arithmetic. -/
theorem pickParams_cfg {β : Type} (cfg : Cfg α) (cfg' : Cfg β) (hq : cfg.quality = cfg'.quality)
    (hm : cfg.mostlyFixed = cfg'.mostlyFixed) (ratio : Rat) : BQ.pickParams cfg ratio = BQ.pickParams cfg' ratio := by
  unfold BQ.pickParams BQ.maxDenom
  rw [hq, hm]

/-- The model of `src/common/BQResampler.cpp`, with any number of channels and any arithmetic, in the
configuration of the live shifter: from construction, in any succession of calls at one ratio, each
call returns the number of frames that the counters say. -/
theorem resampler_counts {cfg : Cfg α} (hpos : 0 < cfg.channels) (hq : cfg.quality = .fastestTolerable)
    (hm : cfg.mostlyFixed = false) {ratio : Rat} (hr : BQ.ValidRatio ratio) {cs : List (Call α)}
    (hv : ∀ a ∈ cs, a.Valid cfg.channels ∧ a.ratio = ratio ∧ a.final = false) :
    ∃ R res, picked ratio = some R ∧ BQ.run cfg BQ.init (cs.map Op.call) = some res ∧
      res.map (·.2) = counts R {} (cs.map fun a => (a.incount, a.outspace)) := by
  obtain ⟨p, g1, g2, g3, g4, g5, g6⟩ := BQ.init_going (cfg := BQ.monoCfg cfg) hr
  have hpick : picked ratio = some (ofParams cfg.quality p) := by
    have e := g1.pick
    rw [pickParams_cfg (BQ.monoCfg cfg) resamplerCfg hq hm] at e
    unfold picked
    rw [e, hq]; rfl
  obtain ⟨res, a1, a2⟩ := BQ.C22_channels hpos (ops := cs.map Op.call) (by
    intro op hop
    obtain ⟨a, ha, rfl⟩ := List.mem_map.mp hop
    exact (hv a ha).1)
  obtain ⟨res', b1, b2⟩ := a2 0 hpos
  obtain ⟨res'', c1, c2⟩ := run_counts (cfg := BQ.monoCfg cfg) rfl hr g2 g3 (cs.map (Call.chan cfg.channels 0)) [] 0 BQ.init (by
    intro b hb
    obtain ⟨a, ha, rfl⟩ := List.mem_map.mp hb
    obtain ⟨v1, v2, v3⟩ := hv a ha
    refine ⟨⟨?_, ?_, v1.ratio⟩, v2, v3⟩
    · show a.outspace * 1 ≤ (BQ.chan cfg.channels 0 a.outspace a.out).length
      rw [(BQ.chan_length hpos v1.out).1]; omega
    · show a.incount * 1 ≤ (BQ.chan cfg.channels 0 a.incount a.inp).length
      rw [(BQ.chan_length hpos v1.inp).1]; omega) g1 (by omega)
  have hmap : (cs.map Op.call).map (Op.chan cfg.channels 0) = (cs.map (Call.chan cfg.channels 0)).map Op.call := by
    simp [Op.chan]
  rw [hmap, c1] at b1
  have e := Option.some.inj b1
  subst e
  refine ⟨_, res, hpick, a1, ?_⟩
  have hres : res.map (·.2) = res''.map (·.2) := by
    have b3 := b2
    clear c2 c1 a1 b1 a2 b2
    induction b3 with
    | nil => rfl
    | cons h _ ih => simp only [List.map_cons, h.1, ih]
  rw [hres, c2, List.map_map]
  rfl

def Ex.cfg : Cfg Int := ⟨BQ.Ex.ar, .fastestTolerable, false, true, 44100, 2⟩

/-- The hypotheses can be met: two channels, two calls at a ratio of 3/2. -/
example : ∃ R res, picked (3 / 2) = some R ∧
    BQ.run Ex.cfg BQ.init
      ([⟨List.replicate 40 0, 20, List.replicate 20 1, 10, 3 / 2, false⟩,
        ⟨List.replicate 40 0, 20, List.replicate 40 1, 20, 3 / 2, false⟩].map Op.call) = some res ∧
      res.map (·.2) = counts R {} [(10, 20), (20, 20)] :=
  resampler_counts (by decide) rfl rfl (by unfold BQ.ValidRatio; norm_num) (by
    intro a ha
    simp only [List.mem_cons, List.not_mem_nil, or_false] at ha
    rcases ha with rfl | rfl
    · exact ⟨⟨by decide, by decide, by unfold BQ.ValidRatio; norm_num⟩, rfl, rfl⟩
    · exact ⟨⟨by decide, by decide, by unfold BQ.ValidRatio; norm_num⟩, rfl, rfl⟩)

end Verif.Live
