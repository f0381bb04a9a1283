import Verif.BQPhase
/-!
# The resampler with one channel: lemmas

`Good` holds of every state the code can build; a call on good states has no
undefined behaviour, keeps them good and stays within its buffers.
-/
namespace Verif.BQ
open Verif.MovingMedian (setAt)
variable {α : Type}

/-- A well-formed state of a resampler with one channel. -/
structure Good (cfg : Cfg α) (s : State α) : Prop where
  num_pos : 0 < s.params.num
  den_pos : 0 < s.params.den
  fl_ge : 2 ≤ s.filterLength
  table : TableOK s.filterLength s.params.num s.params.den s.phaseInfo
  sorted : cfg.mostlyFixed = true → SortedOK (cfg.ar.window s.filterLength s.params.peakToZero)
    s.filterLength s.params.num s.phaseInfo s.sorted
  ip : s.initialPhase = s.filterLength / 2 % s.params.num
  cp : s.currentPhase < s.params.num
  ch : s.currentChannel = 0
  size : 2 * (s.filterLength / 2 / s.params.num) + 1 ≤ s.buffer.length
  centre : s.centre = s.buffer.length / 2
  left : s.left = s.centre - s.filterLength / 2 / s.params.num
  fill : s.fill ≤ s.buffer.length
  drops : s.params.den ≤ s.filterLength / 2 / s.params.num * s.params.num

/-- The number of filter values used. -/
def taps (s : State α) : Nat :=
  min (ceilDiv (s.filterLength - s.currentPhase) s.params.num) (s.buffer.length - s.left)

/-- One interpolated filter value. -/
def interp (cfg : Cfg α) (fl k : Nat) : α :=
  let protoLength := cfg.quality.protoP * cfg.quality.pMultiple + 1
  let proto := fun k => if k = protoLength then cfg.ar.zero
      else cfg.ar.window protoLength cfg.quality.protoP k
  let ix : Rat := ((protoLength - 1 : Nat) : Rat) / ((fl - 1 : Nat) : Rat) * (k : Rat)
  cfg.ar.lerp (proto ix.floor.toNat) (proto (ix.floor.toNat + 1)) (ix - ix.floor.toNat)

/-- The filter values for phase `p`. -/
def coefs (cfg : Cfg α) (params : Params) (fl p n : Nat) : List α :=
  (List.range n).map fun i =>
    if cfg.mostlyFixed then cfg.ar.window fl params.peakToZero (i * params.num + p)
    else interp cfg fl (i * params.num + p)

/-- The sample made from filter values `cs` and input `xs` by a mono resampler. -/
def weigh (cfg : Cfg α) (params : Params) (cs xs : List α) : α :=
  cfg.ar.scaled params.scale (if cfg.mostlyFixed then cfg.ar.dot1 cs xs else cfg.ar.dot cs xs)

/-- The sample made next. -/
def sample (cfg : Cfg α) (s : State α) : α :=
  weigh cfg s.params (coefs cfg s.params s.filterLength s.currentPhase (taps s))
    ((s.buffer.drop s.left).take (taps s))

theorem gather_mono (buffer : List α) (left : Nat) : ∀ (rounds i : Nat),
    left + i + rounds ≤ buffer.length →
    gather buffer left 1 0 rounds i = some ((buffer.drop (left + i)).take rounds) := by
  intro rounds
  induction rounds with
  | zero => intro i _; simp [gather]
  | succ rounds ih =>
    intro i h
    unfold gather
    have hx : left + i * 1 + 0 = left + i := by omega
    have hlt : left + i < buffer.length := by omega
    rw [hx, List.getElem?_eq_getElem hlt, ih (i + 1) (by omega), List.drop_eq_getElem_cons hlt]
    simp only [Option.bind_eq_bind, Option.bind_some, List.take_succ_cons]
    rfl

theorem protoCoefs_spec (cfg : Cfg α) (s : State α) (hf : 2 ≤ s.filterLength) : ∀ (rounds i : Nat),
    (∀ k, i ≤ k → k < i + rounds → k * s.params.num + s.currentPhase < s.filterLength) →
    protoCoefs cfg s rounds i =
      some ((List.range rounds).map fun k => interp cfg s.filterLength ((i + k) * s.params.num + s.currentPhase)) := by
  intro rounds
  induction rounds with
  | zero => intro i _; rfl
  | succ rounds ih =>
    intro i h
    unfold protoCoefs
    have hk := h i (Nat.le_refl i) (by omega)
    generalize hpl : cfg.quality.protoP * cfg.quality.pMultiple + 1 = pl
    have hpos : 1 ≤ pl := by omega
    have hb : (((pl - 1 : Nat) : Rat) / ((s.filterLength - 1 : Nat) : Rat) *
        ((i * s.params.num + s.currentPhase : Nat) : Rat)).floor.toNat + 1 < pl + 1 := by
      have h1 : (0 : Rat) < ((s.filterLength - 1 : Nat) : Rat) := by
        have : 0 < s.filterLength - 1 := by omega
        exact_mod_cast this
      have h2 : ((i * s.params.num + s.currentPhase : Nat) : Rat) ≤ ((s.filterLength - 1 : Nat) : Rat) := by
        have : i * s.params.num + s.currentPhase ≤ s.filterLength - 1 := by omega
        exact_mod_cast this
      have h3 : ((pl - 1 : Nat) : Rat) / ((s.filterLength - 1 : Nat) : Rat) *
        ((i * s.params.num + s.currentPhase : Nat) : Rat) ≤ ((pl - 1 : Nat) : Rat) := by
        rw [div_mul_eq_mul_div, div_le_iff₀ h1]
        exact mul_le_mul_of_nonneg_left h2 (by positivity)
      have h4 := Rat.floor_le (((pl - 1 : Nat) : Rat) / ((s.filterLength - 1 : Nat) : Rat) *
        ((i * s.params.num + s.currentPhase : Nat) : Rat))
      have h5 : ((((pl - 1 : Nat) : Rat) / ((s.filterLength - 1 : Nat) : Rat) *
        ((i * s.params.num + s.currentPhase : Nat) : Rat)).floor : Rat) ≤ ((pl - 1 : Nat) : Int) := by
        have := le_trans h4 h3
        exact_mod_cast this
      have h6 := Rat.intCast_le_intCast.mp h5
      omega
    simp only [hpl]
    rw [if_pos hb, ih (i + 1) (fun k h1 h2 => h k (by omega) (by omega))]
    rw [List.range_succ_eq_map, List.map_cons, List.map_map]
    simp only [Option.bind_eq_bind, Option.bind_some]
    show some _ = some _
    congr 2
    · unfold interp
      simp only [hpl, Nat.add_zero]
    · apply List.map_congr_left
      intro k _
      simp only [Function.comp]
      congr 2
      congr 1
      omega

theorem load_sorted {cfg : Cfg α} {s : State α} (h : Good cfg s) (hm : cfg.mostlyFixed = true)
    {r : PhaseRec} (hr : s.phaseInfo[s.currentPhase]? = some r) {n : Nat} (hn : n ≤ r.length) :
    RingBuffer.load s.sorted r.start n =
      some ((List.range n).map fun i =>
        cfg.ar.window s.filterLength s.params.peakToZero (i * s.params.num + s.currentPhase)) := by
  obtain ⟨a1, a2⟩ := h.sorted hm _ r hr
  unfold RingBuffer.load
  rw [if_pos (by omega)]
  congr 1
  apply List.ext_getElem?
  intro i
  by_cases hi : i < n
  · rw [List.getElem?_take_of_lt hi, List.getElem?_drop, (a2 i (by omega)).2]
    simp [hi]
  · rw [List.getElem?_eq_none (by simp; omega), List.getElem?_eq_none (by simp; omega)]

theorem convolve_spec {cfg : Cfg α} (hc : cfg.channels = 1) {s : State α} (h : Good cfg s)
    {r : PhaseRec} (hr : s.phaseInfo[s.currentPhase]? = some r) :
    ∃ x, convolve cfg s r = some x ∧ cfg.ar.scaled s.params.scale x = sample cfg s := by
  obtain ⟨r', r1, r2, r3, r4⟩ := h.table.entry _ h.cp
  have : r = r' := by rw [hr] at r1; exact Option.some.inj r1
  subst this
  have hn : min r.length ((s.buffer.length - s.left) / 1) = taps s := by
    unfold taps; rw [r4, Nat.div_one]
  have hleft : s.left ≤ s.buffer.length := by
    have h1 : s.left ≤ s.centre := by rw [h.left]; exact Nat.sub_le _ _
    have h2 := h.centre
    omega
  have hg : gather s.buffer s.left 1 0 (taps s) 0 = some ((s.buffer.drop s.left).take (taps s)) := by
    have := gather_mono s.buffer s.left (taps s) 0 (by unfold taps; omega)
    simpa using this
  have htap : taps s ≤ r.length := by rw [r4]; unfold taps; omega
  have hidx : ∀ k, 0 ≤ k → k < 0 + taps s → k * s.params.num + s.currentPhase < s.filterLength := by
    intro k _ hk
    have : k < ceilDiv (s.filterLength - s.currentPhase) s.params.num := by omega
    rw [lt_ceilDiv h.num_pos] at this
    omega
  unfold convolve
  simp only [hc, h.ch, hn, hg, Option.bind_eq_bind, Option.bind_some]
  cases hm : cfg.mostlyFixed with
  | true =>
    simp only [if_true, load_sorted h hm hr htap, Option.bind_some]
    refine ⟨_, rfl, ?_⟩
    simp [sample, weigh, coefs, hm]
  | false =>
    simp only [Bool.false_eq_true, if_false, protoCoefs_spec cfg s h.fl_ge (taps s) 0 hidx, Option.bind_some]
    refine ⟨_, rfl, ?_⟩
    simp [sample, weigh, coefs, hm]

/-- The number of samples dropped after the next one made. -/
def dropOf (s : State α) : Nat := ceilDiv (s.params.den - s.currentPhase) s.params.num

/-- The state after the next sample made. -/
def stepped (cfg : Cfg α) (s : State α) : State α :=
  { s with buffer := s.buffer.drop (dropOf s) ++ List.replicate (dropOf s) cfg.ar.zero,
           fill := s.fill - dropOf s, currentPhase := nextPhase s.params.num s.params.den s.currentPhase }

theorem dropOf_le {cfg : Cfg α} {s : State α} (h : Good cfg s) : dropOf s ≤ s.centre := by
  unfold dropOf
  have h1 : ceilDiv (s.params.den - s.currentPhase) s.params.num ≤ s.filterLength / 2 / s.params.num := by
    rw [ceilDiv_le h.num_pos]
    have := h.drops
    omega
  have := h.size
  have := h.centre
  omega

theorem reconstructOne_spec {cfg : Cfg α} (hc : cfg.channels = 1) {s : State α} (h : Good cfg s)
    (hf : s.centre ≤ s.fill) : reconstructOne cfg s = some (stepped cfg s, sample cfg s) := by
  obtain ⟨r, r1, r2, r3, r4⟩ := h.table.entry _ h.cp
  obtain ⟨x, x1, x2⟩ := convolve_spec hc h r1
  have hd := dropOf_le h
  have hfill := h.fill
  have hdrop : r.drop = dropOf s := r3
  have hch := h.ch
  have hadv : advance cfg s r = some (stepped cfg s) := by
    unfold advance
    simp only [hc, hch, Nat.mod_one, if_true, Nat.mul_one, hdrop]
    unfold dropFront stepped
    have heta : ({ s with currentChannel := 0 } : State α) = s := by
      cases s; simp only at hch; subst hch; rfl
    rw [heta]
    by_cases h0 : dropOf s = 0
    · rw [if_pos h0]
      simp only [Option.bind_eq_bind, Option.bind_some, h0, List.drop_zero, List.replicate_zero,
        List.append_nil, Nat.sub_zero, r2]
      rfl
    · rw [if_neg h0, if_pos (by omega)]
      simp only [Option.bind_eq_bind, Option.bind_some, r2]
      rfl
  unfold reconstructOne
  simp only [r1, Option.bind_eq_bind, Option.bind_some, x1, hadv, x2]
  rfl

theorem stepped_good {cfg : Cfg α} {s : State α} (h : Good cfg s) (hf : s.centre ≤ s.fill) :
    Good cfg (stepped cfg s) := by
  have hd := dropOf_le h
  have hlen : (stepped cfg s).buffer.length = s.buffer.length := by
    unfold stepped; simp
    have := h.fill
    omega
  exact { num_pos := h.num_pos, den_pos := h.den_pos, fl_ge := h.fl_ge, table := h.table,
          sorted := h.sorted, ip := h.ip, cp := nextPhase_lt h.num_pos _ _, ch := h.ch,
          size := by rw [hlen]; exact h.size
          centre := by rw [hlen]; exact h.centre
          left := h.left
          fill := by rw [hlen]; have := h.fill; unfold stepped; simp only; omega
          drops := h.drops }

/-- The number of samples taken in. -/
def takes (s : State α) (left : Nat) : Nat := min left (s.buffer.length - s.fill)

/-- The state after taking in `k` samples from place `i` of `inp`. -/
def taken (s : State α) (inp : List α) (i k : Nat) : State α :=
  { s with buffer := s.buffer.take s.fill ++ (inp.drop i).take k ++ s.buffer.drop (s.fill + k),
           fill := s.fill + k }

theorem fillLoop_spec (inp : List α) : ∀ (left i : Nat) (s : State α), s.fill ≤ s.buffer.length →
    i + left ≤ inp.length →
    fillLoop inp left i s = some (i + takes s left, taken s inp i (takes s left)) := by
  intro left
  induction left with
  | zero =>
    intro i s _ _
    unfold fillLoop takes taken
    simp
  | succ left ih =>
    intro i s hs hi
    unfold fillLoop
    by_cases hlt : s.fill < s.buffer.length
    · rw [if_pos hlt]
      have hi' : i < inp.length := by omega
      simp only [List.getElem?_eq_getElem hi', Option.bind_eq_bind, Option.bind_some, setAt]
      rw [if_pos hlt]
      simp only [Option.bind_some]
      rw [ih (i + 1) _ (by simp; omega) (by omega)]
      have ht : takes s (left + 1) = takes ({ s with buffer := s.buffer.set s.fill inp[i], fill := s.fill + 1 } : State α) left + 1 := by
        unfold takes; simp only [List.length_set]; omega
      rw [ht]
      generalize takes ({ s with buffer := s.buffer.set s.fill inp[i], fill := s.fill + 1 } : State α) left = k
      have e1 : i + 1 + k = i + (k + 1) := by omega
      rw [e1]
      congr 2
      unfold taken
      simp only
      congr 1
      · rw [List.drop_eq_getElem_cons hi', List.take_succ_cons, List.take_set, List.drop_set]
        rw [if_pos (by omega), show s.fill + 1 + k = s.fill + (k + 1) by omega]
        congr 1
        rw [List.take_succ_eq_append_getElem hlt, List.set_append_right _ _ (by simp)]
        simp [Nat.min_eq_left (Nat.le_of_lt hlt)]
      · omega
    · rw [if_neg hlt]
      have hz : takes s (left + 1) = 0 := by unfold takes; omega
      rw [hz]
      unfold taken
      simp

theorem taken_length (s : State α) (inp : List α) (i left : Nat) (hs : s.fill ≤ s.buffer.length)
    (hi : i + left ≤ inp.length) :
    (taken s inp i (takes s left)).buffer.length = s.buffer.length := by
  unfold taken takes
  simp
  omega

theorem taken_good {cfg : Cfg α} {s : State α} (h : Good cfg s) (inp : List α) (i left : Nat)
    (hi : i + left ≤ inp.length) : Good cfg (taken s inp i (takes s left)) := by
  have hlen := taken_length s inp i left h.fill hi
  exact { num_pos := h.num_pos, den_pos := h.den_pos, fl_ge := h.fl_ge, table := h.table,
          sorted := h.sorted, ip := h.ip, cp := h.cp, ch := h.ch,
          size := by rw [hlen]; exact h.size
          centre := by rw [hlen]; exact h.centre
          left := h.left
          fill := by rw [hlen]; have := h.fill; unfold taken takes; simp only; omega
          drops := h.drops }

/-- A state ready to make a sample is at least half full. -/
theorem ready_fill {cfg : Cfg α} {s : State α} (h : Good cfg s) {final : Bool}
    (hr : ready final s = true) : s.centre ≤ s.fill := by
  have := h.centre
  unfold ready at hr
  simp only [Bool.or_eq_true, Bool.and_eq_true, beq_iff_eq, decide_eq_true_eq] at hr
  omega

/-- Good or never used. -/
def Ok (cfg : Cfg α) (s : State α) : Prop := s.buffer = [] ∧ s.currentChannel = 0 ∨ Good cfg s

theorem mainLoop_good {cfg : Cfg α} (hc : cfg.channels = 1) (final : Bool) (inp : List α) (count : Nat)
    (hcount : count ≤ inp.length) : ∀ (space i o : Nat) (s : State α) (out : List α),
    Good cfg s → i ≤ count → o + space ≤ out.length →
    ∃ s' o' out', mainLoop cfg final inp count space i o s out = some (s', o', out') ∧
      Good cfg s' ∧ s'.params = s.params ∧ o ≤ o' ∧ o' ≤ o + space ∧ out'.length = out.length ∧
      ∀ k, k < o ∨ o' ≤ k → out'[k]? = out[k]? := by
  intro space
  induction space with
  | zero =>
    intro i o s out h _ _
    exact ⟨s, o, out, rfl, h, rfl, by omega, by omega, rfl, fun _ _ => rfl⟩
  | succ space ih =>
    intro i o s out h hi ho
    unfold mainLoop
    rw [fillLoop_spec inp (count - i) i s h.fill (by omega)]
    simp only [Option.bind_eq_bind, Option.bind_some]
    have hg := taken_good h inp i (count - i) (by omega)
    generalize hs1 : taken s inp i (takes s (count - i)) = s1 at hg
    have hp1 : s1.params = s.params := by rw [← hs1]; rfl
    cases hr : ready final s1 with
    | false =>
      simp only [Bool.false_eq_true, if_false]
      exact ⟨s1, o, out, rfl, hg, hp1, by omega, by omega, rfl, fun _ _ => rfl⟩
    | true =>
      simp only [if_true]
      have hf := ready_fill hg hr
      simp only [reconstructOne_spec hc hg hf, Option.bind_some, setAt]
      rw [if_pos (by omega)]
      simp only [Option.bind_some]
      have hi' : i + takes s (count - i) ≤ count := by unfold takes; omega
      obtain ⟨s', o', out', a1, a2, a3, a4, a5, a6, a7⟩ := ih (i + takes s (count - i)) (o + 1)
        (stepped cfg s1) (out.set o (sample cfg s1)) (stepped_good hg hf) hi' (by simp; omega)
      refine ⟨s', o', out', a1, a2, by rw [a3]; exact hp1, by omega, by omega, by simpa using a6, ?_⟩
      intro k hk
      rw [a7 k (by omega), List.getElem?_set_ne (by omega)]

theorem fadeLoop_good {cfg : Cfg α} (hc : cfg.channels = 1) (inp : List α) (count fl : Nat)
    (hcount : count ≤ inp.length) : ∀ (space fi fo : Nat) (s : State α) (n : Nat) (out : List α),
    (0 < n → Good cfg s) → fi ≤ count → fo + space ≤ out.length →
    ∃ s' n' out', fadeLoop cfg inp count fl space fi fo s n out = some (s', n', out') ∧
      (Ok cfg s → Ok cfg s') ∧ (0 < n' → Good cfg s') ∧ n' ≤ n ∧
      out'.length = out.length ∧ (∀ k, k < fo ∨ fo + space ≤ k → out'[k]? = out[k]?) ∧
      (n = 0 → s' = s) := by
  intro space
  induction space with
  | zero =>
    intro fi fo s n out h _ _
    exact ⟨s, n, out, rfl, id, h, by omega, rfl, fun _ _ => rfl, fun _ => rfl⟩
  | succ space ih =>
    intro fi fo s n out h hi ho
    unfold fadeLoop
    by_cases hn : n = 0
    · rw [if_pos hn]
      exact ⟨s, n, out, rfl, id, h, by omega, rfl, fun _ _ => rfl, fun _ => rfl⟩
    · rw [if_neg hn]
      have hgs := h (by omega)
      rw [fillLoop_spec inp (count - fi) fi s hgs.fill (by omega)]
      simp only [Option.bind_eq_bind, Option.bind_some]
      have hg := taken_good hgs inp fi (count - fi) (by omega)
      generalize taken s inp fi (takes s (count - fi)) = s1 at hg
      by_cases hr : s1.fill = s1.buffer.length
      · rw [if_pos hr]
        have hf : s1.centre ≤ s1.fill := by have := hg.centre; omega
        have hlt : fo < out.length := by omega
        simp only [reconstructOne_spec hc hg hf, Option.bind_some, List.getElem?_eq_getElem hlt, setAt]
        rw [if_pos hlt]
        have hg2 := stepped_good hg hf
        simp only [Option.bind_some, hg2.ch, if_true]
        have hi' : fi + takes s (count - fi) ≤ count := by unfold takes; omega
        obtain ⟨s', n', out', a1, a2, a3, a4, a5, a6, a7⟩ := ih (fi + takes s (count - fi)) (fo + 1)
          (stepped cfg s1) (n - 1) (out.set fo (mixed cfg.ar n fl (sample cfg s1) out[fo]))
          (fun _ => hg2) hi' (by simp; omega)
        refine ⟨s', n', out', a1, fun _ => a2 (Or.inr hg2), a3, by omega, by simpa using a5, ?_, fun h0 => absurd h0 hn⟩
        intro k hk
        rw [a6 k (by omega), List.getElem?_set_ne (by omega)]
      · rw [if_neg hr]
        exact ⟨s1, n, out, rfl, fun _ => Or.inr hg, fun _ => hg, by omega, rfl, fun _ _ => rfl,
          fun h0 => absurd h0 hn⟩

end Verif.BQ
