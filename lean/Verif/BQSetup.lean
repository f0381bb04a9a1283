import Verif.BQMono
import Verif.MathMiscProps
/-!
# Setting a resampler state up for a ratio: lemmas
-/
namespace Verif.BQ
open Verif.MovingMedian (setAt)
variable {α : Type}

theorem carryLoop_spec (z : α) (prev : State α) {centre len : Nat} (h1 : prev.centre ≤ centre)
    (h2 : centre - prev.centre + prev.fill ≤ len) (h3 : prev.fill ≤ prev.buffer.length) :
    ∀ (rounds i fill : Nat), i + rounds = prev.fill →
    carryLoop prev centre len rounds i
        (List.replicate (centre - prev.centre) z ++ prev.buffer.take i
          ++ List.replicate (len - (centre - prev.centre) - i) z) fill
      = some (List.replicate (centre - prev.centre) z ++ prev.buffer.take prev.fill
          ++ List.replicate (len - (centre - prev.centre) - prev.fill) z,
          if rounds = 0 then fill else centre - prev.centre + prev.fill) := by
  intro rounds
  induction rounds with
  | zero =>
    intro i fill h
    have : i = prev.fill := by omega
    subst this
    simp [carryLoop]
  | succ rounds ih =>
    intro i fill h
    unfold carryLoop
    have hix : ((i : Int) - prev.centre + centre) = ((centre - prev.centre + i : Nat) : Int) := by omega
    simp only [hix]
    rw [if_pos (by omega)]
    have hi : i < prev.buffer.length := by omega
    simp only [List.getElem?_eq_getElem hi, Option.bind_eq_bind, Option.bind_some, setAt, Int.toNat_natCast]
    rw [if_pos (by simp; omega)]
    simp only [Option.bind_some]
    have hb : (List.replicate (centre - prev.centre) z ++ prev.buffer.take i
          ++ List.replicate (len - (centre - prev.centre) - i) z).set (centre - prev.centre + i) prev.buffer[i]
        = List.replicate (centre - prev.centre) z ++ prev.buffer.take (i + 1)
          ++ List.replicate (len - (centre - prev.centre) - (i + 1)) z := by
      have e : len - (centre - prev.centre) - i = (len - (centre - prev.centre) - (i + 1)) + 1 := by omega
      rw [e, List.replicate_succ, List.set_append_right _ _ (by simp),
        List.take_succ_eq_append_getElem hi]
      have : centre - prev.centre + i - (List.replicate (centre - prev.centre) z ++ List.take i prev.buffer).length = 0 := by
        simp; omega
      rw [this, List.set_cons_zero]
      simp only [List.append_assoc, List.singleton_append]
    rw [hb, ih (i + 1) _ (by omega)]
    congr 2
    split
    · have : i + 1 = prev.fill := by omega
      rw [if_neg (by omega)]; omega
    · rw [if_neg (by omega)]

theorem carry_spec (z : α) (prev : State α) {centre len : Nat} (h1 : prev.centre ≤ centre)
    (h2 : centre - prev.centre + prev.fill ≤ len) (h3 : prev.fill ≤ prev.buffer.length) :
    carry z prev centre len =
      if prev.buffer.length = len then some (prev.buffer, prev.fill)
      else some (List.replicate (centre - prev.centre) z ++ prev.buffer.take prev.fill
          ++ List.replicate (len - (centre - prev.centre) - prev.fill) z,
          if prev.fill = 0 then centre else centre - prev.centre + prev.fill) := by
  unfold carry
  split
  · rfl
  · have := carryLoop_spec z prev h1 h2 h3 prev.fill 0 centre (by omega)
    simp only [List.take_zero, List.append_nil, Nat.sub_zero] at this
    rw [List.replicate_append_replicate, Nat.add_sub_cancel' (by omega)] at this
    exact this

theorem carryPhase_spec (prev : State α) {phases : Nat} (hp : 0 < phases) (h : prev.phaseInfo ≠ []) :
    ∃ p, carryPhase prev phases = some p ∧ p < phases := by
  unfold carryPhase
  rw [if_neg (by simpa using h)]
  simp only
  split
  · exact ⟨_, rfl, by omega⟩
  · exact ⟨_, rfl, by omega⟩

theorem cut_pos (q : Quality) : 0 < q.cut ∧ q.cut ≤ 1 := by cases q <;> norm_num [Quality.cut]

theorem pMultiple_ge (q : Quality) : 12 ≤ q.pMultiple := by cases q <;> simp [Quality.pMultiple]

/-- The filter is at least 12 times as long as the larger of numerator and denominator. -/
theorem filterLength_ge (q : Quality) (p : Params)
    (hp : p.peakToZero = ((max p.den p.num : Nat) : Rat) / q.cut) :
    12 * max p.den p.num + 1 ≤ filterLengthFor q p ∧ filterLengthFor q p % 2 = 1 := by
  have hc := cut_pos q
  have hm := pMultiple_ge q
  have h1 : (((12 * max p.den p.num + 1 : Nat) : Int) : Rat) ≤ p.peakToZero * q.pMultiple + 1 := by
    rw [hp]
    have hx : (0 : Rat) ≤ ((max p.den p.num : Nat) : Rat) := by positivity
    have h2 : ((max p.den p.num : Nat) : Rat) ≤ ((max p.den p.num : Nat) : Rat) / q.cut := by
      rw [le_div_iff₀ hc.1]
      calc ((max p.den p.num : Nat) : Rat) * q.cut ≤ ((max p.den p.num : Nat) : Rat) * 1 :=
            mul_le_mul_of_nonneg_left hc.2 hx
        _ = _ := by ring
    have h3 : (12 : Rat) ≤ q.pMultiple := by exact_mod_cast hm
    have h4 : ((max p.den p.num : Nat) : Rat) * 12 ≤ ((max p.den p.num : Nat) : Rat) / q.cut * q.pMultiple :=
      mul_le_mul h2 h3 (by norm_num) (le_trans hx h2)
    push_cast at h4 ⊢
    linarith
  have h2 := Rat.le_floor_iff.mpr h1
  unfold filterLengthFor
  simp only
  split <;> omega

/-- Ratios for which the resampler is known to be safe. -/
def ValidRatio (ratio : Rat) : Prop := 1 / 40000 ≤ ratio

theorem maxDenom_ge (cfg : Cfg α) {ratio : Rat} (hr : 0 < ratio) : 1 ≤ maxDenom cfg ratio ∧
    (ratio ≤ 1 → 48000 ≤ maxDenom cfg ratio) ∧ (1 < ratio → 2 ≤ maxDenom cfg ratio ∨ 2 ≤ ratio) := by
  have hq : 48000 ≤ cfg.quality.rationalMax := by
    cases cfg.quality <;> simp [Quality.rationalMax]
  unfold maxDenom
  split
  · refine ⟨by omega, fun _ => by omega, fun _ => Or.inl (by omega)⟩
  · by_cases h : ratio > 1
    · rw [if_pos h]
      have hpos : 0 < ((cfg.quality.rationalMax : Rat) / ratio).ceil := by
        rw [Rat.lt_ceil_iff]
        have : (0 : Rat) < cfg.quality.rationalMax := by
          have : 0 < cfg.quality.rationalMax := by omega
          exact_mod_cast this
        simpa using div_pos this hr
      refine ⟨by omega, fun h' => absurd h (not_lt.mpr h'), fun _ => ?_⟩
      by_cases h2 : 2 ≤ ratio
      · exact Or.inr h2
      · left
        have : 1 < ((cfg.quality.rationalMax : Rat) / ratio).ceil := by
          rw [Rat.lt_ceil_iff, lt_div_iff₀ hr]
          have h3 : (48000 : Rat) ≤ cfg.quality.rationalMax := by exact_mod_cast hq
          push_cast
          linarith [not_le.mp h2]
        omega
    · rw [if_neg h]
      exact ⟨by omega, fun _ => by omega, fun h' => absurd h' h⟩

theorem pickParams_spec (cfg : Cfg α) {ratio : Rat} (hr : ValidRatio ratio) :
    ∃ p, pickParams cfg ratio = some p ∧ p.ratio = ratio ∧ 0 < p.num ∧ 0 < p.den ∧
      Nat.Coprime p.num p.den ∧ p.peakToZero = ((max p.den p.num : Nat) : Rat) / cfg.quality.cut := by
  unfold ValidRatio at hr
  have hpos : 0 < ratio := lt_of_lt_of_le (by norm_num) hr
  obtain ⟨m1, m2, m3⟩ := maxDenom_ge cfg hpos
  obtain ⟨n, d, a1, a2, a3, a4⟩ := MathMisc.C12_partial ratio (maxDenom cfg ratio) (le_of_lt hpos) m1
  have hn : 0 < n := by
    rcases Nat.eq_zero_or_pos n with h0 | h0
    · exfalso
      subst h0
      simp only [Nat.cast_zero, zero_div, sub_zero, abs_of_pos hpos] at a4
      have hm0 : (0 : Rat) < maxDenom cfg ratio := by exact_mod_cast m1
      rcases le_or_gt ratio 1 with h1 | h1
      · have h2 : (48000 : Rat) ≤ maxDenom cfg ratio := by exact_mod_cast m2 h1
        have h3 : 1 / (maxDenom cfg ratio : Rat) ≤ 1 / 48000 := one_div_le_one_div_of_le (by norm_num) h2
        norm_num at a4 h3 hr
        linarith
      · rcases m3 h1 with h2 | h2
        · have h2' : (2 : Rat) ≤ maxDenom cfg ratio := by exact_mod_cast h2
          have h3 : 1 / (maxDenom cfg ratio : Rat) ≤ 1 / 2 := one_div_le_one_div_of_le (by norm_num) h2'
          norm_num at a4 h3
          linarith
        · have h2' : (1 : Rat) ≤ maxDenom cfg ratio := by exact_mod_cast m1
          have h3 : 1 / (maxDenom cfg ratio : Rat) ≤ 1 / 1 := one_div_le_one_div_of_le (by norm_num) h2'
          norm_num at a4 h3
          linarith
    · exact h0
  obtain ⟨p, b1, b2, b3, b4, b5, b6, b7⟩ := fillParams_spec cfg.quality ratio n d (by omega)
  refine ⟨p, ?_, b2, b6 hn, b3, b4, b7⟩
  unfold pickParams
  simp only [a1, Option.bind_eq_bind, Option.bind_some, b1]

/-- The frames a new buffer has, from those of the previous one. -/
def newFrames (cfg : Cfg α) (p : Params) (prevFrames : Nat) : Nat :=
  max (filterLengthFor cfg.quality p / 2 / p.num + (filterLengthFor cfg.quality p / 2 / p.num + 1)) prevFrames

/-- The new state for a mono resampler, apart from the phase carried over. -/
theorem stateForRatio_spec {cfg : Cfg α} (hc : cfg.channels = 1) {target prev : State α}
    (ht : target.currentChannel = 0) (hp : Ok cfg prev) {ratio : Rat} (hr : ValidRatio ratio) :
    ∃ s', stateForRatio cfg target ratio prev = some s' ∧ Good cfg s' ∧
      s'.params.ratio = ratio ∧ pickParams cfg ratio = some s'.params ∧
      s'.filterLength = filterLengthFor cfg.quality s'.params ∧
      (prev.buffer = [] → s'.fill = s'.centre ∧ s'.currentPhase = s'.initialPhase ∧
        s'.buffer = List.replicate (2 * (s'.filterLength / 2 / s'.params.num) + 1) cfg.ar.zero) := by
  obtain ⟨p, p1, p2, p3, p4, p5, p6⟩ := pickParams_spec cfg hr
  obtain ⟨f1, f2⟩ := filterLength_ge cfg.quality p p6
  generalize hfl : filterLengthFor cfg.quality p = fl at f1 f2
  have hmax1 : p.num ≤ max p.den p.num := Nat.le_max_right _ _
  have hmax2 : p.den ≤ max p.den p.num := Nat.le_max_left _ _
  have hip : fl / 2 % p.num < p.num := Nat.mod_lt _ p3
  obtain ⟨t, so, t1, t2, t3⟩ := phaseDataFor_spec p3 p5 hip cfg.mostlyFixed (fl := fl)
    (cfg.ar.window fl p.peakToZero) target.sorted
  generalize hbl : fl / 2 / p.num = bl
  have hdm : p.num * bl + fl / 2 % p.num = fl / 2 := by rw [← hbl]; exact Nat.div_add_mod _ _
  have hdrops : p.den ≤ bl * p.num := by
    rw [Nat.mul_comm]; omega
  unfold stateForRatio
  simp only [p1, Option.bind_eq_bind, Option.bind_some, hfl]
  rw [if_neg (by omega)]
  simp only [t1, Option.bind_some]
  rw [if_neg (by omega)]
  simp only [hc, Nat.div_one, Nat.mul_one, hbl]
  generalize hfr : max (bl + (bl + 1)) prev.buffer.length = fr
  have hfr1 : bl + (bl + 1) ≤ fr := by rw [← hfr]; exact Nat.le_max_left _ _
  have hfr2 : prev.buffer.length ≤ fr := by rw [← hfr]; exact Nat.le_max_right _ _
  by_cases hb : prev.buffer.length > 0
  · rw [if_pos hb]
    have hgood : Good cfg prev := by
      rcases hp with h | h
      · rw [h.1] at hb; simp at hb
      · exact h
    have hpc := hgood.centre
    have hpf := hgood.fill
    rw [carry_spec _ prev (by omega) (by omega) hpf]
    have hph : prev.phaseInfo ≠ [] := by
      intro h
      have := hgood.table.len
      rw [h] at this
      have := hgood.num_pos
      simp at *
      omega
    obtain ⟨ph, ph1, ph2⟩ := carryPhase_spec prev (by rw [t2.len]; exact p3 : 0 < t.length) hph
    rw [t2.len] at ph2
    by_cases heq : prev.buffer.length = fr
    · rw [if_pos heq]
      simp only [Option.bind_some, ph1]
      refine ⟨_, rfl, ?_, p2, rfl, hfl.symm, fun h => by rw [h] at hb; simp at hb⟩
      exact { num_pos := p3, den_pos := p4, fl_ge := by simp only; omega, table := t2, sorted := t3, ip := rfl,
              cp := ph2, ch := ht, size := by simp only [hbl]; omega
              centre := by simp only; omega
              left := by simp only [hbl]
              fill := hpf
              drops := by simp only [hbl]; exact hdrops }
    · rw [if_neg heq]
      simp only [Option.bind_some, ph1]
      refine ⟨_, rfl, ?_, p2, rfl, hfl.symm, fun h => by rw [h] at hb; simp at hb⟩
      have hlen : (List.replicate (fr / 2 - prev.centre) cfg.ar.zero ++ prev.buffer.take prev.fill
          ++ List.replicate (fr - (fr / 2 - prev.centre) - prev.fill) cfg.ar.zero).length = fr := by
        simp; omega
      exact { num_pos := p3, den_pos := p4, fl_ge := by simp only; omega, table := t2, sorted := t3, ip := rfl,
              cp := ph2, ch := ht, size := by simp only [hbl, hlen]; omega
              centre := by simp only [hlen]
              left := by simp only [hbl]
              fill := by simp only [hlen]; split <;> omega
              drops := by simp only [hbl]; exact hdrops }
  · rw [if_neg hb]
    have hfr3 : fr = 2 * bl + 1 := by
      rw [← hfr]; omega
    refine ⟨_, rfl, ?_, p2, rfl, hfl.symm, fun _ => ⟨rfl, rfl, by simp only [hbl, hfr3]⟩⟩
    exact { num_pos := p3, den_pos := p4, fl_ge := by simp only; omega, table := t2, sorted := t3, ip := rfl,
            cp := hip, ch := ht, size := by simp only [hbl, List.length_replicate]; omega
            centre := by simp only [List.length_replicate]
            left := by simp only [hbl]
            fill := by simp only [List.length_replicate]; omega
            drops := by simp only [hbl]; exact hdrops }

/-- Well-formed resamplers. -/
structure GoodRes (cfg : Cfg α) (r : Res α) : Prop where
  s : Ok cfg r.s
  fade : Ok cfg r.fade
  running : r.initialised = true → Good cfg r.s
  fading : 0 < r.fadeCount → Good cfg r.fade

theorem Ok.ch {cfg : Cfg α} {s : State α} (h : Ok cfg s) : s.currentChannel = 0 := by
  rcases h with h | h
  · exact h.2
  · exact h.ch

theorem init_good (cfg : Cfg α) : GoodRes cfg (init : Res α) :=
  ⟨Or.inl ⟨rfl, rfl⟩, Or.inl ⟨rfl, rfl⟩, (fun h => by cases h), (fun h => by simp [init] at h)⟩

theorem reset_good {cfg : Cfg α} {r : Res α} (h : GoodRes cfg r) : GoodRes cfg (reset r) :=
  ⟨h.s, h.fade, fun h => by simp [reset] at h, fun h => by simp [reset] at h⟩

theorem prepare_good {cfg : Cfg α} (hc : cfg.channels = 1) {r : Res α} (h : GoodRes cfg r)
    {ratio : Rat} (hr : ValidRatio ratio) (fl : Nat) :
    ∃ r', prepare cfg r ratio fl = some r' ∧ GoodRes cfg r' ∧ r'.initialised = true ∧ r'.s.params.ratio = ratio := by
  unfold prepare
  cases hi : r.initialised with
  | false =>
    obtain ⟨s', a1, a2, a3, _⟩ := stateForRatio_spec hc h.s.ch h.fade hr
    simp only [Bool.false_eq_true, not_false_eq_true, if_true, a1, Option.bind_eq_bind, Option.bind_some]
    exact ⟨_, rfl, ⟨Or.inr a2, h.fade, fun _ => a2, h.fading⟩, rfl, a3⟩
  | true =>
    simp only [not_true_eq_false, if_false]
    by_cases hne : ratio ≠ r.s.params.ratio
    · rw [if_pos hne]
      obtain ⟨s', a1, a2, a3, _⟩ := stateForRatio_spec hc h.fade.ch h.s hr
      simp only [a1, Option.bind_eq_bind, Option.bind_some]
      exact ⟨_, rfl, ⟨Or.inr a2, h.s, fun _ => a2, fun _ => h.running hi⟩, rfl, a3⟩
    · rw [if_neg hne]
      exact ⟨r, rfl, h, hi, (Classical.not_not.mp hne).symm⟩

/-- A call of a well-formed mono resampler. -/
theorem resample_good {cfg : Cfg α} (hc : cfg.channels = 1) {r : Res α} (h : GoodRes cfg r)
    {ratio : Rat} (hr : ValidRatio ratio) (out : List α) (outspace : Nat) (ho : outspace ≤ out.length)
    (inp : List α) (incount : Nat) (hi : incount ≤ inp.length) (final : Bool) :
    ∃ r' out' n, resample cfg r out outspace inp incount ratio final = some (r', out', n) ∧
      GoodRes cfg r' ∧ r'.initialised = true ∧ r'.s.params.ratio = ratio ∧ n ≤ outspace ∧
      out'.length = out.length ∧ ∀ k, n ≤ k → out'[k]? = out[k]? := by
  unfold resample
  obtain ⟨r1, a1, a2, a3, a4⟩ := prepare_good hc h hr (fadeLengthFor cfg outspace incount ratio)
  simp only [a1, Option.bind_eq_bind, Option.bind_some, hc, Nat.mul_one, Nat.div_one]
  obtain ⟨s', o', out', b1, b2, b3, b4, b5, b6, b7⟩ := mainLoop_good hc final inp incount hi outspace 0 0
    r1.s out (a2.running a3) (by omega) (by omega)
  simp only [b1, Option.bind_some]
  obtain ⟨f', n', out2, c1, c2, c3, c4, c5, c6, c7⟩ := fadeLoop_good hc inp incount
    (fadeLengthFor cfg outspace incount ratio) hi o' 0 0 r1.fade r1.fadeCount out' a2.fading (by omega) (by omega)
  simp only [c1, Option.bind_some]
  refine ⟨_, _, _, rfl, ⟨Or.inr b2, c2 a2.fade, fun _ => b2, c3⟩, a3, by simp only [b3]; exact a4, by omega, by omega, ?_⟩
  intro k hk
  rw [c6 k (by omega), b7 k (by omega)]

end Verif.BQ
