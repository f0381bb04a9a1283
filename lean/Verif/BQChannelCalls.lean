import Verif.BQChannelFade
/-!
# Several channels are as many mono resamplers: changes of ratio and calls
-/
namespace Verif.BQ
open Verif.MovingMedian (setAt)
variable {α : Type}

/-- The state `stateForRatio` makes. -/
def built (cfg : Cfg α) (target : State α) (p : Params) (fl : Nat) (t : List PhaseRec) (so : List α)
    (frames : Nat) (buffer : List α) (fill phase : Nat) : State α :=
  { target with
    params := p, filterLength := fl, initialPhase := fl / 2 % p.num, currentPhase := phase,
    phaseInfo := t, sorted := so, left := (frames / 2 - fl / 2 / p.num) * cfg.channels,
    centre := frames / 2 * cfg.channels, fill := fill, buffer := buffer }

theorem stateForRatio_eq {cfg : Cfg α} {c : Nat} (hc : cfg.channels = c) (hpos : 0 < c)
    {target prev : State α} {p : Params} {ratio : Rat} (h1 : pickParams cfg ratio = some p)
    (hn : 0 < p.num) {t : List PhaseRec} {so : List α}
    (h2 : phaseDataFor cfg.mostlyFixed target.sorted (filterLengthFor cfg.quality p)
      (cfg.ar.window (filterLengthFor cfg.quality p) p.peakToZero)
      (filterLengthFor cfg.quality p / 2 % p.num) p.num p.den = some (t, so))
    {L : Nat} (hL : prev.buffer.length = L * c) {fr : Nat}
    (hfr : fr = max (filterLengthFor cfg.quality p / 2 / p.num +
      (filterLengthFor cfg.quality p / 2 / p.num + 1)) L) :
    stateForRatio cfg target ratio prev =
      if prev.buffer.length > 0 then do
        let bf ← carry cfg.ar.zero prev (fr / 2 * c) (fr * c)
        let phase ← carryPhase prev t.length
        pure (built cfg target p (filterLengthFor cfg.quality p) t so fr bf.1 bf.2 phase)
      else some (built cfg target p (filterLengthFor cfg.quality p) t so fr
        (List.replicate (fr * c) cfg.ar.zero) (fr / 2 * c)
        (filterLengthFor cfg.quality p / 2 % p.num)) := by
  unfold stateForRatio
  simp only [h1, Option.bind_eq_bind, Option.bind_some]
  rw [if_neg (by omega)]
  simp only [h2, Option.bind_some]
  rw [if_neg (by omega)]
  have : prev.buffer.length / c = L := by rw [hL, Nat.mul_div_cancel _ hpos]
  simp only [hc, this, ← hfr]
  split
  · unfold built
    simp only [hc]
  · unfold built
    simp only [hc]
    rfl

theorem stateForRatio_sim {cfg : Cfg α} {c : Nat} (hc : cfg.channels = c) (hpos : 0 < c)
    {target prev : State α} {tt tp : Nat → State α} (ht : Sim c target tt) (hp : Sim c prev tp)
    (hok : ∀ j, j < c → Ok (monoCfg cfg) (tp j)) {ratio : Rat} (hr : ValidRatio ratio) :
    ∃ s' t', stateForRatio cfg target ratio prev = some s' ∧
      (∀ j, j < c → stateForRatio (monoCfg cfg) (tt j) ratio (tp j) = some (t' j)) ∧ Sim c s' t' := by
  obtain ⟨p, p1, p2, p3, p4, p5, p6⟩ := pickParams_spec cfg hr
  obtain ⟨f1, f2⟩ := filterLength_ge cfg.quality p p6
  have hip : filterLengthFor cfg.quality p / 2 % p.num < p.num := Nat.mod_lt _ p3
  obtain ⟨t, so, t1, t2, t3⟩ := phaseDataFor_spec p3 p5 hip cfg.mostlyFixed
    (fl := filterLengthFor cfg.quality p)
    (cfg.ar.window (filterLengthFor cfg.quality p) p.peakToZero) target.sorted
  have hlj : ∀ j, j < c → (tp j).buffer.length = (tp 0).buffer.length := by
    intro j hj
    exact Nat.eq_of_mul_eq_mul_right hpos ((hp.len j hj).symm.trans (hp.len 0 hpos))
  have hfj : ∀ j, j < c → (tp j).fill = (tp 0).fill := by
    intro j hj
    exact Nat.eq_of_mul_eq_mul_right hpos ((hp.fill j hj).symm.trans (hp.fill 0 hpos))
  have hcj : ∀ j, j < c → (tp j).centre = (tp 0).centre := by
    intro j hj
    exact Nat.eq_of_mul_eq_mul_right hpos ((hp.centre j hj).symm.trans (hp.centre 0 hpos))
  obtain ⟨fr, hfr⟩ : ∃ fr, fr = max (filterLengthFor cfg.quality p / 2 / p.num +
      (filterLengthFor cfg.quality p / 2 / p.num + 1)) (tp 0).buffer.length := ⟨_, rfl⟩
  have hfr2 : (tp 0).buffer.length ≤ fr := by rw [hfr]; exact Nat.le_max_right _ _
  have e1 := stateForRatio_eq hc hpos (target := target) (prev := prev) p1 p3 t1 (hp.len 0 hpos) hfr
  have e2 : ∀ j, j < c → _ := fun j hj => stateForRatio_eq (cfg := monoCfg cfg) (c := 1) rfl (by omega)
    (target := tt j) (prev := tp j) (ratio := ratio) (p := p) p1 p3 (t := t) (so := so)
    (by rw [ht.sorted j hj]; exact t1) (L := (tp 0).buffer.length) (by rw [hlj j hj, Nat.mul_one]) hfr
  have hq : filterLengthFor (monoCfg cfg).quality p = filterLengthFor cfg.quality p := rfl
  simp only [Nat.mul_one, hq] at e2
  generalize filterLengthFor cfg.quality p = fl at *
  have hsim : ∀ (buffer : List α) (bufs : Nat → List α) (fill phase : Nat) (n : Nat),
      buffer.length = n * c → (∀ j, j < c → (bufs j).length = n) → Inter c n buffer bufs →
      Sim c (built cfg target p fl t so fr buffer (fill * c) phase)
        (fun j => built (monoCfg cfg) (tt j) p fl t so fr (bufs j) fill phase) := by
    intro buffer bufs fill phase n h1 h2 h3
    exact { params := fun _ _ => rfl, ip := fun _ _ => rfl, cp := fun _ _ => rfl, fl := fun _ _ => rfl,
            table := fun _ _ => rfl, sorted := fun _ _ => rfl
            left := fun j hj => by
              show (fr / 2 - fl / 2 / p.num) * cfg.channels = (fr / 2 - fl / 2 / p.num) * 1 * c
              rw [Nat.mul_one, hc]
            centre := fun j hj => by
              show fr / 2 * cfg.channels = fr / 2 * 1 * c
              rw [Nat.mul_one, hc]
            fill := fun j hj => rfl
            ch := ht.ch
            len := fun j hj => by
              show buffer.length = (bufs j).length * c
              rw [h1, h2 j hj]
            buf := fun j i hj hi => by
              have hi' : i < (bufs j).length := hi
              exact h3.at_ j i hj (by rw [h2 j hj] at hi'; exact hi') }
  by_cases hb : prev.buffer.length > 0
  · have hb1 : ∀ j, j < c → (tp j).buffer.length > 0 := by
      intro j hj
      have := hp.len j hj
      rcases Nat.eq_zero_or_pos (tp j).buffer.length with h | h
      · rw [h] at this; omega
      · exact h
    have hgood : ∀ j, j < c → Good (monoCfg cfg) (tp j) := by
      intro j hj
      rcases hok j hj with h | h
      · have := hb1 j hj
        rw [h.1] at this; simp at this
      · exact h
    have hpc := (hgood 0 hpos).centre
    have hpf := (hgood 0 hpos).fill
    have hph : ∀ j, j < c → (tp j).phaseInfo ≠ [] := by
      intro j hj h
      have := (hgood j hj).table.len
      rw [h] at this
      have := (hgood j hj).num_pos
      simp at *
      omega
    obtain ⟨ph, ph1, ph2⟩ := carryPhase_spec (tp 0) (by rw [t2.len]; exact p3 : 0 < t.length) (hph 0 hpos)
    have ph3 : ∀ j, j < c → carryPhase (tp j) t.length = some ph := by
      intro j hj
      rw [← ph1]
      unfold carryPhase
      rw [hp.table j hj, hp.cp j hj, hp.table 0 hpos, hp.cp 0 hpos]
    have ph4 : carryPhase prev t.length = some ph := by
      rw [← ph1]
      unfold carryPhase
      rw [hp.table 0 hpos, hp.cp 0 hpos]
    have hinter := hp.inter hpos
    -- one channel
    have m1 : ∀ j, j < c → _ := fun j hj => carry_spec cfg.ar.zero (tp j) (centre := fr / 2) (len := fr)
      (by rw [hcj j hj]; omega) (by rw [hcj j hj, hfj j hj]; omega) (hgood j hj).fill
    -- all channels
    have k1 : prev.centre ≤ fr / 2 * c := by
      rw [hp.centre 0 hpos]; exact Nat.mul_le_mul_right c (by omega)
    have k3 : prev.fill ≤ prev.buffer.length := by
      rw [hp.fill 0 hpos, hp.len 0 hpos]; exact Nat.mul_le_mul_right c hpf
    have k2 : fr / 2 * c - prev.centre + prev.fill ≤ fr * c := by
      rw [hp.centre 0 hpos, hp.fill 0 hpos, ← Nat.sub_mul, ← Nat.add_mul]
      exact Nat.mul_le_mul_right c (by omega)
    have m2 := carry_spec cfg.ar.zero prev k1 k2 k3
    rw [if_pos hb] at e1
    by_cases heq : (tp 0).buffer.length = fr
    · have heq' : prev.buffer.length = fr * c := by rw [hp.len 0 hpos, heq]
      rw [if_pos heq'] at m2
      simp only [m2, Option.bind_eq_bind, Option.bind_some, ph4] at e1
      refine ⟨_, fun j => built (monoCfg cfg) (tt j) p fl t so fr (tp j).buffer (tp 0).fill ph, e1, ?_, ?_⟩
      · intro j hj
        have e := e2 j hj
        have m := m1 j hj
        rw [if_pos (by rw [hlj j hj]; exact heq), hfj j hj] at m
        have m' : carry (monoCfg cfg).ar.zero (tp j) (fr / 2) fr = some ((tp j).buffer, (tp 0).fill) := m
        rw [if_pos (hb1 j hj)] at e
        simp only [m', Option.bind_eq_bind, Option.bind_some, ph3 j hj] at e
        exact e
      · rw [hp.fill 0 hpos]
        exact hsim _ _ _ _ _ (hp.len 0 hpos) (fun j hj => hlj j hj) hinter
    · have heq' : ¬ prev.buffer.length = fr * c := by
        rw [hp.len 0 hpos]
        intro h
        exact heq (Nat.eq_of_mul_eq_mul_right hpos h)
      rw [if_neg heq'] at m2
      simp only [m2, Option.bind_eq_bind, Option.bind_some, ph4] at e1
      refine ⟨_, fun j => built (monoCfg cfg) (tt j) p fl t so fr
        (List.replicate (fr / 2 - (tp 0).centre) cfg.ar.zero ++ (tp j).buffer.take (tp 0).fill
          ++ List.replicate (fr - (fr / 2 - (tp 0).centre) - (tp 0).fill) cfg.ar.zero)
        (if (tp 0).fill = 0 then fr / 2 else fr / 2 - (tp 0).centre + (tp 0).fill) ph, e1, ?_, ?_⟩
      · intro j hj
        have e := e2 j hj
        have m := m1 j hj
        rw [if_neg (by rw [hlj j hj]; exact heq), hfj j hj, hcj j hj] at m
        have m' : carry (monoCfg cfg).ar.zero (tp j) (fr / 2) fr = _ := m
        rw [if_pos (hb1 j hj)] at e
        simp only [m', Option.bind_eq_bind, Option.bind_some, ph3 j hj] at e
        exact e
      · have hfill : (if prev.fill = 0 then fr / 2 * c else fr / 2 * c - prev.centre + prev.fill) =
            (if (tp 0).fill = 0 then fr / 2 else fr / 2 - (tp 0).centre + (tp 0).fill) * c := by
          rw [hp.centre 0 hpos, hp.fill 0 hpos]
          by_cases h0 : (tp 0).fill = 0
          · rw [if_pos h0, if_pos (by rw [h0, Nat.zero_mul])]
          · have : (tp 0).fill * c ≠ 0 := Nat.mul_ne_zero h0 (by omega)
            rw [if_neg h0, if_neg this, Nat.add_mul, Nat.sub_mul]
        rw [hfill]
        apply hsim _ _ _ _ ((fr / 2 - (tp 0).centre + (tp 0).fill) + (fr - (fr / 2 - (tp 0).centre) - (tp 0).fill))
        · rw [hp.centre 0 hpos, hp.fill 0 hpos]
          simp only [List.length_append, List.length_replicate, List.length_take, Nat.add_mul, ← Nat.sub_mul]
          rw [Nat.min_eq_left (by rw [hp.len 0 hpos]; exact Nat.mul_le_mul_right c hpf)]
        · intro j hj
          simp only [List.length_append, List.length_replicate, List.length_take]
          rw [hlj j hj, Nat.min_eq_left hpf]
        · rw [hp.centre 0 hpos, hp.fill 0 hpos, ← Nat.sub_mul, ← Nat.sub_mul, ← Nat.sub_mul]
          refine Inter.append (Inter.append (Inter.replicate c _ _) (by simp) (by simp)
            (hinter.take hpf)) ?_ ?_ (Inter.replicate c _ _)
          · simp only [List.length_append, List.length_replicate, List.length_take, Nat.add_mul]
            rw [Nat.min_eq_left (by rw [hp.len 0 hpos]; exact Nat.mul_le_mul_right c hpf)]
          · intro j hj
            simp only [List.length_append, List.length_replicate, List.length_take]
            rw [hlj j hj, Nat.min_eq_left hpf]
  · rw [if_neg hb] at e1
    refine ⟨_, fun j => built (monoCfg cfg) (tt j) p fl t so fr (List.replicate fr cfg.ar.zero) (fr / 2)
      (fl / 2 % p.num), e1, ?_, ?_⟩
    · intro j hj
      have e := e2 j hj
      rw [if_neg (by
        intro h
        apply hb
        rw [hp.len j hj]
        exact Nat.mul_pos h hpos)] at e
      exact e
    · exact hsim _ _ _ _ fr (by simp) (by simp) (Inter.replicate c fr _)

/-- `r` holds `c` channels in the resamplers `q`. -/
structure SimRes (c : Nat) (r : Res α) (q : Nat → Res α) : Prop where
  s : Sim c r.s (fun j => (q j).s)
  fade : Sim c r.fade (fun j => (q j).fade)
  fadeCount : ∀ j, j < c → (q j).fadeCount = r.fadeCount
  initialised : ∀ j, j < c → (q j).initialised = r.initialised

theorem init_sim (c : Nat) : SimRes c (init : Res α) (fun _ => init) := by
  have h : Sim c (init : Res α).s (fun _ => (init : Res α).s) := by
    exact { params := fun _ _ => rfl, ip := fun _ _ => rfl, cp := fun _ _ => rfl, fl := fun _ _ => rfl,
            table := fun _ _ => rfl, sorted := fun _ _ => rfl
            left := fun j hj => by simp [init]
            centre := fun j hj => by simp [init]
            fill := fun j hj => by simp [init]
            ch := rfl
            len := fun j hj => by simp [init]
            buf := fun j i hj hi => by simp [init] at hi }
  exact ⟨h, h, fun _ _ => rfl, fun _ _ => rfl⟩

theorem reset_sim {c : Nat} {r : Res α} {q : Nat → Res α} (h : SimRes c r q) :
    SimRes c (reset r) (fun j => reset (q j)) :=
  ⟨h.s, h.fade, fun _ _ => rfl, fun _ _ => rfl⟩

theorem prepare_sim {cfg : Cfg α} {c : Nat} (hc : cfg.channels = c) (hpos : 0 < c) {r : Res α}
    {q : Nat → Res α} (h : SimRes c r q) (hg : ∀ j, j < c → GoodRes (monoCfg cfg) (q j)) {ratio : Rat}
    (hr : ValidRatio ratio) (fl : Nat) :
    ∃ r' q', prepare cfg r ratio fl = some r' ∧
      (∀ j, j < c → prepare (monoCfg cfg) (q j) ratio fl = some (q' j)) ∧ SimRes c r' q' := by
  cases hi : r.initialised with
  | false =>
    obtain ⟨s', t', a1, a2, a3⟩ := stateForRatio_sim hc hpos h.s h.fade (fun j hj => (hg j hj).fade) hr
    refine ⟨{ r with s := s', initialised := true }, fun j => { q j with s := t' j, initialised := true }, ?_, ?_,
      ⟨a3, h.fade, h.fadeCount, fun _ _ => rfl⟩⟩
    · unfold prepare
      simp only [hi, Bool.false_eq_true, not_false_eq_true, if_true, a1, Option.bind_eq_bind, Option.bind_some]
      rfl
    · intro j hj
      unfold prepare
      simp only [h.initialised j hj, hi, Bool.false_eq_true, not_false_eq_true, if_true, a2 j hj, Option.bind_eq_bind,
        Option.bind_some]
      rfl
  | true =>
    by_cases hne : ratio ≠ r.s.params.ratio
    · obtain ⟨s', t', a1, a2, a3⟩ := stateForRatio_sim hc hpos h.fade h.s (fun j hj => (hg j hj).s) hr
      refine ⟨{ r with s := s', fade := r.s, fadeCount := if cfg.smooth then fl else r.fadeCount },
        fun j => { q j with s := t' j, fade := (q j).s, fadeCount := if cfg.smooth then fl else (q j).fadeCount }, ?_, ?_,
        ⟨a3, h.s, fun j hj => by simp only [h.fadeCount j hj], h.initialised⟩⟩
      · unfold prepare
        simp only [hi, not_true_eq_false, if_false]
        rw [if_pos hne]
        simp only [a1, Option.bind_eq_bind, Option.bind_some]
        rfl
      · intro j hj
        have hne' : ratio ≠ (q j).s.params.ratio := by
          rw [h.s.params j hj]; exact hne
        unfold prepare
        simp only [h.initialised j hj, hi, not_true_eq_false, if_false]
        rw [if_pos hne']
        simp only [a2 j hj, Option.bind_eq_bind, Option.bind_some]
        rfl
    · refine ⟨r, q, ?_, ?_, h⟩
      · unfold prepare
        simp only [hi, not_true_eq_false, if_false]
        rw [if_neg hne]
      · intro j hj
        have hne' : ¬ ratio ≠ (q j).s.params.ratio := by
          rw [h.s.params j hj]; exact hne
        unfold prepare
        simp only [h.initialised j hj, hi, not_true_eq_false, if_false]
        rw [if_neg hne']

/-- A call with `c` channels is `c` calls with one. -/
theorem resample_sim {cfg : Cfg α} {c : Nat} (hc : cfg.channels = c) (hpos : 0 < c) {r : Res α}
    {q : Nat → Res α} (h : SimRes c r q) (hg : ∀ j, j < c → GoodRes (monoCfg cfg) (q j)) {ratio : Rat}
    (hr : ValidRatio ratio) {out inp : List α} {outs inps : Nat → List α} {outspace incount : Nat}
    (ho : Inter c outspace out outs) (hin : Inter c incount inp inps) (final : Bool) :
    ∃ r' q' n out' outs', resample cfg r out outspace inp incount ratio final = some (r', out', n) ∧
      (∀ j, j < c → resample (monoCfg cfg) (q j) (outs j) outspace (inps j) incount ratio final
        = some (q' j, outs' j, n)) ∧ SimRes c r' q' ∧ Inter c outspace out' outs' ∧
      out'.length = out.length ∧ ∀ k, n * c ≤ k → out'[k]? = out[k]? := by
  obtain ⟨r1, q1, a1, a2, a3⟩ := prepare_sim hc hpos h hg hr (fadeLengthFor cfg outspace incount ratio)
  have hq1 : ∀ j, j < c → GoodRes (monoCfg cfg) (q1 j) ∧ (q1 j).initialised = true := by
    intro j hj
    obtain ⟨r', b1, b2, b3, _⟩ := prepare_good (cfg := monoCfg cfg) rfl (hg j hj) hr (fadeLengthFor cfg outspace incount ratio)
    rw [a2 j hj] at b1
    cases b1
    exact ⟨b2, b3⟩
  obtain ⟨s', t', o', out1, outs1, b1, b2, b3, b4, b5, b6, b7, b8, b9⟩ := mainLoop_sim hc hpos final hin
    outspace 0 0 r1.s (fun j => (q1 j).s) out outs a3.s (fun j hj => (hq1 j hj).1.running (hq1 j hj).2) ho
    (by omega) (by omega)
  obtain ⟨f', g', n', out2, outs2, c1, c2, c3, c4, c5, c6⟩ := fadeLoop_sim hc hpos hin
    (fadeLengthFor cfg outspace incount ratio) o' 0 0 r1.fade (fun j => (q1 j).fade) r1.fadeCount out1 outs1
    a3.fade (fun hn j hj => (hq1 j hj).1.fading (by rw [a3.fadeCount j hj]; exact hn)) b5 (by omega) (by omega)
  rw [Nat.zero_mul] at b1 c1
  refine ⟨{ r1 with s := s', fade := f', fadeCount := n' },
    fun j => { q1 j with s := t' j, fade := g' j, fadeCount := n' }, o', out2, outs2, ?_, ?_,
    ⟨b3, c3, fun _ _ => rfl, a3.initialised⟩, c4, by omega, ?_⟩
  · unfold resample
    simp only [a1, Option.bind_eq_bind, Option.bind_some, hc, b1, c1, Nat.mul_div_cancel _ hpos]
    rfl
  · intro j hj
    have hch : (monoCfg cfg).channels = 1 := rfl
    have hfl : fadeLengthFor (monoCfg cfg) outspace incount ratio = fadeLengthFor cfg outspace incount ratio := rfl
    have hc2 := c2 j hj
    rw [← a3.fadeCount j hj] at hc2
    unfold resample
    simp only [hfl, a2 j hj, Option.bind_eq_bind, Option.bind_some, hch, Nat.mul_one, b2 j hj, hc2, Nat.div_one]
    rfl
  · intro k hk
    rw [c6 k (by rw [Nat.zero_add]; exact hk), b7 k (Or.inr hk)]

end Verif.BQ
