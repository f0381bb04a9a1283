import Verif.LiveLemmas
import Verif.BQSetup
/-!
# The live shifter from block to block
-/
namespace Verif.Live
open Verif.BQ (ValidRatio)

/-! ## Sizes -/

/-- The sizes in terms of one power of two. -/
theorem sizes (p : Params) : ∃ u, 16 ≤ u ∧ u ≤ 512 ∧ p.maxInhop = 4 * u ∧ p.maxOuthop = 5 * u ∧
    1024 ≤ p.windowSourceSize ∧ p.windowSourceSize ≤ 68 * u ∧ 2 ∣ p.windowSourceSize := by
  let q : R3.Params := { sampleRate := p.sampleRate, channels := 1, windowShort := true }
  obtain ⟨_, h2, _, h4, h5, h6⟩ := R3.sizes q
  have hr : q.rate = p.rate := rfl
  rw [hr] at h2 h4
  refine ⟨R3.unit q, h5, h6, h2, by unfold Params.maxOuthop; rw [h2]; omega, ?_⟩
  have hf : p.fftSize = max 1024 (16 * R3.unit q) := by
    unfold Params.fftSize
    rw [h4]
    split <;> omega
  have hm : p.maxInhop = 4 * R3.unit q := h2
  unfold Params.windowSourceSize
  rw [hf, hm]
  split
  · split <;> omega
  · omega

theorem ceil_split {x n : Nat} (hx : 1 ≤ x) (hn : 1 ≤ n) : x ≤ n * (1 + (x - 1) / n) ∧ n * (1 + (x - 1) / n) ≤ x + (n - 1) := by
  have h1 := Nat.div_add_mod (x - 1) n
  have h2 := Nat.mod_lt (x - 1) (by omega : n > 0)
  rw [Nat.mul_add, Nat.mul_one]
  omega

/-! ## Generating -/

theorem hopLoop_spec (p : Params) (inhop outhop : Nat) : ∀ (n : Nat) (s : State), s.outbuf + n * outhop ≤ p.ringSize →
    hopLoop p inhop outhop n s = { s with outbuf := s.outbuf + n * outhop, inbuf := s.inbuf - n * inhop } := by
  intro n
  induction n with
  | zero => intro s _; simp [hopLoop]
  | succ n ih =>
    intro s hs
    rw [Nat.succ_mul] at hs
    unfold hopLoop
    have hp : put p.ringSize s.outbuf outhop = s.outbuf + outhop := by unfold put; omega
    rw [hp, ih _ (by simp only; omega)]
    simp only [State.mk.injEq, and_true]
    rw [Nat.succ_mul, Nat.succ_mul]
    omega

/-- A round of generation, when there is input and too little output. -/
theorem generate_spec {p : Params} {required H : Nat} {s : State} (ho : s.outbuf < required)
    (hi : p.windowSourceSize < s.inbuf) (hH : hopCount p (s.inbuf - p.windowSourceSize) (required - s.outbuf) ≤ H)
    (hring : required + H ≤ p.ringSize) (hH' : H ≤ p.windowSourceSize) :
    ∃ o i, generate p required s = { s with outbuf := o, inbuf := i } ∧ required ≤ o ∧ o ≤ required + (H - 1) ∧
      i ≤ p.windowSourceSize ∧ p.windowSourceSize ≤ i + (H - 1) := by
  unfold generate
  rw [if_neg (by omega), if_neg (by omega)]
  simp only
  have h1 : 1 ≤ hopCount p (s.inbuf - p.windowSourceSize) (required - s.outbuf) :=
    Nat.le_trans (Nat.le_add_right 1 _) (Nat.le_max_left _ _)
  generalize hopCount p (s.inbuf - p.windowSourceSize) (required - s.outbuf) = n at *
  obtain ⟨a1, a2⟩ := ceil_split (x := required - s.outbuf) (n := n) (by omega) h1
  obtain ⟨b1, b2⟩ := ceil_split (x := s.inbuf - p.windowSourceSize) (n := n) (by omega) h1
  rw [hopLoop_spec p _ _ n s (by omega)]
  exact ⟨_, _, rfl, by omega, by omega, by omega, by omega⟩

/-- How many hops there can be. -/
theorem hopCount_le {p : Params} {tc tg u H : Nat} (hu : 16 ≤ u) (h1 : p.maxInhop = 4 * u) (h2 : p.maxOuthop = 5 * u)
    (hc : tc ≤ H * (4 * u)) (hg : tg ≤ H * (5 * u)) (hH : 1 ≤ H) : hopCount p tc tg ≤ H := by
  have aux : ∀ {x y : Nat}, 0 < y → x ≤ H * y → 1 + (x - 1) / y ≤ H := by
    intro x y hy hx
    have hpos : 0 < H * y := Nat.mul_pos (by omega) hy
    have : (x - 1) / y < H := (Nat.div_lt_iff_lt_mul hy).mpr (by omega)
    omega
  unfold hopCount
  rw [h1, h2]
  exact max_le (aux (by omega) hc) (aux (by omega) hg)

/-! ## The pitch scales for which it works -/

/-- What the numbers that follow from the pitch scale must be. -/
structure Suits (p : Params) (Rin Rout : Rs) : Prop where
  inOk : Rin.Ok
  inUp : Rin.num ≤ Rin.den
  inDown : 2 * Rin.den ≤ 7 * Rin.num
  inReach : Rin.reach < 512
  fits : Fits Rout p.need p.feed
  outReach : Rout.reach < p.need
  need : 33 ≤ p.need ∧ p.need ≤ 512
  feed : p.need ≤ p.feed + 1
  expected : 1 ≤ p.expected ∧ p.expected ≤ 512
  pad : p.windowSourceSize ≤ p.pad ∧ p.pad + 512 ≤ p.ringSize
  /-- Only when the pitch is raised is there more than one window of padding. -/
  raised : p.pad = p.windowSourceSize ∨ p.need = 512

/-- After the first block. -/
structure Steady (p : Params) (Rin Rout : Rs) (s : State) : Prop where
  first : s.first = false
  inLe : s.inbuf ≤ p.windowSourceSize
  inGe : p.windowSourceSize ≤ s.inbuf + 50
  out : s.outbuf < p.need
  outLe : s.outbuf ≤ 51
  ins : Drained Rin s.ins
  inFull : Rin.reach < s.ins.taken
  outs : Ready Rout s.outs
  outFull : Rout.reach < s.outs.taken

theorem ringSize_ge (p : Params) : 4096 ≤ p.ringSize := by
  obtain ⟨u, _, _, _, _, h, _⟩ := sizes p
  unfold Params.ringSize
  omega

theorem in_call {p : Params} {Rin Rout : Rs} (h : Suits p Rin Rout) {pos : Pos} (hd : Drained Rin pos) :
    Rin.call pos blockSize p.ringSize =
      (⟨pos.taken + 512, Rin.due (pos.taken + 512)⟩, Rin.due (pos.taken + 512) - pos.made) ∧
    Rin.due (pos.taken + 512) ≤ pos.made + 512 := by
  have hr := ringSize_ge p
  unfold Drained at hd
  have h1 : Rin.due (pos.taken + 512) ≤ Rin.due pos.taken + 512 :=
    due_add_le h.inOk (Nat.mul_le_mul_left _ h.inUp) _
  have h2 := due_mono h.inOk (show pos.taken + 512 - 1 ≤ pos.taken + 512 by omega)
  have h3 := due_mono h.inOk (show pos.taken ≤ pos.taken + 512 by omega)
  refine ⟨?_, by omega⟩
  have := call_all h.inOk (s := pos) (m := blockSize) (sp := p.ringSize) (by unfold blockSize; omega)
  rw [this]
  unfold blockSize
  rw [show min p.ringSize (Rin.due (pos.taken + 512) - pos.made) = Rin.due (pos.taken + 512) - pos.made by omega]
  simp only [Prod.mk.injEq, Pos.mk.injEq, true_and, and_true]
  omega

theorem first_spec {p : Params} {Rin Rout : Rs} (h : Suits p Rin Rout) :
    ∃ s, shift p Rin Rout {} = some (s, ⟨true, 512, 0⟩) ∧ Steady p Rin Rout s := by
  obtain ⟨u, u1, u2, u3, u4, u5, u6, u7⟩ := sizes p
  have hr := ringSize_ge p
  have hring : p.ringSize = p.windowSourceSize * 4 := rfl
  obtain ⟨p1, p2⟩ := h.pad
  obtain ⟨e1, e2⟩ := h.expected
  obtain ⟨n1, n2⟩ := h.need
  have hd0 : Drained Rin ({} : Pos) := by unfold Drained; rw [due_zero (by simp)]
  obtain ⟨c1, c2⟩ := in_call h hd0
  simp only [Nat.zero_add, Nat.sub_zero] at c1 c2
  -- the input
  have hin : ∃ i, readIn p Rin (prepad p {}) = ({ inbuf := i, ins := ⟨512, Rin.due 512⟩ }, true) ∧
      p.pad + 1 ≤ i ∧ i ≤ p.pad + 512 := by
    have hpre : prepad p {} = { inbuf := p.pad } := by
      unfold prepad put
      simp only [if_true, State.mk.injEq, and_true]
      omega
    rw [hpre]
    unfold readIn
    simp only
    rw [if_neg (by unfold blockSize; omega), c1]
    refine ⟨_, rfl, ?_⟩
    unfold short put
    simp only [Bool.true_and, decide_eq_true_eq]
    split <;> omega
  obtain ⟨i, i1, i2, i3⟩ := hin
  -- generating
  have hgen : ∃ o i' H, generate p p.need { inbuf := i, ins := ⟨512, Rin.due 512⟩ } =
      { inbuf := i', outbuf := o, ins := ⟨512, Rin.due 512⟩ } ∧ p.need ≤ o ∧ o ≤ p.need + (H - 1) ∧
      i' ≤ p.windowSourceSize ∧ p.windowSourceSize ≤ i' + (H - 1) ∧ H ≤ 51 ∧ (p.need = 512 ∨ H ≤ 8) := by
    have hH : ∃ H, hopCount p (i - p.windowSourceSize) (p.need - 0) ≤ H ∧ H ≤ 51 ∧ (p.need = 512 ∨ H ≤ 8) := by
      rcases h.raised with hp | hp
      · exact ⟨8, hopCount_le u1 u3 u4 (by omega) (by omega) (by omega), by omega, Or.inr (by omega)⟩
      · exact ⟨51, hopCount_le u1 u3 u4 (by omega) (by omega) (by omega), by omega, Or.inl hp⟩
    obtain ⟨H, H1, H2, H3⟩ := hH
    obtain ⟨o, i', g1, g2, g3, g4, g5⟩ := generate_spec (p := p) (required := p.need) (H := H)
      (s := { inbuf := i, ins := ⟨512, Rin.due 512⟩ }) (by simp only; omega) (by simp only; omega) H1 (by omega) (by omega)
    exact ⟨o, i', H, g1, g2, g3, g4, g5, H2, H3⟩
  obtain ⟨o, i', H, g1, g2, g3, g4, g5, g6, g7⟩ := hgen
  -- reading out
  have hr0 : Ready Rout ({} : Pos) := Or.inl (by unfold Drained; rw [due_zero (by simp)])
  obtain ⟨q, q1, q2, q3, q4, q5, q6⟩ := read_spec h.fits (fuel := o + blockSize + 2) hr0 (by omega) g2
  have hfd := h.feed
  have hfe := h.fits.feed_pos
  have hfl := h.fits.feed_le
  refine ⟨{ inbuf := i', outbuf := q.outbuf, ins := ⟨512, Rin.due 512⟩, outs := q.pos, first := false }, ?_, ?_⟩
  · unfold shift
    simp only [i1, g1, q1, Option.bind_eq_bind, Option.bind_some, q2]
    have hfin : finish true q.count = 512 := by
      unfold finish blockSize
      rcases q6 with ⟨q6, _⟩ | ⟨q6, _⟩
      · rw [q6]; simp [blockSize]
      · unfold blockSize at q6; simp [q6]
    rw [hfin]
    rfl
  · refine ⟨rfl, g4, by simp only; omega, ?_, by simp only; omega, rfl, h.inReach, ?_, ?_⟩
    · simp only; omega
    · rcases q6 with q6 | q6
      · exact Or.inr q6.2
      · exact Or.inl q6.2.2
    · simp only at q4 q5 ⊢
      rcases q6 with ⟨q6, q7, q8, q9⟩ | ⟨q6, q7, q8⟩
      · by_contra hc
        rw [due_zero (by omega)] at q9
        unfold blockSize at q6
        omega
      · have := h.outReach
        omega

theorem next_spec {p : Params} {Rin Rout : Rs} (h : Suits p Rin Rout) {s : State} (hs : Steady p Rin Rout s) :
    ∃ s', shift p Rin Rout s = some (s', ⟨true, 512, 0⟩) ∧ Steady p Rin Rout s' := by
  obtain ⟨u, u1, u2, u3, u4, u5, u6, u7⟩ := sizes p
  have hr := ringSize_ge p
  have hring : p.ringSize = p.windowSourceSize * 4 := rfl
  obtain ⟨n1, n2⟩ := h.need
  obtain ⟨s1, s2, s3, s4, s5, s6, s7, s8, s9⟩ := hs
  obtain ⟨c1, c2⟩ := in_call h s6
  have c3 : s.ins.made + 146 ≤ Rin.due (s.ins.taken + 512) := by
    rw [s6]
    have h1 := h.inDown
    exact due_add_ge h.inOk (by omega) s7
  have hin : readIn p Rin (prepad p s) =
      ({ s with inbuf := s.inbuf + (Rin.due (s.ins.taken + 512) - s.ins.made),
                ins := ⟨s.ins.taken + 512, Rin.due (s.ins.taken + 512)⟩ }, true) := by
    have hpre : prepad p s = s := by unfold prepad; rw [s1]; simp
    rw [hpre]
    unfold readIn
    rw [if_neg (by unfold blockSize; omega), c1]
    unfold short put
    simp only [s1, Bool.false_and, Bool.false_eq_true, if_false, Prod.mk.injEq, State.mk.injEq, and_true]
    omega
  generalize hc : Rin.due (s.ins.taken + 512) - s.ins.made = c at hin
  obtain ⟨o, i', g1, g2, g3, g4, g5⟩ := generate_spec (p := p) (required := p.need) (H := 8)
    (s := { s with inbuf := s.inbuf + c, ins := ⟨s.ins.taken + 512, Rin.due (s.ins.taken + 512)⟩ }) (by simp only; omega)
    (by simp only; omega) (hopCount_le u1 u3 u4 (by simp only; omega) (by simp only; omega) (by omega)) (by omega) (by omega)
  obtain ⟨q, q1, q2, q3, q4, q5, q6⟩ := read_full h.fits (fuel := o + blockSize + 2) s8 (by omega) g2 s9
  have hfd := h.feed
  have hfe := h.fits.feed_pos
  refine ⟨{ inbuf := i', outbuf := q.outbuf, ins := ⟨s.ins.taken + 512, Rin.due (s.ins.taken + 512)⟩, outs := q.pos, first := false }, ?_, ?_⟩
  · unfold shift
    simp only [hin, g1, q1, Option.bind_eq_bind, Option.bind_some, q2, q5]
    rw [s1]
    have hfin : finish false blockSize = 512 := by simp [finish, blockSize]
    rw [hfin]
    rfl
  · refine ⟨rfl, g4, by simp only; omega, by simp only; omega, by simp only; omega, rfl, ?_, q6, q4⟩
    simp only; omega

theorem run_spec {p : Params} {Rin Rout : Rs} (h : Suits p Rin Rout) : ∀ n, ∃ s,
    run p Rin Rout n = some (s, List.replicate n ⟨true, 512, 0⟩) ∧ (n = 0 ∧ s = {} ∨ Steady p Rin Rout s) := by
  intro n
  induction n with
  | zero => exact ⟨{}, rfl, Or.inl ⟨rfl, rfl⟩⟩
  | succ n ih =>
    obtain ⟨s, a1, a2⟩ := ih
    have hnext : ∃ s', shift p Rin Rout s = some (s', ⟨true, 512, 0⟩) ∧ Steady p Rin Rout s' := by
      rcases a2 with ⟨_, rfl⟩ | a2
      · exact first_spec h
      · exact next_spec h a2
    obtain ⟨s', b1, b2⟩ := hnext
    refine ⟨s', ?_, Or.inr b2⟩
    simp only [run, a1, b1, Option.bind_eq_bind, Option.bind_some]
    rw [List.replicate_succ']
    rfl

end Verif.Live
