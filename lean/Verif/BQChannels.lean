import Verif.BQSetup
/-!
# Several channels are as many mono resamplers: lemmas
-/
namespace Verif.BQ
open Verif.MovingMedian (setAt)
variable {α : Type}

/-- `b` begins with `n` interleaved frames of the `c` lists `t`. -/
structure Inter (c n : Nat) (b : List α) (t : Nat → List α) : Prop where
  len : n * c ≤ b.length
  lens : ∀ j, j < c → n ≤ (t j).length
  at_ : ∀ j i, j < c → i < n → b[i * c + j]? = (t j)[i]?

theorem index_lt {c n i j : Nat} (hj : j < c) (hi : i < n) : i * c + j < n * c := by
  have : (i + 1) * c ≤ n * c := Nat.mul_le_mul_right c (by omega)
  rw [Nat.add_mul, Nat.one_mul] at this
  omega

theorem Inter.mono {c n m : Nat} {b : List α} {t : Nat → List α} (h : Inter c n b t) (hm : m ≤ n) :
    Inter c m b t :=
  ⟨Nat.le_trans (Nat.mul_le_mul_right c hm) h.len, fun j hj => Nat.le_trans hm (h.lens j hj),
    fun j i hj hi => h.at_ j i hj (by omega)⟩

theorem Inter.take {c n : Nat} {b : List α} {t : Nat → List α} (h : Inter c n b t) {k : Nat} (hk : k ≤ n) :
    Inter c k (b.take (k * c)) (fun j => (t j).take k) := by
  have hkc : k * c ≤ n * c := Nat.mul_le_mul_right c hk
  refine ⟨by have := h.len; simp; omega, fun j hj => by have := h.lens j hj; simp; omega, ?_⟩
  intro j i hj hi
  rw [List.getElem?_take_of_lt (index_lt hj hi), List.getElem?_take_of_lt hi]
  exact h.at_ j i hj (by omega)

theorem Inter.drop {c n : Nat} {b : List α} {t : Nat → List α} (h : Inter c n b t) (k : Nat) :
    Inter c (n - k) (b.drop (k * c)) (fun j => (t j).drop k) := by
  refine ⟨?_, fun j hj => by have := h.lens j hj; simp; omega, ?_⟩
  · have := h.len
    rw [Nat.sub_mul]; simp; omega
  · intro j i hj hi
    rw [List.getElem?_drop, List.getElem?_drop]
    have : k * c + (i * c + j) = (k + i) * c + j := by rw [Nat.add_mul]; omega
    rw [this]
    exact h.at_ j _ hj (by omega)

theorem Inter.append {c n m : Nat} {b b' : List α} {t t' : Nat → List α} (h : Inter c n b t)
    (hb : b.length = n * c) (ht : ∀ j, j < c → (t j).length = n) (h' : Inter c m b' t') :
    Inter c (n + m) (b ++ b') (fun j => t j ++ t' j) := by
  refine ⟨?_, ?_, ?_⟩
  · have := h'.len
    rw [Nat.add_mul]; simp; omega
  · intro j hj
    have := h'.lens j hj
    have := ht j hj
    simp; omega
  · intro j i hj hi
    rcases Nat.lt_or_ge i n with hin | hin
    · rw [List.getElem?_append_left (by rw [hb]; exact index_lt hj hin),
        List.getElem?_append_left (by rw [ht j hj]; exact hin)]
      exact h.at_ j i hj hin
    · have hge : n * c ≤ i * c := Nat.mul_le_mul_right c hin
      rw [List.getElem?_append_right (by omega), List.getElem?_append_right (by rw [ht j hj]; exact hin),
        hb, ht j hj]
      have : i * c + j - n * c = (i - n) * c + j := by rw [Nat.sub_mul]; omega
      rw [this]
      exact h'.at_ j _ hj (by omega)

theorem Inter.replicate (c n : Nat) (z : α) :
    Inter c n (List.replicate (n * c) z) (fun _ => List.replicate n z) := by
  refine ⟨by simp, fun _ _ => by simp, ?_⟩
  intro j i hj hi
  rw [List.getElem?_replicate_of_lt (index_lt hj hi), List.getElem?_replicate_of_lt hi]

/-- The mono resampler for one channel of `cfg`. -/
def monoCfg (cfg : Cfg α) : Cfg α :=
  { cfg with channels := 1,
             ar := { cfg.ar with dot1 := if cfg.channels = 1 then cfg.ar.dot1 else cfg.ar.dot } }

/-- `s` (between frames) holds `c` channels in the states `t`. -/
structure Sim (c : Nat) (s : State α) (t : Nat → State α) : Prop where
  params : ∀ j, j < c → (t j).params = s.params
  ip : ∀ j, j < c → (t j).initialPhase = s.initialPhase
  cp : ∀ j, j < c → (t j).currentPhase = s.currentPhase
  fl : ∀ j, j < c → (t j).filterLength = s.filterLength
  table : ∀ j, j < c → (t j).phaseInfo = s.phaseInfo
  sorted : ∀ j, j < c → (t j).sorted = s.sorted
  left : ∀ j, j < c → s.left = (t j).left * c
  centre : ∀ j, j < c → s.centre = (t j).centre * c
  fill : ∀ j, j < c → s.fill = (t j).fill * c
  ch : s.currentChannel = 0
  len : ∀ j, j < c → s.buffer.length = (t j).buffer.length * c
  buf : ∀ j i, j < c → i < (t j).buffer.length → s.buffer[i * c + j]? = (t j).buffer[i]?

theorem Sim.inter {c : Nat} (hc : 0 < c) {s : State α} {t : Nat → State α} (h : Sim c s t) :
    Inter c (t 0).buffer.length s.buffer (fun j => (t j).buffer) := by
  have hl : ∀ j, j < c → (t j).buffer.length = (t 0).buffer.length := by
    intro j hj
    have h1 := h.len j hj
    have h2 := h.len 0 hc
    rw [h1] at h2
    exact Nat.eq_of_mul_eq_mul_right hc h2
  refine ⟨by rw [h.len 0 hc], fun j hj => by rw [hl j hj], ?_⟩
  intro j i hj hi
  exact h.buf j i hj (by rw [hl j hj]; exact hi)

/-- `s` at channel `j`. -/
def atCh (s : State α) (j : Nat) : State α := { s with currentChannel := j }

theorem takes_sim {c : Nat} {s : State α} {t : Nat → State α} (h : Sim c s t) {j : Nat} (hj : j < c)
    (n : Nat) : takes s (n * c) = takes (t j) n * c := by
  unfold takes
  rw [h.len j hj, h.fill j hj, ← Nat.sub_mul]
  rcases Nat.le_total n ((t j).buffer.length - (t j).fill) with h' | h'
  · rw [Nat.min_eq_left h', Nat.min_eq_left (Nat.mul_le_mul_right c h')]
  · rw [Nat.min_eq_right h', Nat.min_eq_right (Nat.mul_le_mul_right c h')]

theorem taken_sim {c : Nat} {s : State α} {t : Nat → State α} (h : Sim c s t)
    {inp : List α} {inps : Nat → List α} {N : Nat} (hin : Inter c N inp inps)
    (hf : ∀ j, j < c → (t j).fill ≤ (t j).buffer.length) {i n : Nat} (hi : i + n ≤ N) :
    Sim c (taken s inp (i * c) (takes s (n * c))) (fun j => taken (t j) (inps j) i (takes (t j) n)) := by
  rcases Nat.eq_zero_or_pos c with h0 | hc
  · subst h0
    exact { params := fun j h => by omega, ip := fun j h => by omega, cp := fun j h => by omega,
            fl := fun j h => by omega, table := fun j h => by omega, sorted := fun j h => by omega,
            left := fun j h => by omega, centre := fun j h => by omega, fill := fun j h => by omega,
            ch := h.ch, len := fun j h => by omega, buf := fun j i h => by omega }
  have hk0 := fun j hj => takes_sim h (j := j) hj n
  have hfill : ∀ j, j < c → (t j).fill = (t 0).fill := by
    intro j hj
    exact Nat.eq_of_mul_eq_mul_right hc ((h.fill j hj).symm.trans (h.fill 0 hc))
  have hk : ∀ j, j < c → takes (t j) n = takes (t 0) n := by
    intro j hj
    exact Nat.eq_of_mul_eq_mul_right hc ((hk0 j hj).symm.trans (hk0 0 hc))
  have hl : ∀ j, j < c → (t j).buffer.length = (t 0).buffer.length := by
    intro j hj
    exact Nat.eq_of_mul_eq_mul_right hc ((h.len j hj).symm.trans (h.len 0 hc))
  have hkn : takes (t 0) n ≤ n := by unfold takes; omega
  have hkl : (t 0).fill + takes (t 0) n ≤ (t 0).buffer.length := by
    have := hf 0 hc
    unfold takes; omega
  have hf0 := hf 0 hc
  -- the new buffer
  have hB := h.inter hc
  have h1 := hB.take (k := (t 0).fill) hf0
  have hd := hin.drop i
  have h2 := (hd.mono (m := n) (by omega)).take (k := takes (t 0) n) hkn
  have h3 := hB.drop ((t 0).fill + takes (t 0) n)
  have hlen1 : (s.buffer.take ((t 0).fill * c)).length = (t 0).fill * c := by
    have := h.len 0 hc
    have := Nat.mul_le_mul_right c hf0
    simp; omega
  have hlen2 : ((inp.drop (i * c)).take (takes (t 0) n * c)).length = takes (t 0) n * c := by
    have e := hin.len
    have e2 : (i + takes (t 0) n) * c ≤ N * c := Nat.mul_le_mul_right c (by omega)
    rw [Nat.add_mul] at e2
    simp; omega
  have h12 := h1.append hlen1 (fun j hj => by simp; have := hf j hj; have := hfill j hj; omega) h2
  have h123 := h12.append (by rw [List.length_append, hlen1, hlen2, Nat.add_mul]) (fun j hj => by
    have := hin.lens j hj
    have := hf j hj; have := hfill j hj
    simp; omega) h3
  have hbuf : (taken s inp (i * c) (takes s (n * c))).buffer =
      s.buffer.take ((t 0).fill * c) ++ (inp.drop (i * c)).take (takes (t 0) n * c)
        ++ s.buffer.drop (((t 0).fill + takes (t 0) n) * c) := by
    unfold taken
    simp only [hk0 0 hc, h.fill 0 hc, Nat.add_mul]
  have hbufj : ∀ j, j < c → (taken (t j) (inps j) i (takes (t j) n)).buffer =
      (t j).buffer.take (t 0).fill ++ ((inps j).drop i).take (takes (t 0) n)
        ++ (t j).buffer.drop ((t 0).fill + takes (t 0) n) := by
    intro j hj
    unfold taken
    simp only [hk j hj, hfill j hj]
  have hlenj : ∀ j, j < c → (taken (t j) (inps j) i (takes (t j) n)).buffer.length = (t 0).buffer.length := by
    intro j hj
    rw [taken_length (t j) (inps j) i n (hf j hj) (by have := hin.lens j hj; omega), hl j hj]
  refine { params := h.params, ip := h.ip, cp := h.cp, fl := h.fl, table := h.table,
           sorted := h.sorted, left := h.left, centre := h.centre, ch := h.ch, fill := ?_, len := ?_, buf := ?_ }
  · intro j hj
    show s.fill + takes s (n * c) = ((t j).fill + takes (t j) n) * c
    rw [hk0 j hj, h.fill j hj, Nat.add_mul]
  · intro j hj
    rw [hlenj j hj, taken_length s inp (i * c) (n * c), h.len 0 hc]
    · rw [h.len 0 hc, h.fill 0 hc]; exact Nat.mul_le_mul_right c hf0
    · have := hin.len
      have e2 : (i + n) * c ≤ N * c := Nat.mul_le_mul_right c hi
      rw [Nat.add_mul] at e2
      omega
  · intro j i' hj hi'
    rw [hlenj j hj] at hi'
    rw [hbuf, hbufj j hj]
    exact h123.at_ j i' hj (by omega)

theorem ready_sim {c : Nat} (hc : 0 < c) {s : State α} {t : Nat → State α} (h : Sim c s t) {j : Nat}
    (hj : j < c) (final : Bool) : ready final s = ready final (t j) := by
  unfold ready
  rw [h.len j hj, h.fill j hj, h.centre j hj, h.cp j hj, h.ip j hj]
  have e1 : ((t j).fill * c == (t j).buffer.length * c) = ((t j).fill == (t j).buffer.length) := by
    rw [Bool.eq_iff_iff, beq_iff_eq, beq_iff_eq]
    exact Nat.mul_left_inj (by omega)
  have e2 : decide ((t j).fill * c > (t j).centre * c) = decide ((t j).fill > (t j).centre) := by
    rw [decide_eq_decide]
    exact Nat.mul_lt_mul_right hc
  have e3 : ((t j).fill * c == (t j).centre * c) = ((t j).fill == (t j).centre) := by
    rw [Bool.eq_iff_iff, beq_iff_eq, beq_iff_eq]
    exact Nat.mul_left_inj (by omega)
  rw [e1, e2, e3]

theorem gather_sim {c : Nat} {b : List α} {t : Nat → List α} {N : Nat} (h : Inter c N b t) {j : Nat}
    (hj : j < c) (left : Nat) : ∀ (rounds i : Nat), left + i + rounds ≤ N →
    gather b (left * c) c j rounds i = gather (t j) left 1 0 rounds i := by
  intro rounds
  induction rounds with
  | zero => intro i _; rfl
  | succ rounds ih =>
    intro i hi
    unfold gather
    have e : left * c + i * c + j = (left + i) * c + j := by rw [Nat.add_mul]
    rw [e, h.at_ j (left + i) hj (by omega), ih (i + 1) (by omega)]
    have e2 : left + i * 1 + 0 = left + i := by omega
    rw [e2]

theorem protoCoefs_sim (cfg : Cfg α) {s t : State α} (h1 : t.params = s.params)
    (h2 : t.currentPhase = s.currentPhase) (h3 : t.filterLength = s.filterLength) :
    ∀ (rounds i : Nat), protoCoefs cfg s rounds i = protoCoefs (monoCfg cfg) t rounds i := by
  intro rounds
  induction rounds with
  | zero => intro i; rfl
  | succ rounds ih =>
    intro i
    unfold protoCoefs
    rw [ih (i + 1), h1, h2, h3]
    rfl

theorem convolve_sim (cfg : Cfg α) {c : Nat} (hc : cfg.channels = c) (hpos : 0 < c) {s : State α}
    {t : Nat → State α} (h : Sim c s t) {j : Nat} (hj : j < c) (htc : (t j).currentChannel = 0)
    (pr : PhaseRec) : convolve cfg (atCh s j) pr = convolve (monoCfg cfg) (t j) pr := by
  unfold convolve
  have hI : Inter c (t j).buffer.length s.buffer (fun j => (t j).buffer) := by
    have := h.inter hpos
    have e : (t j).buffer.length = (t 0).buffer.length :=
      Nat.eq_of_mul_eq_mul_right hpos ((h.len j hj).symm.trans (h.len 0 hpos))
    rw [e]; exact this
  have hn : min pr.length ((s.buffer.length - s.left) / c) =
      min pr.length (((t j).buffer.length - (t j).left) / 1) := by
    rw [h.len j hj, h.left j hj, ← Nat.sub_mul, Nat.mul_div_cancel _ hpos, Nat.div_one]
  have hmc : (monoCfg cfg).channels = 1 := rfl
  have hmf : (monoCfg cfg).mostlyFixed = cfg.mostlyFixed := rfl
  simp only [atCh, hc, hn, hmc, htc, hmf]
  generalize hN : min pr.length (((t j).buffer.length - (t j).left) / 1) = n
  have hg : gather s.buffer s.left c j n 0 = gather (t j).buffer (t j).left 1 0 n 0 := by
    rcases Nat.eq_zero_or_pos n with h0 | h0
    · subst h0; rfl
    · rw [h.left j hj]
      apply gather_sim hI hj
      rw [Nat.div_one] at hN
      omega
  rw [hg]
  have hp := protoCoefs_sim cfg (s := { s with currentChannel := j }) (t := t j) (h.params j hj) (h.cp j hj) (h.fl j hj) n 0
  rw [hp, h.sorted j hj]
  simp only [monoCfg, hc, if_true]
  by_cases h1 : c = 1
  · subst h1; rfl
  · simp only [h1, if_false]

/-- The state after a frame. -/
def steppedC (cfg : Cfg α) (s : State α) : State α :=
  { s with
    buffer := s.buffer.drop (dropOf s * cfg.channels) ++ List.replicate (dropOf s * cfg.channels) cfg.ar.zero
    fill := s.fill - dropOf s * cfg.channels
    currentPhase := nextPhase s.params.num s.params.den s.currentPhase
    currentChannel := 0 }

theorem dropOf_sim {c : Nat} {s : State α} {t : Nat → State α} (h : Sim c s t) {j : Nat} (hj : j < c) :
    dropOf s = dropOf (t j) := by
  unfold dropOf; rw [h.params j hj, h.cp j hj]

/-- One sample of a frame. -/
theorem reconstructOne_sim {cfg : Cfg α} {c : Nat} (hc : cfg.channels = c) {s : State α}
    {t : Nat → State α} (h : Sim c s t) (hg : ∀ j, j < c → Good (monoCfg cfg) (t j))
    (hf : ∀ j, j < c → (t j).centre ≤ (t j).fill) {j : Nat} (hj : j < c) :
    reconstructOne cfg (atCh s j) =
      some (if j + 1 < c then atCh s (j + 1) else steppedC cfg s, sample (monoCfg cfg) (t j)) := by
  have hpos : 0 < c := by omega
  have hG := hg j hj
  obtain ⟨r, r1, r2, r3, r4⟩ := hG.table.entry _ hG.cp
  obtain ⟨x, x1, x2⟩ := convolve_spec rfl hG r1
  have hr : (atCh s j).phaseInfo[(atCh s j).currentPhase]? = some r := by
    show s.phaseInfo[s.currentPhase]? = some r
    rw [← h.table j hj, ← h.cp j hj]; exact r1
  unfold reconstructOne
  simp only [hr, Option.bind_eq_bind, Option.bind_some, convolve_sim cfg hc hpos h hj hG.ch, x1]
  have hsc : cfg.ar.scaled (atCh s j).params.scale x = sample (monoCfg cfg) (t j) := by
    rw [← x2, h.params j hj]; rfl
  rw [hsc]
  unfold advance
  simp only [atCh, hc]
  by_cases hlast : j + 1 < c
  · rw [if_pos hlast, Nat.mod_eq_of_lt hlast, if_neg (by omega)]
    rfl
  · have : j + 1 = c := by omega
    rw [if_neg hlast, this, Nat.mod_self, if_pos rfl]
    have hd := dropOf_le hG
    have hd' : r.drop = dropOf s := by rw [r3, dropOf_sim h hj]; rfl
    have hfj := hf j hj
    have hle : dropOf s * c ≤ s.fill := by
      rw [h.fill j hj]; exact Nat.mul_le_mul_right c (by rw [dropOf_sim h hj]; omega)
    have hle2 : dropOf s * c ≤ s.buffer.length := by
      rw [h.len j hj]; exact Nat.mul_le_mul_right c (by rw [dropOf_sim h hj]; have := hG.fill; omega)
    have hnext : r.next = nextPhase s.params.num s.params.den s.currentPhase := by
      rw [r2, h.params j hj, h.cp j hj]
    unfold dropFront steppedC
    simp only [hd', hc]
    by_cases h0 : dropOf s * c = 0
    · rw [if_pos h0]
      simp only [Option.bind_some, h0, List.drop_zero, List.replicate_zero, List.append_nil, Nat.sub_zero, hnext]
      rfl
    · rw [if_neg h0, if_pos ⟨hle2, hle⟩]
      simp only [Option.bind_some, hnext]
      rfl

theorem stepped_sim {cfg : Cfg α} {c : Nat} (hc : cfg.channels = c) {s : State α} {t : Nat → State α}
    (h : Sim c s t) (hg : ∀ j, j < c → Good (monoCfg cfg) (t j))
    (hf : ∀ j, j < c → (t j).centre ≤ (t j).fill) (hpos : 0 < c) :
    Sim c (steppedC cfg s) (fun j => stepped (monoCfg cfg) (t j)) := by
  have hd := fun j hj => dropOf_sim h (j := j) hj
  have hdl : ∀ j, j < c → dropOf s ≤ (t j).buffer.length := by
    intro j hj
    have := dropOf_le (hg j hj)
    have := (hg j hj).fill
    have := hf j hj
    rw [hd j hj]; omega
  have hl : ∀ j, j < c → (t j).buffer.length = (t 0).buffer.length := by
    intro j hj
    exact Nat.eq_of_mul_eq_mul_right hpos ((h.len j hj).symm.trans (h.len 0 hpos))
  have hB := h.inter hpos
  have h1 := hB.drop (dropOf s)
  have h2 := Inter.replicate c (dropOf s) cfg.ar.zero
  have h12 := h1.append (by
      rw [List.length_drop, h.len 0 hpos, Nat.sub_mul]) (fun j hj => by
      simp [hl j hj]) h2
  refine { params := h.params, ip := h.ip, fl := h.fl, table := h.table, sorted := h.sorted,
           left := h.left, centre := h.centre, ch := rfl, cp := ?_, fill := ?_, len := ?_, buf := ?_ }
  · intro j hj
    show nextPhase _ _ _ = nextPhase _ _ _
    rw [h.params j hj, h.cp j hj]
  · intro j hj
    show s.fill - dropOf s * cfg.channels = ((t j).fill - dropOf (t j)) * c
    rw [h.fill j hj, hc, Nat.sub_mul, hd j hj]
  · intro j hj
    have e1 := hdl j hj
    have e2 : dropOf s * c ≤ (t j).buffer.length * c := Nat.mul_le_mul_right c e1
    have e3 := h.len j hj
    show (s.buffer.drop (dropOf s * cfg.channels) ++ List.replicate (dropOf s * cfg.channels) cfg.ar.zero).length
      = ((t j).buffer.drop (dropOf (t j)) ++ List.replicate (dropOf (t j)) (monoCfg cfg).ar.zero).length * c
    rw [← hd j hj, hc]
    simp only [List.length_append, List.length_drop, List.length_replicate]
    rw [Nat.sub_add_cancel e1]
    omega
  · intro j i hj hi
    have e1 := hdl j hj
    have hlen : ((t j).buffer.drop (dropOf (t j)) ++ List.replicate (dropOf (t j)) (monoCfg cfg).ar.zero).length
        = (t j).buffer.length := by
      rw [← hd j hj]; simp; omega
    have hi' : i < (t j).buffer.length := by
      have : i < ((t j).buffer.drop (dropOf (t j)) ++ List.replicate (dropOf (t j)) (monoCfg cfg).ar.zero).length := hi
      omega
    show (s.buffer.drop (dropOf s * cfg.channels) ++ List.replicate (dropOf s * cfg.channels) cfg.ar.zero)[i * c + j]?
      = ((t j).buffer.drop (dropOf (t j)) ++ List.replicate (dropOf (t j)) (monoCfg cfg).ar.zero)[i]?
    rw [← hd j hj, hc]
    exact h12.at_ j i hj (by have := hl j hj; have := hdl 0 hpos; omega)

end Verif.BQ
