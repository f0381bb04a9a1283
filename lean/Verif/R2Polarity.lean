import Verif.R2ModifyUnity
/-!
# Polarity in the faster engine (C151)

Turned over, audio has the same magnitudes in each bin and the phases half a turn on; so the output is turned over if and only if the phases put out are half a turn on too.
-/
namespace Verif.R2Modify
open Verif.Round Verif.PhaseAdvance

variable {K : Type} [Field K] [LinearOrder K] [IsStrictOrderedRing K] [FloorRing K]

/-- A chunk and the same with all phases `d` further on, up to whole turns. -/
structure TurnedFrame (pi d : K) (f f' : Frame K) : Prop where
  conf : f'.conf = f.conf
  out : f'.outputIncrement = f.outputIncrement
  reset : f'.phaseReset = f.phaseReset
  phase : ∀ i, Cong pi (f'.phase i) (f.phase i + d)

/-- The same for events. -/
inductive Turned (pi d : K) : Event K → Event K → Prop where
  | frame {f f' : Frame K} (h : TurnedFrame pi d f f') : Turned pi d (.frame f) (.frame f')
  | reset : Turned pi d .reset .reset
  | sizes : Turned pi d .sizes .sizes

/-- The phases are such as `forwardPolar` gives: principal values, and those of the lowest and the highest bin, which are real numbers, 0 or half a turn. -/
structure Principal (n : Nat) (f : Frame ℝ) : Prop where
  range : ∀ i, -Real.pi < f.phase i ∧ f.phase i ≤ Real.pi
  lowest : f.phase 0 = 0 ∨ f.phase 0 = Real.pi
  highest : f.phase (n / 2) = 0 ∨ f.phase (n / 2) = Real.pi

/-- For an event. -/
def PrincipalEvent (n : Nat) : Event ℝ → Prop
  | .frame f => Principal n f
  | _ => True

/-- **C151** in full: if all phases of the input are half a turn on, in each chunk since the channel was made, then so are the phases put out.  The first chunk resets the phases, as it does offline. -/
def C151_statement : Prop :=
  ∀ (n : Nat) (f₀ f₀' : Frame ℝ) (l l' : List (Event ℝ)) (f f' : Frame ℝ) (i : Nat), Proper n f₀ → (∀ e ∈ l, ProperEvent n e) → Proper n f → Principal n f₀ → Principal n f₀' → (∀ e ∈ l, PrincipalEvent n e) →
    (∀ e ∈ l', PrincipalEvent n e) → Principal n f → Principal n f' → f₀.phaseReset = true → TurnedFrame Real.pi Real.pi f₀ f₀' → List.Forall₂ (Turned Real.pi Real.pi) l l' → TurnedFrame Real.pi Real.pi f f' →
    i ≤ n / 2 → Cong Real.pi (put Real.pi (run Real.pi create (.frame f₀' :: l')) f' i) (put Real.pi (run Real.pi create (.frame f₀ :: l)) f i + Real.pi)

/-! ## What does not depend on the phases -/

/-- The same but for phases. -/
structure SameFlags (c c' : Chan K) : Prop where
  unchanged : c'.unchanged = c.unchanged
  low : c'.unityResetLow = c.unityResetLow

theorem loop_flag {pi : K} {q : Conf} {b : Bands} {out : Nat} : ∀ (i : Nat) (s s' : Loop K), s'.fullReset = s.fullReset → (loop pi q b out i s').fullReset = (loop pi q b out i s).fullReset
  | 0, s, s', h => by rw [loop, loop, step_full, step_full, h]
  | i + 1, s, s', h => by
    rw [loop, loop]
    refine loop_flag i _ _ ?_
    rw [step_full, step_full, h]

theorem flags_chunk {pi d : K} {c c' : Chan K} {f f' : Frame K} (h : TurnedFrame pi d f f') (hc : SameFlags c c') : SameFlags (chunk pi c f) (chunk pi c' f') := by
  obtain ⟨conf, out, reset, phase⟩ := f
  obtain ⟨conf', out', reset', phase'⟩ := f'
  obtain ⟨h1, h2, h3, -⟩ := h
  obtain ⟨u, l⟩ := hc
  simp only at h1 h2 h3
  subst h1 h2 h3
  constructor
  · simp only [chunk, modify, u, l]
    rw [loop_flag]
    rfl
  · simp only [chunk, modify, l]

theorem flags_after {pi d : K} {c c' : Chan K} {e e' : Event K} (h : Turned pi d e e') (hc : SameFlags c c') : SameFlags (after pi c e) (after pi c' e') := by
  cases h with
  | frame h => exact flags_chunk h hc
  | reset => exact ⟨rfl, hc.low⟩
  | sizes => exact ⟨hc.unchanged, hc.low⟩

theorem flags_run {pi d : K} {l l' : List (Event K)} (h : List.Forall₂ (Turned pi d) l l') : ∀ {c c' : Chan K}, SameFlags c c' → SameFlags (run pi c l) (run pi c' l') := by
  induction h with
  | nil => exact fun h => h
  | cons a _ ih => exact fun h => ih (flags_after a h)

/-! ## A bin -/

/-- The remembered phases of a bin are `d` further on. -/
structure BinTurned (pi d : K) (i : Nat) (c c' : Chan K) : Prop where
  prev : Cong pi (c'.prevPhase i) (c.prevPhase i + d)
  unwrapped : Cong pi (c'.unwrapped i) (c.unwrapped i + d)

theorem princarg_of_cong {pi a b : K} (hpi : 0 < pi) (h : Cong pi a b) : princarg pi a = princarg pi b :=
  cong_eq hpi (h.trans (princarg_cong pi b).symm) (princarg_range hpi b).1 (princarg_range hpi b).2

theorem turned_reset {pi d : K} {i : Nat} {c c' : Chan K} {f f' : Frame K} (h : TurnedFrame pi d f f') (hc : SameFlags c c') (hi : i ≤ f.conf.fftSize / 2) (hr : isReset f c i = true) :
    BinTurned pi d i (chunk pi c f) (chunk pi c' f') ∧ Cong pi ((chunk pi c' f').phase i) ((chunk pi c f).phase i + d) := by
  have b := chunk_bin pi c f hi
  have b' := chunk_bin pi c' f' (i := i) (by rw [h.conf]; exact hi)
  have hr' : isReset f' c' i = true := by rw [isReset, h.conf, h.reset, hc.low]; exact hr
  have e := h.phase i
  refine ⟨⟨?_, ?_⟩, ?_⟩
  · rw [b.prevPhase, b'.prevPhase]; exact e
  · rw [b.same, b'.same, (b.reset hr).1, (b'.reset hr').1]; exact e
  · rw [(b.reset hr).1, (b'.reset hr').1]; exact e

theorem turned_chunk {pi d : K} (hpi : 0 < pi) {i : Nat} {c c' : Chan K} {f f' : Frame K} (h : TurnedFrame pi d f f') (hc : SameFlags c c') (hi : i ≤ f.conf.fftSize / 2) (hl : f.conf.laminar = false)
    (ht : BinTurned pi d i c c') : BinTurned pi d i (chunk pi c f) (chunk pi c' f') ∧ Cong pi ((chunk pi c' f').phase i) ((chunk pi c f).phase i + d) := by
  cases hr : isReset f c i with
  | true => exact turned_reset h hc hi hr
  | false =>
    have b := chunk_bin pi c f hi
    have b' := chunk_bin pi c' f' (i := i) (by rw [h.conf]; exact hi)
    have hr' : isReset f' c' i = false := by rw [isReset, h.conf, h.reset, hc.low]; exact hr
    have he : error pi f' c' i = error pi f c i := by
      unfold error
      refine princarg_of_cong hpi ?_
      obtain ⟨m, hm⟩ := h.phase i
      obtain ⟨k, hk⟩ := ht.prev
      refine ⟨m - k, ?_⟩
      rw [h.conf]
      push_cast
      linear_combination hm - hk
    have key : Cong pi ((chunk pi c' f').phase i) ((chunk pi c f).phase i + d) := by
      rw [b.plain hr (.inl hl), b'.plain hr' (.inl (by rw [h.conf]; exact hl)), he, h.conf, h.out]
      obtain ⟨m, hm⟩ := ht.unwrapped
      exact ⟨m, by linear_combination hm⟩
    refine ⟨⟨?_, ?_⟩, key⟩
    · rw [b.prevPhase, b'.prevPhase]; exact h.phase i
    · rw [b.same, b'.same]; exact key

/-- Chunks with independent phases, and resets. -/
def Apart : Event K → Prop
  | .frame f => f.conf.laminar = false
  | .reset => True
  | .sizes => False

theorem turned_run {pi d : K} (hpi : 0 < pi) {n i : Nat} (hi : i ≤ n / 2) {l l' : List (Event K)} (h : List.Forall₂ (Turned pi d) l l') : ∀ {c c' : Chan K}, (∀ e ∈ l, ProperEvent n e) → (∀ e ∈ l, Apart e) →
    SameFlags c c' → BinTurned pi d i c c' → BinTurned pi d i (run pi c l) (run pi c' l') := by
  induction h with
  | nil => exact fun _ _ _ h => h
  | @cons e e' l l' a _ ih =>
    intro c c' h1 h2 hc hb
    refine ih (c := after pi c e) (c' := after pi c' e') (fun e he => h1 e (List.mem_cons_of_mem _ he)) (fun e he => h2 e (List.mem_cons_of_mem _ he)) (flags_after a hc) ?_
    have p := h1 e List.mem_cons_self
    have q := h2 e List.mem_cons_self
    cases a with
    | frame h => exact (turned_chunk hpi h hc (by rw [show _ = n from p.fft]; exact hi) q hb).1
    | reset => exact ⟨hb.prev, hb.unwrapped⟩
    | sizes => exact q.elim

/-- **C151**, the part that is true, and of any angle: with independent phases (`OptionPhaseIndependent`), from the first chunk on in which the phase of the bin is reset, whatever came before, until sizes change.  At transients
(without `OptionTransientsMixed`) and in the first chunk offline this is so of all bins, and at unity after a while.  Missing: laminar phases, the default (`C151_violated`), and what comes before a reset
(`C151_violated_start`). -/
theorem C151_partial {pi d : K} (hpi : 0 < pi) {n i : Nat} (hi : i ≤ n / 2) {past past' l l' : List (Event K)} {g g' f f' : Frame K} (h0 : List.Forall₂ (Turned pi d) past past') (hg : TurnedFrame pi d g g')
    (pg : Proper n g) (hr : isReset g (run pi create past) i = true) (hl : List.Forall₂ (Turned pi d) l l') (pl : ∀ e ∈ l, ProperEvent n e) (al : ∀ e ∈ l, Apart e) (hf : TurnedFrame pi d f f') (pf : Proper n f)
    (af : f.conf.laminar = false) :
    Cong pi (put pi (run pi create (past' ++ .frame g' :: l')) f' i) (put pi (run pi create (past ++ .frame g :: l)) f i + d) := by
  have s0 := flags_run h0 (c := create) (c' := create) ⟨rfl, rfl⟩
  have s1 := flags_chunk hg s0
  have b1 := (turned_reset hg s0 (by rw [pg.fft]; exact hi) hr).1
  have s2 := flags_run hl s1
  have b2 := turned_run hpi hi hl pl al s1 b1
  have e : ∀ (a b : List (Event K)) (g : Frame K), run pi create (a ++ .frame g :: b) = run pi (chunk pi (run pi create a) g) b := by
    intro a b g
    simp only [run, List.foldl_append, List.foldl_cons]
    rfl
  rw [e, e]
  have s3 := flags_chunk hf s2
  unfold put
  simp only [s3.unchanged]
  split
  · exact hf.phase i
  · exact (turned_chunk hpi hf s2 (by rw [pf.fft]; exact hi) af b2).2

/-! ## Where it is false -/

/-- A first chunk, which resets all phases. -/
def Ex.opening : Frame Rat := ⟨{ Ex.conf with ratio := 2 }, 8, true, fun i => if i = 7 then 1 / 4 else 0⟩
/-- The same turned over. -/
def Ex.opening' : Frame Rat := ⟨{ Ex.conf with ratio := 2 }, 8, true, fun i => if i = 7 then -3 / 4 else 1⟩
/-- A second chunk: in the bins from 7 to 5 each phase is further ahead of what is expected than in the one above. -/
def Ex.ahead : Frame Rat := ⟨{ Ex.conf with ratio := 2 }, 8, false, fun i => if i = 6 then -1 / 2 else if i = 5 then -3 / 4 else 0⟩
/-- The same turned over. -/
def Ex.ahead' : Frame Rat := ⟨{ Ex.conf with ratio := 2 }, 8, false, fun i => if i = 6 then 1 / 2 else if i = 5 then 1 / 4 else 1⟩

theorem Ex.differ : put 1 (run 1 (create : Chan Rat) [.frame Ex.opening]) Ex.ahead 5 = 219 / 32 ∧ put 1 (run 1 (create : Chan Rat) [.frame Ex.opening']) Ex.ahead' 5 = 195 / 32 := by decide +kernel

theorem cong_up_iff {pi : K} {x y : Rat} (h : Cong 1 x y) : Cong pi (up pi x) (up pi y) := by
  obtain ⟨n, hn⟩ := h
  refine ⟨n, ?_⟩
  rw [← up_sub, hn]
  simp only [up]
  push_cast
  ring

theorem turned_up {f f' : Frame Rat} (h : TurnedFrame 1 1 f f') : TurnedFrame Real.pi Real.pi (f.up Real.pi) (f'.up Real.pi) := by
  refine ⟨h.conf, h.out, h.reset, fun i => ?_⟩
  have := cong_up_iff (pi := Real.pi) (h.phase i)
  rw [up_add, show up Real.pi 1 = Real.pi by simp [up]] at this
  exact this

theorem principal_up {n : Nat} {f : Frame Rat} (h : ∀ i, -1 < f.phase i ∧ f.phase i ≤ 1) (h0 : f.phase 0 = 0 ∨ f.phase 0 = 1) (h1 : f.phase (n / 2) = 0 ∨ f.phase (n / 2) = 1) : Principal n (f.up Real.pi) := by
  have e : ∀ x : Rat, x = 0 ∨ x = 1 → up Real.pi x = 0 ∨ up Real.pi x = Real.pi := by
    rintro x (rfl | rfl)
    · left; exact up_zero _
    · right; simp [up]
  refine ⟨fun i => ?_, e _ h0, e _ h1⟩
  obtain ⟨a, b⟩ := h i
  have a' : ((-1 : Rat) : ℝ) < f.phase i := by exact_mod_cast a
  have b' : ((f.phase i : Rat) : ℝ) ≤ 1 := by exact_mod_cast b
  have hp := Real.pi_pos
  push_cast at a'
  show -Real.pi < (f.phase i : ℝ) * Real.pi ∧ (f.phase i : ℝ) * Real.pi ≤ Real.pi
  constructor <;> nlinarith

theorem Ex.opening_turned : TurnedFrame 1 1 Ex.opening Ex.opening' := by
  refine ⟨rfl, rfl, rfl, fun i => ?_⟩
  simp only [Ex.opening, Ex.opening']
  split
  · exact ⟨-1, by norm_num⟩
  · exact ⟨0, by norm_num⟩

theorem Ex.ahead_turned : TurnedFrame 1 1 Ex.ahead Ex.ahead' := by
  refine ⟨rfl, rfl, rfl, fun i => ?_⟩
  simp only [Ex.ahead, Ex.ahead']
  split
  · exact ⟨0, by norm_num⟩
  · split
    · exact ⟨0, by norm_num⟩
    · exact ⟨0, by norm_num⟩

/-- **C151** is false of the default, laminar phases: what a bin takes over from the one above is in part the difference between two phases, a fraction of it; and turning the audio over changes this difference by whole turns. -/
theorem C151_violated : ¬ C151_statement := by
  intro h
  have := h 16 (Ex.opening.up Real.pi) (Ex.opening'.up Real.pi) [] [] (Ex.ahead.up Real.pi) (Ex.ahead'.up Real.pi) 5
    (by constructor <;> simp [Frame.up, Ex.opening, Ex.conf]) (by simp) (by constructor <;> simp [Frame.up, Ex.ahead, Ex.conf])
    (principal_up (by intro i; simp only [Ex.opening]; split <;> norm_num) (by simp [Ex.opening]) (by simp [Ex.opening]))
    (principal_up (by intro i; simp only [Ex.opening']; split <;> norm_num) (by simp [Ex.opening']) (by simp [Ex.opening'])) (by simp) (by simp)
    (principal_up (by intro i; simp only [Ex.ahead]; split <;> [norm_num; split <;> norm_num]) (by simp [Ex.ahead]) (by simp [Ex.ahead]))
    (principal_up (by intro i; simp only [Ex.ahead']; split <;> [norm_num; split <;> norm_num]) (by simp [Ex.ahead']) (by simp [Ex.ahead']))
    rfl (turned_up Ex.opening_turned) .nil (turned_up Ex.ahead_turned) (by norm_num)
  have e := run_up (K := ℝ) Real.pi_pos [.frame Ex.opening] create
  have e' := run_up (K := ℝ) Real.pi_pos [.frame Ex.opening'] create
  rw [← create_up] at e e'
  have e : run Real.pi create [.frame (Ex.opening.up Real.pi)] = _ := e
  have e' : run Real.pi create [.frame (Ex.opening'.up Real.pi)] = _ := e'
  rw [e, e', put_up Real.pi_pos, put_up Real.pi_pos, Ex.differ.1, Ex.differ.2] at this
  have hp : Real.pi = up Real.pi 1 := by simp [up]
  have this : Cong Real.pi (up Real.pi (195 / 32)) (up Real.pi (219 / 32) + up Real.pi 1) := by rw [← hp]; exact this
  rw [← up_add] at this
  obtain ⟨n, hn⟩ := cong_up Real.pi_pos this
  have h : (8 * n : Rat) = -7 := by linarith
  have : (8 * n : Int) = -7 := by exact_mod_cast h
  omega

/-- A first chunk that does not reset the phases, as in real time without a transient. -/
def Ex.unreset : Frame Rat := ⟨{ Ex.conf with ratio := 2, laminar := false }, 8, false, fun _ => 0⟩
/-- The same turned over. -/
def Ex.unreset' : Frame Rat := ⟨{ Ex.conf with ratio := 2, laminar := false }, 8, false, fun _ => 1⟩

theorem Ex.unreset_puts : put 1 (create : Chan Rat) Ex.unreset 1 = 0 ∧ put 1 (create : Chan Rat) Ex.unreset' 1 = 2 := by decide +kernel

theorem Ex.unreset_turned : TurnedFrame 1 1 Ex.unreset Ex.unreset' := by
  refine ⟨rfl, rfl, rfl, fun i => ?_⟩
  simp only [Ex.unreset, Ex.unreset']
  exact ⟨0, by norm_num⟩

/-- Nor is it true with independent phases before the first reset: the first phases are taken for an advance from 0, and stretched like one. -/
theorem C151_violated_start : ¬ ∀ (n : Nat) (f f' : Frame ℝ) (i : Nat), Proper n f → Principal n f → Principal n f' → f.conf.laminar = false → TurnedFrame Real.pi Real.pi f f' → i ≤ n / 2 →
    Cong Real.pi (put Real.pi create f' i) (put Real.pi create f i + Real.pi) := by
  intro h
  have := h 16 (Ex.unreset.up Real.pi) (Ex.unreset'.up Real.pi) 1 (by constructor <;> simp [Frame.up, Ex.unreset, Ex.conf])
    (principal_up (by intro i; simp only [Ex.unreset]; norm_num) (by simp [Ex.unreset]) (by simp [Ex.unreset]))
    (principal_up (by intro i; simp only [Ex.unreset']; norm_num) (by simp [Ex.unreset']) (by simp [Ex.unreset'])) rfl (turned_up Ex.unreset_turned) (by norm_num)
  rw [create_up Real.pi, put_up Real.pi_pos, put_up Real.pi_pos, Ex.unreset_puts.1, Ex.unreset_puts.2] at this
  have hp : Real.pi = up Real.pi 1 := by simp [up]
  have this : Cong Real.pi (up Real.pi 2) (up Real.pi 0 + up Real.pi 1) := by rw [← hp]; exact this
  rw [← up_add] at this
  obtain ⟨n, hn⟩ := cong_up Real.pi_pos this
  have h : (2 * n : Rat) = 1 := by linarith
  have : (2 * n : Int) = 1 := by exact_mod_cast h
  omega

/-! ## Where it holds -/

/-- A chunk of the stretcher of `Ex.conf` with independent phases, and the same turned over. -/
def Ex.apartly (reset : Bool) : Frame Rat := ⟨{ Ex.conf with ratio := 2, laminar := false }, 8, reset, fun i => if i = 7 then 1 / 4 else 0⟩
def Ex.apartly' (reset : Bool) : Frame Rat := ⟨{ Ex.conf with ratio := 2, laminar := false }, 8, reset, fun i => if i = 7 then -3 / 4 else 1⟩

theorem Ex.apartly_turned (reset : Bool) : TurnedFrame 1 1 (Ex.apartly reset) (Ex.apartly' reset) := by
  refine ⟨rfl, rfl, rfl, fun i => ?_⟩
  simp only [Ex.apartly, Ex.apartly']
  split
  · exact ⟨-1, by norm_num⟩
  · exact ⟨0, by norm_num⟩

/-- After a chunk of which nothing is known, one with a reset and one without: the phases put out for the last chunk are half a turn on. -/
example : Cong (1 : Rat) (put 1 (run 1 create ([.frame Ex.unreset'] ++ .frame (Ex.apartly' true) :: [.frame (Ex.apartly' false)])) (Ex.apartly' false) 7)
    (put 1 (run 1 create ([.frame Ex.unreset] ++ .frame (Ex.apartly true) :: [.frame (Ex.apartly false)])) (Ex.apartly false) 7 + 1) :=
  C151_partial (n := 16) (by norm_num) (by norm_num) (.cons (.frame Ex.unreset_turned) .nil) (Ex.apartly_turned true) (by constructor <;> simp [Ex.apartly, Ex.conf]) (by decide +kernel)
    (.cons (.frame (Ex.apartly_turned false)) .nil) (by simp [ProperEvent]; constructor <;> simp [Ex.apartly, Ex.conf]) (by simp [Apart, Ex.apartly]) (Ex.apartly_turned false)
    (by constructor <;> simp [Ex.apartly, Ex.conf]) rfl

end Verif.R2Modify
