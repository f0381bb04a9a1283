import Verif.R2Threads
import Verif.R2OfflineRun
/-!
# The faster engine with threads: what a thread does to its channel
-/
namespace Verif.R2.Threads
open Verif.R2

variable {α σ ρ κ : Type}

/-! ## What is to be heard -/

/-- A channel and the whole of its input. -/
structure Job (α σ ρ κ : Type) where
  p : Params
  env : Env α σ ρ κ
  z : Sizes
  incs : List Int
  x₀ : Syn α σ
  input : List α

section
variable [Zero α]

/-- The padded input. -/
def Job.X (J : Job α σ ρ κ) : List α := padded J.z J.input
/-- The length of the input. -/
def Job.N (J : Job α σ ρ κ) : Nat := J.input.length
/-- The length that the output is to have. -/
def Job.T (J : Job α σ ρ κ) : Nat := target J.z J.N
/-- What is left out at the start. -/
def Job.skip (J : Job α σ ρ κ) : Nat := startSkip J.p J.z
/-- The state after `j` frames. -/
def Job.syn (J : Job α σ ρ κ) (j : Nat) : Syn α σ := (synAt J.env J.z J.incs J.x₀ J.X j).1
/-- What has been heard after `j` frames. -/
def Job.hear (J : Job α σ ρ κ) (j : Nat) : List α × Nat := hearAt J.env J.z J.incs J.x₀ J.skip J.T J.X j
/-- What will have been heard when all has been drained. -/
def Job.drained (J : Job α σ ρ κ) (S : Syn α σ) (h : List α × Nat) : List α := (hearDrain J.env J.z J.incs J.skip J.T S.fill S h).1
/-- The frame at `j`. -/
def Job.frame (J : Job α σ ρ κ) (j : Nat) : List α := (J.X.drop (j * J.z.increment)).take J.z.window
/-- All that is to be heard. -/
def Job.out (J : Job α σ ρ κ) : List α := output J.p J.env J.z J.incs J.x₀ J.input

theorem Job.out_eq (J : Job α σ ρ κ) : J.out = J.drained (J.syn (frames J.z J.N)) (J.hear (frames J.z J.N)) := rfl

theorem Job.length_X (J : Job α σ ρ κ) : J.X.length = J.z.window / 2 + J.N := padded_length J.z J.input

/-- What is assumed. -/
structure Job.Ok (J : Job α σ ρ κ) : Prop where
  fine : Fine J.p J.z J.incs
  count : J.x₀.count = 0
  fill : J.x₀.fill ≤ J.z.window
  good : Good J.p J.z J.incs J.N

/-! ## What a thread keeps -/

/-- What is always so of a channel that has been given `g` samples. -/
structure Common (J : Job α σ ρ κ) (cd : Chan α σ ρ) (g : Nat) : Prop where
  inCount : cd.inCount = g
  le : g ≤ J.N
  size : cd.inputSize = none ∨ cd.inputSize = some J.N ∧ g = J.N
  fits : cd.inbuf.data.length ≤ cd.inbuf.cap
  cap : J.z.window ≤ cd.inbuf.cap
  room : Room J.z cd.outbuf

/-- What has been heard of a channel of which `r` has been retrieved. -/
structure Heard (cd : Chan α σ ρ) (r : List α) (h : List α × Nat) : Prop where
  heard : r ++ cd.outbuf.data = h.1
  count : cd.outCount = h.2

/-- The input is taken from frame `j` on; the frames before `k` are there. -/
structure Stage (J : Job α σ ρ κ) (cd : Chan α σ ρ) (g j k : Nat) : Prop where
  draining : cd.draining = false
  complete : cd.outputComplete = false
  data : cd.inbuf.data = (J.X.take (J.z.window / 2 + g)).drop (j * J.z.increment)
  le : j * J.z.increment ≤ J.z.window / 2 + g
  full : ∀ i, i < k → i * J.z.increment ≤ g
  whole : cd.inputSize = none → ∀ i, i < k → i * J.z.increment + J.z.window ≤ J.z.window / 2 + g

/-- The channel is being drained. -/
structure Drain (J : Job α σ ρ κ) (cd : Chan α σ ρ) : Prop where
  draining : cd.draining = true
  size : cd.inputSize = some J.N
  data : cd.inbuf.data ≠ []

/-- All has been given. -/
structure Over (J : Job α σ ρ κ) (cd : Chan α σ ρ) (r : List α) : Prop where
  drain : Drain J cd
  complete : cd.outputComplete = true
  fill : cd.accumulatorFill = 0
  heard : r ++ cd.outbuf.data = J.out

/-- Being drained, with something left. -/
structure Draining' (J : Job α σ ρ κ) (cd : Chan α σ ρ) (S : Syn α σ) (h : List α × Nat) : Prop where
  drain : Drain J cd
  complete : cd.outputComplete = false
  fill : S.fill ≠ 0
  out : J.drained S h = J.out

/-- Between chunks. -/
def Idle (J : Job α σ ρ κ) (cd : Chan α σ ρ) (g : Nat) (r : List α) : Prop :=
  (∃ j, Stage J cd g j j ∧ cd.syn = J.syn j ∧ Heard cd r (J.hear j)) ∨ ∃ h, Draining' J cd cd.syn h ∧ Heard cd r h

/-- Before a chunk. -/
def Ready (J : Job α σ ρ κ) (cd : Chan α σ ρ) (g : Nat) (r : List α) : Prop :=
  (∃ j, Stage J cd g j (j + 1) ∧ cd.syn = J.syn j ∧ Heard cd r (J.hear j)) ∨ ∃ h, Draining' J cd cd.syn h ∧ Heard cd r h

/-- A frame has been looked at. -/
def Taken (J : Job α σ ρ κ) (cd : Chan α σ ρ) (g : Nat) (r : List α) : Prop :=
  (∃ j, Stage J cd g j (j + 1) ∧ cd.syn = { J.syn j with flt := fun i => (J.frame j).getD i ((J.syn j).flt i) } ∧ Heard cd r (J.hear j)) ∨
    ∃ h, Draining' J cd cd.syn h ∧ Heard cd r h

/-- What is in the frame buffer has been analysed, the state before it being `S`. -/
structure Analysed (J : Job α σ ρ κ) (cd : Chan α σ ρ) (S : Syn α σ) (i : Incs) : Prop where
  spec : cd.spec = (J.env.analyse S.spec ((List.range J.z.window).map S.flt)).1
  flt : cd.fltbuf = (J.env.analyse S.spec ((List.range J.z.window).map S.flt)).2
  fill : cd.accumulatorFill = S.fill
  count : cd.chunkCount = (pick J.z J.incs S.count).1
  incs : i = (pick J.z J.incs S.count).2

/-- A chunk has been analysed. -/
def Begun (J : Job α σ ρ κ) (cd : Chan α σ ρ) (g : Nat) (r : List α) (i : Incs) : Prop :=
  (∃ j, Stage J cd g (j + 1) (j + 1) ∧ Analysed J cd { J.syn j with flt := fun i => (J.frame j).getD i ((J.syn j).flt i) } i ∧ Heard cd r (J.hear j)) ∨
    ∃ S h, Draining' J cd S h ∧ Analysed J cd S i ∧ Heard cd r h

/-- What a chunk leads to. -/
def After (J : Job α σ ρ κ) (cd : Chan α σ ρ) (g : Nat) (last : Bool) (S : Syn α σ) (h : List α × Nat) : Prop :=
  if last then Drain J cd ∧ S.fill = 0 ∧ h.1 = J.out else (∃ j, Stage J cd g j j ∧ S = J.syn j ∧ h = J.hear j) ∨ Draining' J cd S h

/-- The output of a chunk. -/
def piecesOut (J : Job α σ ρ κ) (cd : Chan α σ ρ) (x : Writing α) : List α := (List.range x.si).map (J.env.emit cd.spec)

/-- The state after a chunk. -/
def leaves (J : Job α σ ρ κ) (cd : Chan α σ ρ) (x : Writing α) : Syn α σ :=
  ⟨J.env.shift cd.spec cd.accumulatorFill x.si, cd.fltbuf, cd.accumulatorFill - x.si, cd.chunkCount + 1⟩

/-- A chunk is being written. -/
structure Mid (J : Job α σ ρ κ) (cd : Chan α σ ρ) (x : Writing α) : Prop where
  after : x.after = false
  todo : x.todo = []
  si : x.si ≤ cd.accumulatorFill
  window : x.si ≤ J.z.window
  last : x.last = (cd.draining && decide (cd.accumulatorFill ≤ x.si))
  complete : cd.outputComplete = false

/-- Before the output of a chunk is written. -/
def Before (J : Job α σ ρ κ) (cd : Chan α σ ρ) (g : Nat) (r : List α) (x : Writing α) : Prop :=
  Mid J cd x ∧ ∃ h, Heard cd r h ∧ After J cd g x.last (leaves J cd x) (hearStep J.skip J.T h (piecesOut J cd x)) ∧
    (cd.inputSize = none → trim J.skip 0 h.2 (piecesOut J cd x) = trim J.skip J.T h.2 (piecesOut J cd x))

/-- A thread, with its channel that has been given `g` samples and of which `r` has been retrieved, keeps this. -/
def Phase (J : Job α σ ρ κ) (w : Worker α σ ρ) (g : Nat) (r : List α) : Prop :=
  Common J w.cd g ∧ match w.pc with
  | .top => Idle J w.cd g r
  | .left => Idle J w.cd g r ∧ w.cd.inputSize.isSome = true
  | .test k => if k = .after then Over J w.cd r else Idle J w.cd g r
  | .tested k rs => if k = .after then Over J w.cd r else Idle J w.cd g r ∧ rs ≤ w.cd.inbuf.readSpace ∧
      (J.z.window / 2 ≤ rs ∨ rs = w.cd.inbuf.readSpace ∧ w.cd.inputSize.isSome = true)
  | .take after => if after then Over J w.cd r else Ready J w.cd g r
  | .skip after => if after then Over J w.cd r else Taken J w.cd g r
  | .piece after _ [] last => if last then Over J w.cd r else after = false ∧ w.cd.outputComplete = false ∧
      ∃ h, Heard w.cd r h ∧ After J w.cd g false { w.cd.syn with count := w.cd.chunkCount + 1 } h
  | .piece after tmp (i :: todo) _ => todo = [] ∧ if after then Over J w.cd r else tmp = w.cd.fltbuf ∧ Begun J w.cd g r i
  | .grow x => Before J w.cd g r x
  | .swap x new => Before J w.cd g r x ∧ new = w.cd.outbuf.resized (w.cd.outbuf.cap * 2)
  | .limit x => Before J w.cd g r x ∧ x.si ≤ w.cd.outbuf.writeSpace
  | .emit x θ => (Mid J w.cd x ∧ x.si ≤ w.cd.outbuf.writeSpace) ∧
      ∃ h, Heard w.cd r h ∧ After J w.cd g x.last (leaves J w.cd x) (hearStep J.skip J.T h (piecesOut J w.cd x)) ∧
        trim J.skip θ h.2 (piecesOut J w.cd x) = trim J.skip J.T h.2 (piecesOut J w.cd x)
  | .settle x => Mid J w.cd x ∧ ∃ h, Heard w.cd r h ∧ After J w.cd g x.last (leaves J w.cd x) h
  | .done => Over J w.cd r

/-! ## Facts -/

variable {J : Job α σ ρ κ}

theorem Stage.length {cd : Chan α σ ρ} {g j k : Nat} (h : Stage J cd g j k) (hg : g ≤ J.N) :
    cd.inbuf.data.length = J.z.window / 2 + g - j * J.z.increment := by
  rw [h.data, List.length_drop, List.length_take, J.length_X]
  omega

theorem Stage.congr {cd cd' : Chan α σ ρ} {g j k : Nat} (h : Stage J cd g j k) (h1 : cd'.draining = cd.draining) (h2 : cd'.outputComplete = cd.outputComplete)
    (h3 : cd'.inbuf = cd.inbuf) (h4 : cd'.inputSize = cd.inputSize) : Stage J cd' g j k :=
  ⟨h1.trans h.draining, h2.trans h.complete, by rw [h3]; exact h.data, h.le, h.full, by rw [h4]; exact h.whole⟩

theorem Drain.congr {cd cd' : Chan α σ ρ} (h : Drain J cd) (h1 : cd'.draining = cd.draining) (h3 : cd'.inbuf = cd.inbuf) (h4 : cd'.inputSize = cd.inputSize) : Drain J cd' :=
  ⟨h1.trans h.draining, h4.trans h.size, by rw [h3]; exact h.data⟩

theorem Draining'.congr {cd cd' : Chan α σ ρ} {S : Syn α σ} {w : List α × Nat} (h : Draining' J cd S w) (h1 : cd'.draining = cd.draining) (h2 : cd'.outputComplete = cd.outputComplete)
    (h3 : cd'.inbuf = cd.inbuf) (h4 : cd'.inputSize = cd.inputSize) : Draining' J cd' S w :=
  ⟨h.drain.congr h1 h3 h4, h2.trans h.complete, h.fill, h.out⟩

theorem Common.congr {cd cd' : Chan α σ ρ} {g : Nat} (h : Common J cd g) (h1 : cd'.inCount = cd.inCount) (h2 : cd'.inputSize = cd.inputSize) (h3 : cd'.inbuf = cd.inbuf)
    (h4 : cd'.outbuf = cd.outbuf) : Common J cd' g :=
  ⟨h1.trans h.inCount, h.le, by rw [h2]; exact h.size, by rw [h3]; exact h.fits, by rw [h3]; exact h.cap, by rw [h4]; exact h.room⟩

theorem Over.congr {cd cd' : Chan α σ ρ} {r : List α} (h : Over J cd r) (h1 : cd'.draining = cd.draining) (h2 : cd'.outputComplete = cd.outputComplete)
    (h3 : cd'.inbuf = cd.inbuf) (h4 : cd'.inputSize = cd.inputSize) (h5 : cd'.accumulatorFill = cd.accumulatorFill) (h6 : cd'.outbuf = cd.outbuf) : Over J cd' r :=
  ⟨h.drain.congr h1 h3 h4, h2.trans h.complete, h5.trans h.fill, by rw [h6]; exact h.heard⟩

theorem fill_le (hJ : J.Ok) (j : Nat) : (J.syn j).fill ≤ J.z.window := (synAt_facts J.env hJ.count hJ.fill J.X j).2.1

theorem fill_pos (hJ : J.Ok) (j : Nat) (h : 1 ≤ j) : (J.syn j).fill ≠ 0 := by
  obtain ⟨k, rfl⟩ : ∃ k, j = k + 1 := ⟨j - 1, by omega⟩
  have := pick_lt hJ.fine (J.syn k).count
  show max (J.syn k).fill J.z.window - (pick J.z J.incs (J.syn k).count).2.shift ≠ 0
  omega

/-- A channel that has less than half a window has had all its frames. -/
theorem Stage.last (hJ : J.Ok) {cd : Chan α σ ρ} {g j : Nat} (h : Stage J cd g j j) (hg : g ≤ J.N) (hs : cd.inputSize = some J.N ∧ g = J.N)
    (hr : cd.inbuf.data.length < J.z.window / 2) : j = frames J.z J.N ∧ 1 ≤ j ∧ 1 ≤ cd.inbuf.data.length := by
  have hl := h.length hg
  have hle := h.le
  have hinc := hJ.fine.inc
  have hwin := hJ.fine.window
  obtain ⟨_, hgN⟩ := hs
  have h3 : j ≠ 0 := by rintro rfl; omega
  have h4 := h.full (j - 1) (by omega)
  have h1 : J.N < j * J.z.increment := by omega
  have hm : j * J.z.increment = (j - 1) * J.z.increment + J.z.increment := by
    obtain ⟨k, rfl⟩ : ∃ k, j = k + 1 := ⟨j - 1, by omega⟩
    rw [Nat.succ_mul]; rfl
  refine ⟨?_, by omega, by omega⟩
  unfold frames
  have h5 : J.N / J.z.increment < j := Nat.div_lt_of_lt_mul (by rw [Nat.mul_comm]; exact h1)
  have h6 : j - 1 ≤ J.N / J.z.increment := (Nat.le_div_iff_mul_le hinc).mpr (by omega)
  omega

/-- As long as the end of the input is not known, there is half a window. -/
theorem Stage.half (hJ : J.Ok) {cd : Chan α σ ρ} {g j : Nat} (h : Stage J cd g j j) (hg : g ≤ J.N) (hs : cd.inputSize = none) : J.z.window / 2 ≤ cd.inbuf.data.length := by
  have hl := h.length hg
  have hinc := hJ.fine.inc
  have hwin := hJ.fine.window
  rcases Nat.eq_zero_or_pos j with hj | hj
  · rw [hl, hj]; omega
  · have := h.whole hs (j - 1) (by omega)
    have hm : j * J.z.increment = (j - 1) * J.z.increment + J.z.increment := by
      obtain ⟨k, rfl⟩ : ∃ k, j = k + 1 := ⟨j - 1, by omega⟩
      rw [Nat.succ_mul]; rfl
    omega

/-- Something is always there. -/
theorem Stage.some (hJ : J.Ok) {cd : Chan α σ ρ} {g j : Nat} (h : Stage J cd g j j) (hg : g ≤ J.N) : 1 ≤ cd.inbuf.data.length := by
  have hl := h.length hg
  have hinc := hJ.fine.inc
  have hwin := hJ.fine.window
  rcases Nat.eq_zero_or_pos j with hj | hj
  · rw [hl, hj]; omega
  · have := h.full (j - 1) (by omega)
    have hm : j * J.z.increment = (j - 1) * J.z.increment + J.z.increment := by
      obtain ⟨k, rfl⟩ : ∃ k, j = k + 1 := ⟨j - 1, by omega⟩
      rw [Nat.succ_mul]; rfl
    omega

/-- The frame that is looked at is the one of the whole input. -/
theorem Stage.frame {cd : Chan α σ ρ} {g j : Nat} (h : Stage J cd g j (j + 1)) (c : Common J cd g) : cd.inbuf.data.take J.z.window = J.frame j := by
  unfold Job.frame
  rw [h.data]
  have hX := J.length_X
  rcases c.size with hs | hs
  · have := h.whole hs j (by omega)
    rw [List.drop_take, List.take_take]
    congr 1
    omega
  · rw [List.take_of_length_le (l := J.X) (by have := hs.2; omega)]

/-- As long as the end of the input is not known, not knowing how much is to be heard makes no difference. -/
theorem trim_early (hJ : J.Ok) {g j : Nat} (hg : g ≤ J.N) (h : ∀ i, i < j + 1 → i * J.z.increment + J.z.window ≤ J.z.window / 2 + g) {out : List α}
    (ho : out.length = (pick J.z J.incs (J.syn j).count).2.shift) : trim J.skip 0 (J.hear j).2 out = trim J.skip J.T (J.hear j).2 out := by
  have he := hJ.good.early (j + 1) (fun i hi => by have := h i hi; omega)
  have hle : spent J.z J.incs j ≤ spent J.z J.incs (j + 1) := Nat.le_add_right ..
  have hh : (J.hear j).2 = spent J.z J.incs j := by
    unfold Job.hear
    rw [hearAt_early J.env hJ.count hJ.fill _ _ _ _ (by unfold Job.skip Job.T; omega)]
    exact (synAt_facts J.env hJ.count hJ.fill J.X j).1
  obtain ⟨p1, _⟩ := pick_count J.z J.incs j _ (synAt_facts J.env (incs := J.incs) hJ.count hJ.fill J.X j).2.2
  have hp : (pick J.z J.incs (J.syn j).count).2 = (pick J.z J.incs j).2 := p1
  have e : spent J.z J.incs (j + 1) = spent J.z J.incs j + (pick J.z J.incs j).2.shift := rfl
  rw [hp] at ho
  have he' : spent J.z J.incs (j + 1) ≤ J.skip + J.T := he
  unfold trim
  rw [hh]
  by_cases hs : spent J.z J.incs j > J.skip
  · rw [if_pos hs, if_pos hs, if_neg (by omega), if_neg (by omega)]
  · rw [if_neg hs, if_neg hs]

/-! ## The steps of a thread -/

omit [Zero α] in
theorem pieces_short (hJ : Fine J.p J.z J.incs) (n : Nat) : pieces J.z (pick J.z J.incs n).2 = [(pick J.z J.incs n).2] := by
  unfold pieces
  rw [if_pos (pick_lt hJ n).le]

theorem idle_over {cd : Chan α σ ρ} {g : Nat} {r : List α} (h : Idle J cd g r) : cd.outputComplete = false := by
  rcases h with ⟨j, h1, _, _⟩ | ⟨h, h1, _⟩
  · exact h1.complete
  · exact h1.complete

theorem idle_some (hJ : J.Ok) {cd : Chan α σ ρ} {g : Nat} {r : List α} (hg : g ≤ J.N) (h : Idle J cd g r) : 1 ≤ cd.inbuf.data.length := by
  rcases h with ⟨j, h1, _, _⟩ | ⟨h, h1, _⟩
  · exact h1.some hJ hg
  · exact List.length_pos_of_ne_nil h1.drain.data

/-- Loading the read space. -/
theorem idle_tested (hJ : J.Ok) {cd : Chan α σ ρ} {g : Nat} {r : List α} (c : Common J cd g) (h : Idle J cd g r) :
    J.z.window / 2 ≤ cd.inbuf.readSpace ∨ cd.inbuf.readSpace = cd.inbuf.readSpace ∧ cd.inputSize.isSome = true := by
  rcases c.size with hs | hs
  · left
    rcases h with ⟨j, h1, _, _⟩ | ⟨h, h1, _⟩
    · exact h1.half hJ c.le hs
    · have := h1.drain.size
      rw [hs] at this
      cases this
  · right
    rw [hs.1]
    exact ⟨rfl, rfl⟩

/-- A piece of a chunk. -/
theorem begin_step (hJ : J.Ok) {w : Worker α σ ρ} {g : Nat} {r : List α} (c : Common J w.cd g) {tmp : Nat → α} {i : Incs} (ht : tmp = w.cd.fltbuf) (h : Begun J w.cd g r i) :
    Phase J (beginPiece J.env J.z false tmp i [] w) g r := by
  have hinc := hJ.fine.inc
  have hwin := hJ.fine.window
  have hfl : { w.cd with fltbuf := tmp } = w.cd := by rw [ht]
  rcases h with ⟨j, h1, h2, h3⟩ | ⟨S, h, h1, h2, h3⟩
  · -- a frame
    have hsh := pick_lt hJ.fine (J.syn j).count
    have hi := h2.incs
    simp only at hi
    rw [← hi] at hsh
    generalize hb : J.env.synthesise w.cd.spec w.cd.fltbuf i.phase i.shift i.reset = b
    have e : spectral J.env J.z i w.cd = { w.cd with spec := b.1, fltbuf := b.2, accumulatorFill := max w.cd.accumulatorFill J.z.window } := by
      unfold spectral
      rw [if_neg (by rw [h1.draining]; decide), hb]
    unfold beginPiece
    rw [hfl, e]
    simp only [h1.draining, Bool.false_and, Bool.false_eq_true, if_false]
    have hreq : required J.z i.shift = i.shift := by unfold required; rw [hJ.fine.plain.pitch]; simp
    rw [hreq]
    have hstep : leaves J { w.cd with spec := b.1, fltbuf := b.2, accumulatorFill := max w.cd.accumulatorFill J.z.window } ⟨false, tmp, [], i.shift, false⟩ = J.syn (j + 1) := by
      unfold leaves
      simp only
      show _ = (frameStep J.env J.z J.incs (J.frame j) (J.syn j)).1
      unfold frameStep
      have h2s := h2.spec
      have h2f := h2.flt
      have h2i := h2.fill
      have h2c := h2.count
      simp only at h2s h2f h2i h2c
      rw [← hb, h2s, h2f, h2i, h2c, hi]
    have hout : piecesOut J { w.cd with spec := b.1, fltbuf := b.2, accumulatorFill := max w.cd.accumulatorFill J.z.window } ⟨false, tmp, [], i.shift, false⟩ =
        (frameStep J.env J.z J.incs (J.frame j) (J.syn j)).2 := by
      unfold piecesOut frameStep
      have h2s := h2.spec
      have h2f := h2.flt
      simp only at h2s h2f
      simp only
      rw [← hb, h2s, h2f, hi]
    have hbef : Before J { w.cd with spec := b.1, fltbuf := b.2, accumulatorFill := max w.cd.accumulatorFill J.z.window } g r ⟨false, tmp, [], i.shift, false⟩ := by
      refine ⟨⟨rfl, rfl, ?_, hsh.le, ?_, h1.complete⟩, J.hear j, ⟨h3.heard, h3.count⟩, ?_, ?_⟩
      · simp only; omega
      · simp only [h1.draining, Bool.false_and]
      · unfold After
        simp only [Bool.false_eq_true, if_false]
        left
        refine ⟨j + 1, h1.congr rfl rfl rfl rfl, hstep, ?_⟩
        rw [hout]
        rfl
      · intro hn
        refine trim_early hJ c.le (h1.whole hn) ?_
        unfold piecesOut
        simp only [List.length_map, List.length_range]
        rw [hi]
    simp only [h1.draining] at hbef
    refine ⟨c.congr rfl rfl rfl rfl, ?_⟩
    by_cases hws : w.cd.outbuf.writeSpace < i.shift
    · simp only [if_pos hws]
      exact hbef
    · simp only [if_neg hws]
      exact ⟨hbef, not_lt.mp hws⟩
  · -- draining
    have e : spectral J.env J.z i w.cd = w.cd := spectral_draining J.env J.z i h1.drain.draining
    have hsh := pick_lt hJ.fine S.count
    have hi := h2.incs
    rw [← hi] at hsh
    have h0 : w.cd.accumulatorFill ≠ 0 := by rw [h2.fill]; exact h1.fill
    unfold beginPiece
    rw [hfl, e]
    have hf : (w.cd.accumulatorFill == 0) = false := by simp [h0]
    simp only [h1.drain.draining, Bool.true_and, hf, Bool.false_eq_true, if_false]
    generalize hm : (if (i.shift == 0) = true then J.z.increment else i.shift) = m
    have hm1 : 1 ≤ m ∧ m ≤ J.z.window := by
      rw [← hm]
      split
      · omega
      · rename_i hne
        simp at hne
        omega
    have hby : drainBy J.z J.incs S = min w.cd.accumulatorFill m := by
      unfold drainBy
      simp only
      rw [← hi, h2.fill, ← hm]
      by_cases hz : i.shift = 0
      · simp [hz]
      · simp [hz]
    have hsi : (if decide (w.cd.accumulatorFill ≤ m) = true then w.cd.accumulatorFill else m) = drainBy J.z J.incs S := by
      rw [hby]
      by_cases hh : w.cd.accumulatorFill ≤ m
      · rw [if_pos (by simpa using hh)]; omega
      · rw [if_neg (by simpa using hh)]; omega
    rw [hsi]
    have hreq : required J.z (drainBy J.z J.incs S) = drainBy J.z J.incs S := by unfold required; rw [hJ.fine.plain.pitch]; simp
    rw [hreq]
    have hle : drainBy J.z J.incs S ≤ w.cd.accumulatorFill := by rw [hby]; omega
    have hle1 : 1 ≤ drainBy J.z J.incs S := by rw [hby]; omega
    have hlew : drainBy J.z J.incs S ≤ J.z.window := by rw [hby]; omega
    generalize hl : decide (w.cd.accumulatorFill ≤ m) = last
    have hlast : last = decide (w.cd.accumulatorFill ≤ drainBy J.z J.incs S) := by
      rw [← hl, hby]
      congr 1
      apply propext
      omega
    have hstep : leaves J w.cd ⟨false, tmp, [], drainBy J.z J.incs S, last⟩ = (drainStep J.env J.z J.incs S).1 := by
      unfold leaves drainStep
      simp only
      rw [h2.spec, h2.flt, h2.fill, h2.count]
    have hout : piecesOut J w.cd ⟨false, tmp, [], drainBy J.z J.incs S, last⟩ = (drainStep J.env J.z J.incs S).2 := by
      unfold piecesOut drainStep
      simp only
      rw [h2.spec]
    have hdr : J.drained S h = (hearDrain J.env J.z J.incs J.skip J.T (drainStep J.env J.z J.incs S).1.fill (drainStep J.env J.z J.incs S).1
        (hearStep J.skip J.T h (drainStep J.env J.z J.incs S).2)).1 := by
      unfold Job.drained
      obtain ⟨f, hfe⟩ : ∃ f, S.fill = f + 1 := ⟨S.fill - 1, by have := h1.fill; omega⟩
      rw [hfe]
      conv_lhs => unfold hearDrain
      rw [if_neg h1.fill]
      have hfl2 : (drainStep J.env J.z J.incs S).1.fill = S.fill - drainBy J.z J.incs S := rfl
      rw [hearDrain_fuel J.env J.incs hJ.fine.inc _ _ f (drainStep J.env J.z J.incs S).1.fill _ _ (by rw [hfl2]; omega) (le_refl _)]
    have hbef : Before J w.cd g r ⟨false, tmp, [], drainBy J.z J.incs S, last⟩ := by
      refine ⟨⟨rfl, rfl, hle, hlew, ?_, h1.complete⟩, h, h3, ?_, ?_⟩
      · simp only [h1.drain.draining, Bool.true_and]
        exact hlast
      · rw [hstep, hout]
        unfold After
        simp only
        by_cases hh : w.cd.accumulatorFill ≤ drainBy J.z J.incs S
        · have : last = true := by rw [hlast]; simpa using hh
          rw [if_pos this]
          have hz : (drainStep J.env J.z J.incs S).1.fill = 0 := by
            show S.fill - drainBy J.z J.incs S = 0
            rw [← h2.fill]; omega
          refine ⟨h1.drain, hz, ?_⟩
          rw [← h1.out, hdr, hz]
          rfl
        · have : last = false := by rw [hlast]; simpa using hh
          rw [if_neg (by rw [this]; decide)]
          right
          refine ⟨h1.drain, h1.complete, ?_, ?_⟩
          · show S.fill - drainBy J.z J.incs S ≠ 0
            rw [← h2.fill]; omega
          · rw [← h1.out, hdr]
            rfl
      · intro hn
        rw [h1.drain.size] at hn
        cases hn
    refine ⟨c, ?_⟩
    by_cases hws : w.cd.outbuf.writeSpace < drainBy J.z J.incs S
    · simp only [if_pos hws]
      exact hbef
    · simp only [if_neg hws]
      exact ⟨hbef, not_lt.mp hws⟩

theorem step_phase (hJ : J.Ok) {w : Worker α σ ρ} {g : Nat} {r : List α} (h : Phase J w g r) :
    ∃ w', w.step J.p J.env J.z J.incs = some w' ∧ Phase J w' g r ∧ (w'.old = w.old ∨ ∃ x new, w.pc = .swap x new) := by
  have hinc := hJ.fine.inc
  have hwin := hJ.fine.window
  obtain ⟨cd, old, pc⟩ := w
  obtain ⟨c, h⟩ := h
  replace c : Common J cd g := c
  cases pc with
  | top =>
    refine ⟨_, rfl, ⟨c, ?_⟩, Or.inl rfl⟩
    simp only at h ⊢
    by_cases hs : cd.inputSize.isNone = true
    · simp only [if_pos hs]
      rw [if_neg (by decide)]
      exact h
    · simp only [if_neg hs]
      refine ⟨h, ?_⟩
      cases he : cd.inputSize with
      | none => rw [he] at hs; exact absurd rfl hs
      | some n => rfl
  | left =>
    refine ⟨_, rfl, ⟨c, ?_⟩, Or.inl rfl⟩
    have := idle_some hJ c.le h.1
    have hp : cd.inbuf.readSpace > 0 := this
    simp only [if_pos hp]
    rw [if_neg (by decide)]
    exact h.1
  | test k =>
    refine ⟨_, rfl, ⟨c, ?_⟩, Or.inl rfl⟩
    simp only at h ⊢
    split
    · rename_i hk
      rw [if_pos hk] at h
      exact h
    · rename_i hk
      rw [if_neg hk] at h
      exact ⟨h, le_refl _, by simpa using idle_tested hJ c h⟩
  | tested k rs =>
    simp only at h
    by_cases hk : k = .after
    · rw [if_pos hk] at h
      subst hk
      refine ⟨⟨cd, old, .take true⟩, ?_, ⟨c, ?_⟩, Or.inl rfl⟩
      · unfold Worker.step
        simp only
        rw [if_neg (by rw [h.drain.draining]; simp)]
        rfl
      · exact h
    · rw [if_neg hk] at h
      obtain ⟨h, h1, h2⟩ := h
      have no : Phase J ⟨cd, old, k.no⟩ g r := by
        refine ⟨c, ?_⟩
        cases k with
        | after => exact absurd rfl hk
        | loop => exact h
        | waiting => exact h
      have yes : ∀ cd' : Chan α σ ρ, Common J cd' g → Idle J cd' g r → Ready J cd' g r → Phase J ⟨cd', old, k.yes⟩ g r := by
        intro cd' c' h' h''
        refine ⟨c', ?_⟩
        cases k with
        | after => exact absurd rfl hk
        | loop => exact h''
        | waiting => exact h'
      unfold Worker.step
      simp only
      by_cases hd : cd.draining = false
      · obtain ⟨j, a1, a2, a3⟩ : ∃ j, Stage J cd g j j ∧ cd.syn = J.syn j ∧ Heard cd r (J.hear j) := by
          rcases h with h | ⟨h, h4, _⟩
          · exact h
          · have := h4.drain.draining
            rw [hd] at this
            cases this
        have hl := a1.length c.le
        unfold Fifo.readSpace at h1 h2
        have more : J.z.window ≤ cd.inbuf.data.length ∨ (cd.inputSize = some J.N ∧ g = J.N) ∧ J.z.window / 2 ≤ cd.inbuf.data.length → Ready J cd g r := by
          intro hm
          left
          refine ⟨j, ⟨a1.draining, a1.complete, a1.data, a1.le, ?_, ?_⟩, a2, a3⟩
          · intro i hi
            rcases Nat.lt_succ_iff_lt_or_eq.mp hi with hi | hi
            · exact a1.full i hi
            · rw [hi]
              have := a1.le
              rcases hm with hm | hm <;> omega
          · intro hn i hi
            rcases Nat.lt_succ_iff_lt_or_eq.mp hi with hi | hi
            · exact a1.whole hn i hi
            · rw [hi]
              have := a1.le
              rcases hm with hm | hm
              · omega
              · rw [hn] at hm
                cases hm.1.1
        by_cases hrs : rs < J.z.window
        · rw [if_pos ⟨hrs, hd⟩]
          rcases c.size with hs | hs
          · rw [if_pos (by rw [hs]; rfl)]
            exact ⟨_, rfl, no, Or.inl rfl⟩
          · rw [if_neg (by rw [hs.1]; simp)]
            have hpos := a1.some hJ c.le
            rw [if_neg (by rcases h2 with h2 | h2 <;> omega)]
            by_cases hhalf : rs < J.z.window / 2
            · rw [if_pos hhalf]
              have hr : cd.inbuf.data.length < J.z.window / 2 := by rcases h2 with h2 | h2 <;> omega
              obtain ⟨l1, l2, l3⟩ := a1.last hJ c.le hs hr
              have hdr : Draining' J { cd with draining := true } ({ cd with draining := true } : Chan α σ ρ).syn (J.hear j) := by
                have e : ({ cd with draining := true } : Chan α σ ρ).syn = J.syn j := a2
                refine ⟨⟨rfl, hs.1, ?_⟩, a1.complete, ?_, ?_⟩
                · intro e
                  have : cd.inbuf.data.length = 0 := by rw [e]; rfl
                  omega
                · rw [e]; exact fill_pos hJ j l2
                · rw [e, l1, J.out_eq]
              exact ⟨_, rfl, yes _ (c.congr rfl rfl rfl rfl) (Or.inr ⟨_, hdr, ⟨a3.heard, a3.count⟩⟩) (Or.inr ⟨_, hdr, ⟨a3.heard, a3.count⟩⟩), Or.inl rfl⟩
            · rw [if_neg hhalf]
              exact ⟨_, rfl, yes _ c h (more (Or.inr ⟨hs, by omega⟩)), Or.inl rfl⟩
        · rw [if_neg (by omega)]
          exact ⟨_, rfl, yes _ c h (more (Or.inl (by omega))), Or.inl rfl⟩
      · rw [if_neg (by intro hh; exact hd hh.2)]
        refine ⟨_, rfl, yes _ c h ?_, Or.inl rfl⟩
        rcases h with ⟨j, a1, _⟩ | h
        · exact absurd a1.draining hd
        · exact Or.inr h
  | take after =>
    simp only at h
    cases after with
    | true =>
      simp only [if_true] at h
      refine ⟨⟨cd, old, .skip true⟩, ?_, ⟨c, h⟩, Or.inl rfl⟩
      unfold Worker.step
      simp only
      rw [if_pos h.drain.draining]
    | false =>
      simp only [Bool.false_eq_true, if_false] at h
      unfold Worker.step
      simp only
      rcases h with ⟨j, a1, a2, a3⟩ | ⟨h, a1, a2⟩
      · rw [if_neg (by rw [a1.draining]; decide)]
        refine ⟨_, rfl, ⟨c.congr rfl rfl rfl rfl, ?_⟩, Or.inl rfl⟩
        simp only [Bool.false_eq_true, if_false]
        left
        refine ⟨j, a1.congr rfl rfl rfl rfl, ?_, ⟨a3.heard, a3.count⟩⟩
        have hf := a1.frame c
        have e : cd.inbuf.peek J.z.window = J.frame j := hf
        unfold Chan.syn
        simp only
        rw [e, ← a2]
        rfl
      · rw [if_pos a1.drain.draining]
        exact ⟨_, rfl, ⟨c, Or.inr ⟨h, a1, a2⟩⟩, Or.inl rfl⟩
  | skip after =>
    simp only at h
    cases after with
    | true =>
      simp only [if_true] at h
      unfold Worker.step
      simp only [h.drain.draining, if_true]
      obtain ⟨g1, g2⟩ := getIncrements_eq J.z J.incs cd
      rw [g1, g2, pieces_short hJ.fine]
      refine ⟨_, rfl, ⟨c.congr rfl rfl rfl rfl, rfl, ?_⟩, Or.inl rfl⟩
      simp only [if_true]
      exact h.congr rfl rfl rfl rfl rfl rfl
    | false =>
      simp only [Bool.false_eq_true, if_false] at h
      unfold Worker.step
      simp only
      rcases h with ⟨j, a1, a2, a3⟩ | ⟨h, a1, a2⟩
      · have hif : (if cd.draining = true then cd else { cd with inbuf := cd.inbuf.skip J.z.increment }) = { cd with inbuf := cd.inbuf.skip J.z.increment } :=
          if_neg (by rw [a1.draining]; decide)
        rw [hif]
        obtain ⟨g1, g2⟩ := getIncrements_eq J.z J.incs ({ cd with inbuf := cd.inbuf.skip J.z.increment } : Chan α σ ρ)
        rw [g1, g2, pieces_short hJ.fine]
        have hl := a1.length c.le
        have hmul : (j + 1) * J.z.increment = j * J.z.increment + J.z.increment := Nat.succ_mul ..
        have hfull := a1.full j (by omega)
        refine ⟨_, rfl, ⟨⟨c.inCount, c.le, c.size, ?_, c.cap, c.room⟩, rfl, ?_⟩, Or.inl rfl⟩
        · show (cd.inbuf.data.drop J.z.increment).length ≤ cd.inbuf.cap
          have := c.fits
          rw [List.length_drop]; omega
        · simp only [Bool.false_eq_true, if_false]
          refine ⟨trivial, Or.inl ⟨j, ⟨a1.draining, a1.complete, ?_, by omega, a1.full, a1.whole⟩, ?_, ⟨a3.heard, a3.count⟩⟩⟩
          · show cd.inbuf.data.drop J.z.increment = _
            rw [a1.data, List.drop_drop, hmul]
          · have s1 : cd.spec = _ := congrArg Syn.spec a2
            have s2 : cd.fltbuf = _ := congrArg Syn.flt a2
            have s3 : cd.accumulatorFill = _ := congrArg Syn.fill a2
            have s4 : cd.chunkCount = _ := congrArg Syn.count a2
            refine ⟨?_, ?_, s3, ?_, ?_⟩
            · unfold analyseChunk
              simp only [s1, s2]
            · unfold analyseChunk
              simp only [s1, s2]
            · show (pick J.z J.incs cd.chunkCount).1 = _
              rw [s4]
            · show (pick J.z J.incs cd.chunkCount).2 = _
              rw [s4]
      · have hif : (if cd.draining = true then cd else { cd with inbuf := cd.inbuf.skip J.z.increment }) = cd := if_pos a1.drain.draining
        rw [hif]
        obtain ⟨g1, g2⟩ := getIncrements_eq J.z J.incs cd
        rw [g1, g2, pieces_short hJ.fine]
        refine ⟨_, rfl, ⟨c.congr rfl rfl rfl rfl, rfl, ?_⟩, Or.inl rfl⟩
        simp only [Bool.false_eq_true, if_false]
        exact ⟨trivial, Or.inr ⟨cd.syn, h, a1.congr rfl rfl rfl rfl, ⟨rfl, rfl, rfl, rfl, rfl⟩, ⟨a2.heard, a2.count⟩⟩⟩
  | piece after tmp todo last =>
    cases todo with
    | nil =>
      refine ⟨_, rfl, ⟨c.congr rfl rfl rfl rfl, ?_⟩, Or.inl rfl⟩
      simp only at h ⊢
      cases last with
      | true =>
        simp only [if_true] at h
        have ho : Over J { cd with chunkCount := cd.chunkCount + 1 } r := h.congr rfl rfl rfl rfl rfl rfl
        cases after with
        | true => exact ho
        | false => exact ho
      | false =>
        simp only [Bool.false_eq_true, if_false] at h
        obtain ⟨h1, h2, w, h3, h4⟩ := h
        subst h1
        unfold After at h4
        simp only [Bool.false_eq_true, if_false] at h4
        show Idle J _ g r
        rcases h4 with ⟨j, b1, b2, b3⟩ | b1
        · rw [b3] at h3
          exact Or.inl ⟨j, b1.congr rfl rfl rfl rfl, b2, ⟨h3.heard, h3.count⟩⟩
        · exact Or.inr ⟨w, b1.congr rfl rfl rfl rfl, ⟨h3.heard, h3.count⟩⟩
    | cons i todo =>
      simp only at h
      obtain ⟨h0, h⟩ := h
      subst h0
      cases after with
      | true =>
        simp only [if_true] at h
        refine ⟨_, rfl, ?_, Or.inl ?_⟩
        · unfold beginPiece
          rw [spectral_draining _ _ _ (by exact h.drain.draining)]
          have hz : (({ cd with fltbuf := tmp } : Chan α σ ρ).draining && ({ cd with fltbuf := tmp } : Chan α σ ρ).accumulatorFill == 0) = true := by
            simp only [h.drain.draining, h.fill]
            rfl
          simp only [hz, if_true]
          exact ⟨c.congr rfl rfl rfl rfl, h.congr rfl rfl rfl rfl rfl rfl⟩
        · unfold beginPiece
          simp only
          split <;> rfl
      | false =>
        simp only [Bool.false_eq_true, if_false] at h
        refine ⟨_, rfl, begin_step hJ c h.1 h.2, Or.inl ?_⟩
        unfold beginPiece
        simp only
        split <;> rfl
  | grow x =>
    exact ⟨_, rfl, ⟨c, h, rfl⟩, Or.inl rfl⟩
  | swap x new =>
    refine ⟨_, rfl, ?_, Or.inr ⟨x, new, rfl⟩⟩
    obtain ⟨⟨h1, w, h2, h3, h4⟩, he⟩ := h
    simp only at h1 h2 h3 h4 he
    have hfit := c.room.fits
    have hcap := c.room.cap
    have hd : new.data = cd.outbuf.data := by
      rw [he]
      unfold Fifo.resized
      exact List.take_of_length_le (by omega)
    have hc : new.cap = cd.outbuf.cap * 2 := by rw [he]; rfl
    refine ⟨⟨c.inCount, c.le, c.size, c.fits, c.cap, ⟨by rw [hd, hc]; omega, by rw [hc]; omega⟩⟩, ⟨⟨h1.after, h1.todo, h1.si, h1.window, h1.last, h1.complete⟩, w, ⟨?_, h2.count⟩, ?_, h4⟩, ?_⟩
    · show r ++ new.data = _
      rw [hd]; exact h2.heard
    · unfold After at h3 ⊢
      split
      · rename_i hl
        rw [if_pos hl] at h3
        exact ⟨h3.1.congr rfl rfl rfl, h3.2.1, h3.2.2⟩
      · rename_i hl
        rw [if_neg hl] at h3
        rcases h3 with ⟨j, b1, b2, b3⟩ | b1
        · exact Or.inl ⟨j, b1.congr rfl rfl rfl rfl, b2, b3⟩
        · exact Or.inr (b1.congr rfl rfl rfl rfl)
    · show x.si ≤ new.writeSpace
      unfold Fifo.writeSpace
      rw [hd, hc]
      have := h1.window
      omega
  | limit x =>
    refine ⟨_, rfl, ⟨c, ?_⟩, Or.inl rfl⟩
    simp only at h ⊢
    obtain ⟨⟨h1, w, h2, h3, h4⟩, h5⟩ := h
    refine ⟨⟨h1, h5⟩, w, h2, h3, ?_⟩
    rcases c.size with hs | hs
    · have : theoreticalOut J.z cd = 0 := by unfold theoreticalOut; rw [hs]
      rw [this]
      exact h4 hs
    · have : theoreticalOut J.z cd = J.T := by
        unfold theoreticalOut Job.T target
        rw [hs.1]
      rw [this]
  | emit x θ =>
    simp only at h
    obtain ⟨⟨h1, h5⟩, w, h2, h3, h4⟩ := h
    obtain ⟨q, e1, e2, e3⟩ := writeOutput_spec (startSkip J.p J.z) θ cd (piecesOut J cd x) (by unfold piecesOut; simpa using h5)
    unfold Worker.step
    simp only [if_neg (not_lt.mpr h1.si), resampled_plain hJ.fine.plain]
    have e1' : writeOutput (startSkip J.p J.z) θ cd ((List.range x.si).map (J.env.emit cd.spec)) = _ := e1
    rw [e1']
    refine ⟨_, rfl, ⟨⟨c.inCount, c.le, c.size, c.fits, c.cap, ⟨?_, ?_⟩⟩, ⟨h1.after, h1.todo, h1.si, h1.window, h1.last, h1.complete⟩, hearStep J.skip J.T w (piecesOut J cd x), ⟨?_, ?_⟩, ?_⟩, Or.inl rfl⟩
    · have ht := trim_length (startSkip J.p J.z) θ cd.outCount (piecesOut J cd x)
      have hlen : (piecesOut J cd x).length = x.si := by unfold piecesOut; simp
      have := c.room.fits
      unfold Fifo.writeSpace at h5
      rw [e3, e2, List.length_append]
      omega
    · rw [e2]; exact c.room.cap
    · show r ++ q.data = _
      rw [e3, ← List.append_assoc, h2.heard, h2.count]
      unfold hearStep
      simp only
      have : trim (startSkip J.p J.z) θ w.2 (piecesOut J cd x) = _ := h4
      rw [this]
    · show cd.outCount + _ = _
      rw [h2.count]
      unfold hearStep
      simp only
      have : trim (startSkip J.p J.z) θ w.2 (piecesOut J cd x) = _ := h4
      rw [this]
    · unfold After at h3 ⊢
      split
      · rename_i hl
        rw [if_pos hl] at h3
        exact ⟨h3.1.congr rfl rfl rfl, h3.2.1, h3.2.2⟩
      · rename_i hl
        rw [if_neg hl] at h3
        rcases h3 with ⟨j, b1, b2, b3⟩ | b1
        · exact Or.inl ⟨j, b1.congr rfl rfl rfl rfl, b2, b3⟩
        · exact Or.inr (b1.congr rfl rfl rfl rfl)
  | settle x =>
    simp only at h
    obtain ⟨h1, w, h2, h3⟩ := h
    refine ⟨_, rfl, ?_, Or.inl rfl⟩
    have htodo := h1.todo
    have hafter := h1.after
    have hlast := h1.last
    obtain ⟨xa, xt, xtd, xsi, xl⟩ := x
    simp only at htodo hafter hlast
    subst htodo hafter
    have hsi := h1.si
    simp only at hsi
    unfold lessFill
    simp only
    by_cases hgt : cd.accumulatorFill > xsi
    · have hl : xl = false := by
        rw [hlast, decide_eq_false (by omega), Bool.and_false]
      subst hl
      rw [if_pos hgt]
      refine ⟨c.congr rfl rfl rfl rfl, ?_⟩
      simp only [Bool.false_eq_true, if_false]
      refine ⟨trivial, h1.complete, w, ⟨h2.heard, h2.count⟩, ?_⟩
      unfold After at h3 ⊢
      simp only [Bool.false_eq_true, if_false] at h3 ⊢
      rcases h3 with ⟨j, b1, b2, b3⟩ | b1
      · exact Or.inl ⟨j, b1.congr rfl rfl rfl rfl, b2, b3⟩
      · exact Or.inr (b1.congr rfl rfl rfl rfl)
    · have hfe : cd.accumulatorFill = xsi := by omega
      rw [if_neg hgt]
      cases hd : cd.draining with
      | true =>
        have hl : xl = true := by rw [hlast, hd, decide_eq_true (by omega)]; rfl
        subst hl
        unfold After at h3
        simp only [if_true] at h3
        refine ⟨c.congr rfl rfl rfl rfl, ?_⟩
        simp only [if_true]
        refine ⟨⟨rfl, h3.1.size, h3.1.data⟩, ?_, rfl, ?_⟩
        · simp
        · rw [← h3.2.2]; exact h2.heard
      | false =>
        have hl : xl = false := by rw [hlast, hd]; rfl
        subst hl
        refine ⟨c.congr rfl rfl rfl rfl, ?_⟩
        simp only [Bool.false_eq_true, if_false]
        refine ⟨trivial, ?_, w, ⟨h2.heard, h2.count⟩, ?_⟩
        · have := h1.complete
          simp [this]
        unfold After at h3 ⊢
        simp only [Bool.false_eq_true, if_false] at h3 ⊢
        have hleaves : ∀ y : Syn α σ, leaves J cd ⟨false, xt, [], xsi, false⟩ = y → y.fill = 0 ∧ y = ⟨J.env.shift cd.spec cd.accumulatorFill xsi, cd.fltbuf, 0, cd.chunkCount + 1⟩ := by
          intro y hy
          rw [← hy]
          unfold leaves
          simp [hfe]
        rcases h3 with ⟨j, b1, b2, b3⟩ | b1
        · refine Or.inl ⟨j, b1.congr hd.symm (by have := h1.complete; simp [this]) rfl rfl, ?_, b3⟩
          rw [← b2]
          exact ((hleaves _ rfl).2).symm
        · have := b1.drain.draining
          rw [hd] at this
          cases this
  | done => exact ⟨_, rfl, ⟨c, h⟩, Or.inl rfl⟩

/-! ## What the user does to a channel -/

/-- More input, or the end of it. -/
structure Grown (J : Job α σ ρ κ) (cd : Chan α σ ρ) (g g' : Nat) (q : Fifo α) (o : Option Nat) : Prop where
  common : Common J { cd with inbuf := q, inCount := g', inputSize := o } g'
  le : g ≤ g'
  data : ∀ k, k ≤ J.z.window / 2 + g → cd.inbuf.data = (J.X.take (J.z.window / 2 + g)).drop k → q.data = (J.X.take (J.z.window / 2 + g')).drop k
  longer : cd.inbuf.data.length ≤ q.data.length
  still : cd.inputSize.isSome = true → o = cd.inputSize ∧ q.data = cd.inbuf.data

theorem Grown.stage {cd : Chan α σ ρ} {g g' : Nat} {q : Fifo α} {o : Option Nat} (h : Grown J cd g g' q o) {j k : Nat} (s : Stage J cd g j k) :
    Stage J { cd with inbuf := q, inCount := g', inputSize := o } g' j k := by
  have hle := h.le
  refine ⟨s.draining, s.complete, h.data _ s.le s.data, by have := s.le; omega, fun i hi => by have := s.full i hi; omega, ?_⟩
  intro hn i hi
  have hn' : cd.inputSize = none := by
    cases he : cd.inputSize with
    | none => rfl
    | some n =>
      have := (h.still (by rw [he]; rfl)).1
      simp only at hn
      rw [he] at this
      rw [this] at hn
      cases hn
  have := s.whole hn' i hi
  omega

theorem Grown.drain {cd : Chan α σ ρ} {g g' : Nat} {q : Fifo α} {o : Option Nat} (h : Grown J cd g g' q o) (s : Drain J cd) :
    Drain J { cd with inbuf := q, inCount := g', inputSize := o } := by
  obtain ⟨h1, h2⟩ := h.still (by rw [s.size]; rfl)
  exact ⟨s.draining, h1.trans s.size, by show q.data ≠ []; rw [h2]; exact s.data⟩

theorem Grown.draining {cd : Chan α σ ρ} {g g' : Nat} {q : Fifo α} {o : Option Nat} (h : Grown J cd g g' q o) {S : Syn α σ} {w : List α × Nat} (s : Draining' J cd S w) :
    Draining' J { cd with inbuf := q, inCount := g', inputSize := o } S w := ⟨h.drain s.drain, s.complete, s.fill, s.out⟩

theorem Grown.over {cd : Chan α σ ρ} {g g' : Nat} {q : Fifo α} {o : Option Nat} (h : Grown J cd g g' q o) {r : List α} (s : Over J cd r) :
    Over J { cd with inbuf := q, inCount := g', inputSize := o } r := ⟨h.drain s.drain, s.complete, s.fill, s.heard⟩

theorem Grown.idle {cd : Chan α σ ρ} {g g' : Nat} {q : Fifo α} {o : Option Nat} (h : Grown J cd g g' q o) {r : List α} (s : Idle J cd g r) :
    Idle J { cd with inbuf := q, inCount := g', inputSize := o } g' r := by
  rcases s with ⟨j, a1, a2, a3⟩ | ⟨w, a1, a2⟩
  · exact Or.inl ⟨j, h.stage a1, a2, ⟨a3.heard, a3.count⟩⟩
  · exact Or.inr ⟨w, h.draining a1, ⟨a2.heard, a2.count⟩⟩

theorem Grown.after {cd : Chan α σ ρ} {g g' : Nat} {q : Fifo α} {o : Option Nat} (h : Grown J cd g g' q o) {last : Bool} {S : Syn α σ} {w : List α × Nat} (s : After J cd g last S w) :
    After J { cd with inbuf := q, inCount := g', inputSize := o } g' last S w := by
  unfold After at s ⊢
  split
  · rename_i hl
    rw [if_pos hl] at s
    exact ⟨h.drain s.1, s.2⟩
  · rename_i hl
    rw [if_neg hl] at s
    rcases s with ⟨j, a1, a2⟩ | a1
    · exact Or.inl ⟨j, h.stage a1, a2⟩
    · exact Or.inr (h.draining a1)

theorem Grown.none_of {cd : Chan α σ ρ} {g g' : Nat} {q : Fifo α} {o : Option Nat} (h : Grown J cd g g' q o) (hn : o = none) : cd.inputSize = none := by
  cases he : cd.inputSize with
  | none => rfl
  | some n =>
    have := (h.still (by rw [he]; rfl)).1
    rw [he, hn] at this
    cases this

theorem Grown.before {cd : Chan α σ ρ} {g g' : Nat} {q : Fifo α} {o : Option Nat} (h : Grown J cd g g' q o) {r : List α} {x : Writing α} (s : Before J cd g r x) :
    Before J { cd with inbuf := q, inCount := g', inputSize := o } g' r x := by
  obtain ⟨a1, w, a2, a3, a4⟩ := s
  exact ⟨⟨a1.after, a1.todo, a1.si, a1.window, a1.last, a1.complete⟩, w, ⟨a2.heard, a2.count⟩, h.after a3, fun hn => a4 (h.none_of hn)⟩

theorem Grown.phase {cd : Chan α σ ρ} {old : List (Fifo α)} {pc : Pc α} {g g' : Nat} {q : Fifo α} {o : Option Nat} (h : Grown J cd g g' q o) {r : List α}
    (s : Phase J ⟨cd, old, pc⟩ g r) : Phase J ⟨{ cd with inbuf := q, inCount := g', inputSize := o }, old, pc⟩ g' r := by
  obtain ⟨c, s⟩ := s
  refine ⟨h.common, ?_⟩
  cases pc with
  | top => exact h.idle s
  | left =>
    obtain ⟨s1, s2⟩ := s
    exact ⟨h.idle s1, by show o.isSome = true; rw [(h.still s2).1]; exact s2⟩
  | test k =>
    simp only at s ⊢
    split
    · rename_i hk; rw [if_pos hk] at s; exact h.over s
    · rename_i hk; rw [if_neg hk] at s; exact h.idle s
  | tested k rs =>
    simp only at s ⊢
    split
    · rename_i hk; rw [if_pos hk] at s; exact h.over s
    · rename_i hk
      rw [if_neg hk] at s
      obtain ⟨s1, s2, s3⟩ := s
      refine ⟨h.idle s1, le_trans s2 h.longer, ?_⟩
      rcases s3 with s3 | ⟨s3, s4⟩
      · exact Or.inl s3
      · obtain ⟨e1, e2⟩ := h.still s4
        right
        refine ⟨?_, by rw [e1]; exact s4⟩
        unfold Fifo.readSpace at s3 ⊢
        rw [e2]; exact s3
  | take after =>
    simp only at s ⊢
    split
    · rename_i hk; rw [if_pos hk] at s; exact h.over s
    · rename_i hk
      rw [if_neg hk] at s
      rcases s with ⟨j, a1, a2, a3⟩ | ⟨w, a1, a2⟩
      · exact Or.inl ⟨j, h.stage a1, a2, ⟨a3.heard, a3.count⟩⟩
      · exact Or.inr ⟨w, h.draining a1, ⟨a2.heard, a2.count⟩⟩
  | skip after =>
    simp only at s ⊢
    split
    · rename_i hk; rw [if_pos hk] at s; exact h.over s
    · rename_i hk
      rw [if_neg hk] at s
      rcases s with ⟨j, a1, a2, a3⟩ | ⟨w, a1, a2⟩
      · exact Or.inl ⟨j, h.stage a1, a2, ⟨a3.heard, a3.count⟩⟩
      · exact Or.inr ⟨w, h.draining a1, ⟨a2.heard, a2.count⟩⟩
  | piece after tmp todo last =>
    cases todo with
    | nil =>
      simp only at s ⊢
      split
      · rename_i hk; rw [if_pos hk] at s; exact h.over s
      · rename_i hk
        rw [if_neg hk] at s
        obtain ⟨s1, s2, w, s3, s4⟩ := s
        exact ⟨s1, s2, w, ⟨s3.heard, s3.count⟩, h.after s4⟩
    | cons i todo =>
      simp only at s ⊢
      obtain ⟨s0, s⟩ := s
      refine ⟨s0, ?_⟩
      split
      · rename_i hk; rw [if_pos hk] at s; exact h.over s
      · rename_i hk
        rw [if_neg hk] at s
        obtain ⟨s1, s⟩ := s
        refine ⟨s1, ?_⟩
        rcases s with ⟨j, a1, a2, a3⟩ | ⟨S, w, a1, a2, a3⟩
        · exact Or.inl ⟨j, h.stage a1, ⟨a2.spec, a2.flt, a2.fill, a2.count, a2.incs⟩, ⟨a3.heard, a3.count⟩⟩
        · exact Or.inr ⟨S, w, h.draining a1, ⟨a2.spec, a2.flt, a2.fill, a2.count, a2.incs⟩, ⟨a3.heard, a3.count⟩⟩
  | grow x => exact h.before s
  | swap x new => exact ⟨h.before s.1, s.2⟩
  | limit x => exact ⟨h.before s.1, s.2⟩
  | emit x θ =>
    obtain ⟨⟨a1, b⟩, w, a2, a3, a4⟩ := s
    exact ⟨⟨⟨a1.after, a1.todo, a1.si, a1.window, a1.last, a1.complete⟩, b⟩, w, ⟨a2.heard, a2.count⟩, h.after a3, a4⟩
  | settle x =>
    obtain ⟨a1, w, a2, a3⟩ := s
    exact ⟨⟨a1.after, a1.todo, a1.si, a1.window, a1.last, a1.complete⟩, w, ⟨a2.heard, a2.count⟩, h.after a3⟩
  | done => exact h.over s

/-- Some of the input is written. -/
theorem grown_write {cd : Chan α σ ρ} {g n : Nat} (c : Common J cd g) (hn : cd.inputSize = none ∨ n = 0) (hw : n ≤ cd.inbuf.writeSpace) (hN : g + n ≤ J.N) :
    Grown J cd g (g + n) (cd.inbuf.write ((J.X.drop (J.z.window / 2 + g)).take n)) cd.inputSize := by
  have hX := J.length_X
  have hlen : ((J.X.drop (J.z.window / 2 + g)).take n).length = n := by rw [List.length_take, List.length_drop]; omega
  have hd : (cd.inbuf.write ((J.X.drop (J.z.window / 2 + g)).take n)).data = cd.inbuf.data ++ (J.X.drop (J.z.window / 2 + g)).take n := by
    unfold Fifo.write
    simp only
    rw [List.take_of_length_le (by omega)]
  have hfit := c.fits
  refine ⟨⟨rfl, hN, ?_, ?_, c.cap, c.room⟩, Nat.le_add_right .., ?_, ?_, ?_⟩
  · rcases hn with hn | hn
    · exact Or.inl hn
    · rw [hn]; exact c.size
  · show (cd.inbuf.write _).data.length ≤ cd.inbuf.cap
    rw [hd, List.length_append, hlen]
    unfold Fifo.writeSpace at hw
    omega
  · intro k hk he
    have ht : J.X.take (J.z.window / 2 + (g + n)) = J.X.take (J.z.window / 2 + g) ++ (J.X.drop (J.z.window / 2 + g)).take n := by
      rw [← Nat.add_assoc]
      exact List.take_add
    rw [hd, he, ht, List.drop_append_of_le_length (by rw [List.length_take]; have := c.le; omega)]
  · rw [hd, List.length_append]; omega
  · intro hs
    refine ⟨rfl, ?_⟩
    have h0 : n = 0 := by
      rcases hn with hn | hn
      · rw [hn] at hs; cases hs
      · exact hn
    rw [hd, h0]
    simp

/-- The end of the input is marked. -/
theorem grown_mark {cd : Chan α σ ρ} (c : Common J cd J.N) : Grown J cd J.N J.N cd.inbuf (some J.N) := by
  refine ⟨⟨rfl, le_refl _, Or.inr ⟨rfl, rfl⟩, c.fits, c.cap, c.room⟩, le_refl _, fun k _ h => h, le_refl _, ?_⟩
  intro hs
  refine ⟨?_, rfl⟩
  rcases c.size with hn | hn
  · rw [hn] at hs; cases hs
  · exact hn.1.symm

section
variable {cd : Chan α σ ρ} {r : List α} {n : Nat}

omit [Zero α] in
theorem Heard.read {h : List α × Nat} (s : Heard cd r h) (n : Nat) : Heard { cd with outbuf := cd.outbuf.skip n } (r ++ cd.outbuf.peek n) h := by
  refine ⟨?_, s.count⟩
  rw [← s.heard, List.append_assoc]
  congr 1
  show cd.outbuf.data.take n ++ cd.outbuf.data.drop n = _
  exact List.take_append_drop ..

theorem Over.read (s : Over J cd r) (n : Nat) : Over J { cd with outbuf := cd.outbuf.skip n } (r ++ cd.outbuf.peek n) := by
  refine ⟨⟨s.drain.draining, s.drain.size, s.drain.data⟩, s.complete, s.fill, ?_⟩
  rw [← s.heard, List.append_assoc]
  congr 1
  show cd.outbuf.data.take n ++ cd.outbuf.data.drop n = _
  exact List.take_append_drop ..

theorem Idle.read {g : Nat} (s : Idle J cd g r) (n : Nat) : Idle J { cd with outbuf := cd.outbuf.skip n } g (r ++ cd.outbuf.peek n) := by
  rcases s with ⟨j, a1, a2, a3⟩ | ⟨w, a1, a2⟩
  · exact Or.inl ⟨j, a1.congr rfl rfl rfl rfl, a2, a3.read n⟩
  · exact Or.inr ⟨w, a1.congr rfl rfl rfl rfl, a2.read n⟩

theorem After.read {g : Nat} {last : Bool} {S : Syn α σ} {w : List α × Nat} (s : After J cd g last S w) (n : Nat) :
    After J { cd with outbuf := cd.outbuf.skip n } g last S w := by
  unfold After at s ⊢
  split
  · rename_i hl
    rw [if_pos hl] at s
    exact ⟨s.1.congr rfl rfl rfl, s.2⟩
  · rename_i hl
    rw [if_neg hl] at s
    rcases s with ⟨j, a1, a2⟩ | a1
    · exact Or.inl ⟨j, a1.congr rfl rfl rfl rfl, a2⟩
    · exact Or.inr (a1.congr rfl rfl rfl rfl)

theorem Before.read {g : Nat} {x : Writing α} (s : Before J cd g r x) (n : Nat) : Before J { cd with outbuf := cd.outbuf.skip n } g (r ++ cd.outbuf.peek n) x := by
  obtain ⟨a1, w, a2, a3, a4⟩ := s
  exact ⟨⟨a1.after, a1.todo, a1.si, a1.window, a1.last, a1.complete⟩, w, a2.read n, a3.read n, a4⟩

/-- Output is read, while the buffer is not being replaced. -/
theorem phase_read {old : List (Fifo α)} {pc : Pc α} {g : Nat} (s : Phase J ⟨cd, old, pc⟩ g r) (hp : ∀ x new, pc ≠ .swap x new) (n : Nat) :
    Phase J ⟨{ cd with outbuf := cd.outbuf.skip n }, old, pc⟩ g (r ++ cd.outbuf.peek n) := by
  obtain ⟨c, s⟩ := s
  replace c : Common J cd g := c
  have hws : cd.outbuf.writeSpace ≤ (cd.outbuf.skip n).writeSpace := by
    unfold Fifo.writeSpace Fifo.skip
    simp only [List.length_drop]
    omega
  refine ⟨⟨c.inCount, c.le, c.size, c.fits, c.cap, ⟨?_, c.room.cap⟩⟩, ?_⟩
  · have := c.room.fits
    show (cd.outbuf.data.drop n).length ≤ cd.outbuf.cap
    rw [List.length_drop]; omega
  cases pc with
  | top => exact Idle.read s n
  | left => exact ⟨Idle.read s.1 n, s.2⟩
  | test k =>
    simp only at s ⊢
    split
    · rename_i hk; rw [if_pos hk] at s; exact s.read n
    · rename_i hk; rw [if_neg hk] at s; exact Idle.read s n
  | tested k rs =>
    simp only at s ⊢
    split
    · rename_i hk; rw [if_pos hk] at s; exact s.read n
    · rename_i hk
      rw [if_neg hk] at s
      exact ⟨Idle.read s.1 n, s.2⟩
  | take after =>
    simp only at s ⊢
    split
    · rename_i hk; rw [if_pos hk] at s; exact s.read n
    · rename_i hk
      rw [if_neg hk] at s
      rcases s with ⟨j, a1, a2, a3⟩ | ⟨w, a1, a2⟩
      · exact Or.inl ⟨j, a1.congr rfl rfl rfl rfl, a2, a3.read n⟩
      · exact Or.inr ⟨w, a1.congr rfl rfl rfl rfl, a2.read n⟩
  | skip after =>
    simp only at s ⊢
    split
    · rename_i hk; rw [if_pos hk] at s; exact s.read n
    · rename_i hk
      rw [if_neg hk] at s
      rcases s with ⟨j, a1, a2, a3⟩ | ⟨w, a1, a2⟩
      · exact Or.inl ⟨j, a1.congr rfl rfl rfl rfl, a2, a3.read n⟩
      · exact Or.inr ⟨w, a1.congr rfl rfl rfl rfl, a2.read n⟩
  | piece after tmp todo last =>
    cases todo with
    | nil =>
      simp only at s ⊢
      split
      · rename_i hk; rw [if_pos hk] at s; exact s.read n
      · rename_i hk
        rw [if_neg hk] at s
        obtain ⟨s1, s2, w, s3, s4⟩ := s
        exact ⟨s1, s2, w, s3.read n, s4.read n⟩
    | cons i todo =>
      simp only at s ⊢
      obtain ⟨s0, s⟩ := s
      refine ⟨s0, ?_⟩
      split
      · rename_i hk; rw [if_pos hk] at s; exact s.read n
      · rename_i hk
        rw [if_neg hk] at s
        obtain ⟨s1, s⟩ := s
        refine ⟨s1, ?_⟩
        rcases s with ⟨j, a1, a2, a3⟩ | ⟨S, w, a1, a2, a3⟩
        · exact Or.inl ⟨j, a1.congr rfl rfl rfl rfl, ⟨a2.spec, a2.flt, a2.fill, a2.count, a2.incs⟩, a3.read n⟩
        · exact Or.inr ⟨S, w, a1.congr rfl rfl rfl rfl, ⟨a2.spec, a2.flt, a2.fill, a2.count, a2.incs⟩, a3.read n⟩
  | grow x => exact Before.read s n
  | swap x new => exact absurd rfl (hp x new)
  | limit x => exact ⟨Before.read s.1 n, le_trans s.2 hws⟩
  | emit x θ =>
    obtain ⟨⟨a1, b⟩, w, a2, a3, a4⟩ := s
    exact ⟨⟨⟨a1.after, a1.todo, a1.si, a1.window, a1.last, a1.complete⟩, le_trans b hws⟩, w, a2.read n, a3.read n, a4⟩
  | settle x =>
    obtain ⟨a1, w, a2, a3⟩ := s
    exact ⟨⟨a1.after, a1.todo, a1.si, a1.window, a1.last, a1.complete⟩, w, a2.read n, a3.read n⟩
  | done => exact Over.read s n

end

end
end Verif.R2.Threads
