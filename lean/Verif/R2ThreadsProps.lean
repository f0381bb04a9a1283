import Verif.R2ThreadsSmall
/-!
# The faster engine with threads: it gives what it gives without them (C109), what -1 means (C110), asking for too much (C111), coming to the end (C112)
-/
namespace Verif.R2.Threads
open Verif.R2

variable {α σ ρ κ : Type}

section
variable [Zero α] [Add α] [Sub α] {p : Params} {env : Env α σ ρ κ}

/-- A run of the same stretcher without threads on this input, from the first `process` to the end, whatever the blocks and whatever is retrieved when. -/
structure Alone (p : Params) (env : Env α σ ρ κ) (s : State α σ ρ κ) (all : List (Frame α)) (u : State α σ ρ κ) (outs : List (List (List α))) : Prop where
  calls : ∃ input final cs, (∀ c ∈ cs, Playing c) ∧ R2.ends (.process input final :: cs) = true ∧ R2.given (.process input final :: cs) = all ∧
    R2.run p env s (.process input final :: cs) = some (u, outs)

theorem alone_out (hap : Apart p) {s t : State α σ ρ κ} (hs : Prepared p env s t) {all : List (Frame α)} (h : Ordinary p t all.length) {u : State α σ ρ κ} {outs : List (List (List α))}
    (ha : Alone p env s all u outs) : u.chans.length = p.channels ∧ ∀ (c : Nat) cd, u.chans[c]? = some cd → delivered outs c ++ cd.outbuf.data = sounds p env t all c := by
  obtain ⟨input, final, cs, h1, h2, h3, h4⟩ := ha.calls
  subst h3
  obtain ⟨u', outs', b1, b2, b3⟩ := ordinary_run hap hs h1 h2 h
  rw [h4] at b1
  cases b1
  exact ⟨b2, fun c cd hc => (b3 c cd hc).2⟩

/-- Turns of a stretcher with threads that has been given some of this input, or all of it if it has ended. -/
structure Course (p : Params) (env : Env α σ ρ κ) (t : State α σ ρ κ) (all : List (Frame α)) (es : List (Event α)) (s' : Sys α σ ρ) : Prop where
  given : given es <+: all
  ends : ends es = true → Threads.given es = all
  heeding : (start t).heeding p env t.sizes t.outputIncrements es = true
  run : (start t).run p env t.sizes t.outputIncrements es = some s'

/-- Nothing is read from a buffer that is being replaced. -/
def Calm (p : Params) (env : Env α σ ρ κ) (t : State α σ ρ κ) (es : List (Event α)) : Prop := (start t).calmly p env t.sizes t.outputIncrements es = true

/-! ## C109 -/

/-- **C109** in full: whatever the order in which the threads and the user take turns, what is retrieved of a channel (never more than `available` said there was) is, sample for sample,
what comes first in what a stretcher without threads gives of the same input. -/
def C109_statement : Prop :=
  ∀ {α σ ρ κ : Type} [Zero α] [Add α] [Sub α] (p : Params) (env : Env α σ ρ κ) (s t u : State α σ ρ κ) (all : List (Frame α)) (outs : List (List (List α))) (es : List (Event α)) (s' : Sys α σ ρ),
    2 ≤ p.channels → Apart p → Prepared p env s t → Ordinary p t all.length → Alone p env s all u outs → Course p env t all es s' →
    ∀ (c : Nat) cd, u.chans[c]? = some cd → heard c s'.replies <+: delivered outs c ++ cd.outbuf.data

/-- **C109 (partial).**  If nothing is read from an output buffer just while it is being replaced by a longer one (without which it is false), the full statement holds; and what a thread that is done has left in its
output buffer is all the rest. -/
theorem C109_partial (hap : Apart p) {s t u : State α σ ρ κ} (hs : Prepared p env s t) {all : List (Frame α)} (h : Ordinary p t all.length) {outs : List (List (List α))} (ha : Alone p env s all u outs)
    {es : List (Event α)} {s' : Sys α σ ρ} (hc : Course p env t all es s') (calm : Calm p env t es) :
    ∀ (c : Nat) cd, u.chans[c]? = some cd → heard c s'.replies <+: delivered outs c ++ cd.outbuf.data ∧
      ∃ w, s'.workers[c]? = some w ∧ (w.pc = .done → s'.user = .idle → heard c s'.replies ++ w.cd.outbuf.data = delivered outs c ++ cd.outbuf.data) := by
  obtain ⟨a1, a2⟩ := alone_out hap hs h ha
  obtain ⟨b1, _, b3, _⟩ := flow_begin hs h
  obtain ⟨B, g, r, f1, _⟩ := flow_whole hap hs h hc.given hc.ends calm hc.heeding hc.run
  obtain ⟨_, l⟩ := placed_run es (s := start t) trivial hc.run
  intro c cd hcd
  have hl : c < s'.workers.length := by
    rw [l, b3, ← a1]
    rw [List.getElem?_eq_some_iff] at hcd
    exact hcd.1
  rw [a2 c cd hcd]
  exact ⟨heard_prefix b1 f1 hl, _, List.getElem?_eq_getElem hl, fun hd hu => heard_done f1 (List.getElem?_eq_getElem hl) hd hu⟩

/-- If the output buffers have room for all the output (they are sixteen times as long as without threads) and a window, nothing is ever read from one that is being replaced, so that C109 holds without assuming so. -/
theorem C109_small (hap : Apart p) {s t : State α σ ρ κ} (hs : Prepared p env s t) {all : List (Frame α)} (h : Ordinary p t all.length)
    (hroom : ∀ (c : Nat) cd, t.chans[c]? = some cd → (sounds p env t all c).length + t.sizes.window ≤ 16 * cd.outbuf.cap)
    {es : List (Event α)} {s' : Sys α σ ρ} (hc : Course p env t all es s') : Calm p env t es := by
  obtain ⟨b1, b2, b3, _⟩ := flow_begin hs h
  refine settled_run b1 h.pitch hap.sep es b2 (Or.inr ⟨hc.given, hc.ends⟩) (caps := fun c => ((t.chans[c]?).map fun cd => 16 * cd.outbuf.cap).getD 0) ?_ hc.heeding hc.run ?_
  · intro c hl
    have hl' : c < t.chans.length := by simpa [start] using hl
    have := hroom c _ (List.getElem?_eq_getElem hl')
    rw [job_out]
    simp only [List.getElem?_eq_getElem hl', Option.map_some, Option.getD_some]
    exact this
  · intro c w hw
    unfold start at hw
    simp only [List.getElem?_map] at hw
    obtain ⟨cd, hcd, e⟩ := Option.map_eq_some_iff.mp hw
    subst e
    refine ⟨?_, by simp, by simp⟩
    simp only [hcd, Option.map_some, Option.getD_some]

/-- Nothing goes wrong: every thread, and the user if in a call, can take another turn (in particular nothing is asked of the arrays that they do not have). -/
theorem C109_safe (hap : Apart p) {s t : State α σ ρ κ} (hs : Prepared p env s t) {all : List (Frame α)} (h : Ordinary p t all.length)
    {es : List (Event α)} {s' : Sys α σ ρ} (hc : Course p env t all es s') (calm : Calm p env t es) (last : s'.calm = true) :
    (∀ c, c < p.channels → (s'.step p env t.sizes t.outputIncrements (.thread c)).isSome = true) ∧
      ((∀ u, s'.user = u → u ≠ .idle) → (s'.step p env t.sizes t.outputIncrements .user).isSome = true) := by
  obtain ⟨b1, _, b3, _⟩ := flow_begin hs h
  obtain ⟨B, g, r, f1, _⟩ := flow_whole hap hs h hc.given hc.ends calm hc.heeding hc.run
  obtain ⟨l1, l2⟩ := placed_run es (s := start t) trivial hc.run
  refine ⟨?_, fun hu => user_some l1 hu⟩
  intro c hl
  have hl' : c < s'.workers.length := by rw [l2, b3]; exact hl
  obtain ⟨w', e, _⟩ := flow_thread b1 f1 last (List.getElem?_eq_getElem hl')
  unfold Sys.step
  simp only [List.getElem?_eq_getElem hl', Option.bind_some, e, Option.map_some, Option.isSome_some]

/-! ## C110 -/

/-- **C110** in full: when `available` has given -1, all the output has been retrieved. -/
def C110_statement : Prop :=
  ∀ {α σ ρ κ : Type} [Zero α] [Add α] [Sub α] (p : Params) (env : Env α σ ρ κ) (s t u : State α σ ρ κ) (all : List (Frame α)) (outs : List (List (List α))) (es : List (Event α)) (s' : Sys α σ ρ)
    (l : List (Reply α)), 2 ≤ p.channels → Apart p → Prepared p env s t → Ordinary p t all.length → Alone p env s all u outs → Course p env t all es s' → Calm p env t es →
    s'.replies = .available (-1) :: l → ∀ (c : Nat) cd, u.chans[c]? = some cd → heard c s'.replies = delivered outs c ++ cd.outbuf.data

/-- **C110 (partial).**  When it has given -1 twice running, all the output has been retrieved, of every channel. -/
theorem C110_partial (hap : Apart p) {s t u : State α σ ρ κ} (hs : Prepared p env s t) {all : List (Frame α)} (h : Ordinary p t all.length) {outs : List (List (List α))} (ha : Alone p env s all u outs)
    {es : List (Event α)} {s' : Sys α σ ρ} (hc : Course p env t all es s') (calm : Calm p env t es) {l : List (Reply α)} (hl : s'.replies = .available (-1) :: .available (-1) :: l) :
    ∀ (c : Nat) cd, u.chans[c]? = some cd → heard c s'.replies = delivered outs c ++ cd.outbuf.data := by
  obtain ⟨a1, a2⟩ := alone_out hap hs h ha
  obtain ⟨t1, t2⟩ := told_whole hap hs h hc.given hc.ends calm hc.heeding hc.run
  intro c cd hcd
  rw [a2 c cd hcd]
  refine t1.whole (by rw [hl]; rfl) c ?_
  rw [t2, ← a1]
  rw [List.getElem?_eq_some_iff] at hcd
  exact hcd.1

/-! ## C111 -/

/-- **C111** in full: asking for more than there is (`retrieve` gives as much as it can, and says how much) loses nothing: what is retrieved of a channel is still, sample for sample, what comes first in what a
stretcher without threads gives. -/
def C111_statement : Prop :=
  ∀ {α σ ρ κ : Type} [Zero α] [Add α] [Sub α] (p : Params) (env : Env α σ ρ κ) (s t u : State α σ ρ κ) (all : List (Frame α)) (outs : List (List (List α))) (es : List (Event α)) (s' : Sys α σ ρ),
    2 ≤ p.channels → Apart p → Prepared p env s t → Ordinary p t all.length → Alone p env s all u outs → given es <+: all → (ends es = true → given es = all) →
    Calm p env t es → (start t).run p env t.sizes t.outputIncrements es = some s' →
    ∀ (c : Nat) cd, u.chans[c]? = some cd → heard c s'.replies <+: delivered outs c ++ cd.outbuf.data

/-- **C111 (partial).**  If no more is ever asked for than `available` said there was, `retrieve` puts all that was asked for into each of the arrays, and says so; so that the channels stay in step. -/
theorem C111_partial (hap : Apart p) {s t : State α σ ρ κ} (hs : Prepared p env s t) {all : List (Frame α)} (h : Ordinary p t all.length)
    {es : List (Event α)} {s' : Sys α σ ρ} (hc : Course p env t all es s') (calm : Calm p env t es) :
    (∀ n outs got, .retrieved n outs got ∈ s'.replies → got = n ∧ outs.length = p.channels ∧ ∀ o ∈ outs, o.length = n) ∧
      ∀ c d, c < p.channels → d < p.channels → (heard c s'.replies).length = (heard d s'.replies).length := by
  obtain ⟨t1, t2⟩ := told_whole hap hs h hc.given hc.ends calm hc.heeding hc.run
  have h1 := t1.retrieved
  have h2 := t1.even
  rw [t2] at h1 h2
  exact ⟨h1, h2⟩

/-! ## C112 -/

/-- **C112.**  Once a final block has been given, every thread comes to its end: whatever else happens, in what order, it is done after so many turns of its own, a number that depends only on the size of
its input buffer and on the window; it is then left only to retrieve what is in its output buffer, and that is all the rest of the output. -/
theorem C112_end (hap : Apart p) {s t u : State α σ ρ κ} (hs : Prepared p env s t) {all : List (Frame α)} (h : Ordinary p t all.length) {outs : List (List (List α))} (ha : Alone p env s all u outs)
    {es more : List (Event α)} {s' s'' : Sys α σ ρ} (hc : Course p env t all es s') (calm : Calm p env t es) (hfin : s'.finished = true)
    (hcalm : s'.calmly p env t.sizes t.outputIncrements more = true) (hheed : s'.heeding p env t.sizes t.outputIncrements more = true)
    (hrun : s'.run p env t.sizes t.outputIncrements more = some s'') {c : Nat} {cd₀ cd : Chan α σ ρ} (h0 : t.chans[c]? = some cd₀) (hcd : u.chans[c]? = some cd)
    (hturns : 32 * (cd₀.inbuf.cap + t.sizes.window + 2) ≤ turns c more) :
    ∃ w, s''.workers[c]? = some w ∧ w.pc = .done ∧ (s''.user = .idle → heard c s''.replies ++ w.cd.outbuf.data = delivered outs c ++ cd.outbuf.data) := by
  obtain ⟨a1, a2⟩ := alone_out hap hs h ha
  obtain ⟨b1, b2, b3, _⟩ := flow_begin hs h
  obtain ⟨B, g, r, f1, f2⟩ := flow_whole hap hs h hc.given hc.ends calm hc.heeding hc.run
  have hslim : AllSlim t.sizes (fun c => ((t.chans[c]?).map fun cd => cd.inbuf.cap).getD 0) (start t) := by
    obtain ⟨_, _, _, c4⟩ := prologue_clean (hs.ready h.offline).1 hs.start
    intro d w hw
    unfold start at hw
    simp only [List.getElem?_map] at hw
    obtain ⟨cd, hcd, e⟩ := Option.map_eq_some_iff.mp hw
    subst e
    refine ⟨?_, ?_, trivial⟩
    · show cd.accumulatorFill ≤ _
      rw [(c4 cd (List.mem_of_getElem? hcd)).1.fill]
      exact Nat.zero_le _
    · simp only [hcd, Option.map_some, Option.getD_some]
  have hslim' := slim_run b1 h.pitch hap.sep es b2 (Or.inr ⟨hc.given, hc.ends⟩) calm hc.heeding hc.run hslim
  obtain ⟨_, l2⟩ := placed_run es (s := start t) trivial hc.run
  have hl : c < s'.workers.length := by
    rw [l2, b3, ← a1]
    rw [List.getElem?_eq_some_iff] at hcd
    exact hcd.1
  have hw := List.getElem?_eq_getElem hl
  have hsome : (s'.workers[c]).cd.inputSize.isSome = true := by
    have hin := f1.inputs
    unfold Inputs at hin
    split at hin
    · exact absurd hin.finished (by rw [hfin]; simp)
    · exact absurd hin.1.finished (by rw [hfin]; simp)
    · exact absurd hin.finished (by rw [hfin]; simp)
    · exact hin.marked hfin c _ hw
  have fits : Fits all s' B more := Or.inl (by rw [hfin]; rfl)
  obtain ⟨w, e1, e2, e3, e4⟩ := ended_run b1 h.pitch hap.sep more f1 fits hcalm hheed hrun hw (hslim' c _ hw) hsome
  obtain ⟨B', g', r', f3, _⟩ := flow_run b1 h.pitch hap.sep more f1 fits hcalm hheed hrun
  have hd : w.pc = .done := by
    rcases e4 with e4 | e4
    · exact e4
    · have hb := turns_bound (f1.phase c _ hw) (hslim' c _ hw)
      change turnsLeft t.sizes _ < 32 * (_ + t.sizes.window + 2) at hb
      simp only [h0, Option.map_some, Option.getD_some] at hb
      omega
  refine ⟨w, e1, hd, fun hu => ?_⟩
  rw [a2 c cd hcd]
  exact heard_done f3 e1 hd hu

/-- While the user is idle, a thread can take as many turns as it likes. -/
theorem idle_run {z : Sizes} {incs : List Int} {x₀ : Nat → Syn α σ} {all : List (Frame α)} (hJ : AllOk p env z incs x₀ all) {c : Nat} : ∀ (n : Nat) {s : Sys α σ ρ} {B : List (Frame α)} {g : Nat → Nat}
    {r : Nat → List α}, Flow p env z incs x₀ all s B g r → s.user = .idle → c < s.workers.length → ∃ s', s.run p env z incs (List.replicate n (.thread c)) = some s' ∧
      s.calmly p env z incs (List.replicate n (.thread c)) = true ∧ s.heeding p env z incs (List.replicate n (.thread c)) = true ∧ s'.user = .idle := by
  intro n
  induction n with
  | zero =>
    intro s B g r _ hu _
    refine ⟨s, rfl, ?_, rfl, hu⟩
    show s.calm = true
    unfold Sys.calm
    rw [hu]
  | succ n ih =>
    intro s B g r hf hu hc
    have calm : s.calm = true := by unfold Sys.calm; rw [hu]
    obtain ⟨w', h1, h2, _⟩ := flow_thread hJ hf calm (List.getElem?_eq_getElem hc)
    have e : s.step p env z incs (.thread c) = some { s with workers := s.workers.set c w' } := by
      unfold Sys.step
      simp only [List.getElem?_eq_getElem hc, Option.bind_some, h1, Option.map_some]
    obtain ⟨s', i1, i2, i3, i4⟩ := ih h2 hu (by simpa using hc)
    refine ⟨s', ?_, ?_, ?_, i4⟩
    · rw [List.replicate_succ]; unfold Sys.run; rw [e]; exact i1
    · rw [List.replicate_succ]; unfold Sys.calmly; rw [e, calm]; exact i2
    · rw [List.replicate_succ]; unfold Sys.heeding; rw [e]; exact i3

/-- So a user who waits after the final block has been given gets all the output of a channel into its output buffer. -/
theorem C112_wait (hap : Apart p) {s t u : State α σ ρ κ} (hs : Prepared p env s t) {all : List (Frame α)} (h : Ordinary p t all.length) {outs : List (List (List α))} (ha : Alone p env s all u outs)
    {es : List (Event α)} {s' : Sys α σ ρ} (hc : Course p env t all es s') (calm : Calm p env t es) (hfin : s'.finished = true) (hu : s'.user = .idle)
    {c : Nat} {cd₀ cd : Chan α σ ρ} (h0 : t.chans[c]? = some cd₀) (hcd : u.chans[c]? = some cd) :
    ∃ s'' w, s'.run p env t.sizes t.outputIncrements (List.replicate (32 * (cd₀.inbuf.cap + t.sizes.window + 2)) (.thread c)) = some s'' ∧ s''.workers[c]? = some w ∧ w.pc = .done ∧
      heard c s''.replies ++ w.cd.outbuf.data = delivered outs c ++ cd.outbuf.data := by
  obtain ⟨a1, _⟩ := alone_out hap hs h ha
  obtain ⟨b1, _, b3, _⟩ := flow_begin hs h
  obtain ⟨B, g, r, f1, f2⟩ := flow_whole hap hs h hc.given hc.ends calm hc.heeding hc.run
  obtain ⟨_, l2⟩ := placed_run es (s := start t) trivial hc.run
  have hl : c < s'.workers.length := by
    rw [l2, b3, ← a1]
    rw [List.getElem?_eq_some_iff] at hcd
    exact hcd.1
  obtain ⟨s'', i1, i2, i3, i4⟩ := idle_run b1 (32 * (cd₀.inbuf.cap + t.sizes.window + 2)) f1 hu hl
  obtain ⟨w, w1, w2, w3⟩ := C112_end hap hs h ha hc calm hfin i2 i3 i1 h0 hcd (by simp [turns, List.countP_replicate])
  exact ⟨s'', w, i1, w1, w2, w3 i4⟩

end

/-! ## Cases -/

namespace Ex

/-- Two channels, short windows at 8000 Hz, offline. -/
def two : Params := { rate := 8000, windowShort := true, channels := 2 }

/-- What is put out is numbered. -/
def count : Env Int Int Unit Unit where
  specInit := 0
  specReset := id
  specSizes := fun s _ _ => s
  analyse := fun s _ => (s, fun _ => 0)
  synthesise := fun s f _ _ _ => (s, f)
  emit := fun s i => s + i
  shift := fun s _ n => s + n
  rsInit := ()
  rsReset := id
  resample := fun r _ _ _ _ => (r, [])
  effective := fun _ x => x
  curveInit := fun _ => ()
  curveReset := id
  curveSizes := fun k _ => k
  curve := fun k _ => (k, 0, false)
  studyCurve := fun k s _ => (k, s, fun _ => 0, 0, false)
  halve := fun x => x / 2
  mixdown := fun _ f => f 0

def users (n : Nat) : List (Event Int) := List.replicate n .user

def threads (c n : Nat) : List (Event Int) := List.replicate n (.thread c)

/-- What can be said of some turns: that they can be taken, that nothing is read from a buffer being replaced, that no more is asked for than there is; what has been heard, and the last of the replies to `available`. -/
def seen (es : List (Event Int)) : Option (State Int Int Unit Unit × State Int Int Unit Unit × Sys Int Int Unit) :=
  (create two count (.fin 1) (.fin 1)).bind fun s => (prologue count s).bind fun t => ((start t).run two count t.sizes t.outputIncrements es).map fun s' => (s, t, s')

/-- The same stretcher without threads. -/
def alone (n : Nat) : Option (State Int Int Unit Unit × List (List (List Int))) :=
  (create two count (.fin 1) (.fin 1)).bind fun s => R2.run two count s [.process (Ex.block n) true]

/-- A check of what is assumed. -/
def checks (n : Nat) (es : List (Event Int)) (x : State Int Int Unit Unit × State Int Int Unit Unit × Sys Int Int Unit) : Bool :=
  decide (x.1.mode = .justCreated) && ordinaryCheck two x.2.1 n && (start x.2.1).heeding two count x.2.1.sizes x.2.1.outputIncrements es

def calm (es : List (Event Int)) (x : State Int Int Unit Unit × State Int Int Unit Unit × Sys Int Int Unit) : Bool :=
  (start x.2.1).calmly two count x.2.1.sizes x.2.1.outputIncrements es

theorem seen_prepared {es : List (Event Int)} {x : State Int Int Unit Unit × State Int Int Unit Unit × Sys Int Int Unit} (h : seen es = some x) (hm : x.1.mode = .justCreated) :
    create two count (.fin 1) (.fin 1) = some x.1 ∧ Prepared two count x.1 x.2.1 ∧ (start x.2.1).run two count x.2.1.sizes x.2.1.outputIncrements es = some x.2.2 := by
  obtain ⟨s, h1, h2⟩ := Option.bind_eq_some_iff.mp h
  obtain ⟨t, h3, h4⟩ := Option.bind_eq_some_iff.mp h2
  obtain ⟨s', h5, h6⟩ := Option.map_eq_some_iff.mp h4
  subst h6
  exact ⟨h1, ⟨⟨_, _, s, [], [], h1, rfl⟩, Or.inl hm, h3⟩, h5⟩

theorem alone_of {n : Nat} {s u : State Int Int Unit Unit} {outs : List (List (List Int))} (h : alone n = some (u, outs)) (hs : create two count (.fin 1) (.fin 1) = some s) :
    Alone two count s (Ex.block n) u outs := by
  unfold alone at h
  rw [hs] at h
  exact ⟨Ex.block n, true, [], by simp, rfl, rfl, h⟩

end Ex

/-- C110 is false of the code: `available` finds nothing in the output buffer of a channel, the threads go on to their end, and then `available` finds that they have; it gives -1 with all the output left. -/
theorem C110_violated : ¬ C110_statement := by
  intro h
  have hrun : (Ex.seen (.call (.process (Ex.block 60) true) :: Ex.users 7 ++ [.call .available, .user] ++ Ex.threads 0 160 ++ Ex.threads 1 160 ++ Ex.users 4)).map (fun x =>
      (Ex.checks 60 (.call (.process (Ex.block 60) true) :: Ex.users 7 ++ [.call .available, .user] ++ Ex.threads 0 160 ++ Ex.threads 1 160 ++ Ex.users 4) x,
       Ex.calm (.call (.process (Ex.block 60) true) :: Ex.users 7 ++ [.call .available, .user] ++ Ex.threads 0 160 ++ Ex.threads 1 160 ++ Ex.users 4) x,
       (heard 0 x.2.2.replies).length, x.2.2.replies.map fun | .available n => n | _ => 0)) = some (true, true, 0, [-1]) := by decide +kernel
  have hal : (Ex.alone 60).map (fun x => ((delivered x.2 0).length, x.1.chans.map fun cd => cd.outbuf.data.length)) = some (0, [60, 60]) := by decide +kernel
  obtain ⟨x, h1, h2⟩ := Option.map_eq_some_iff.mp hrun
  obtain ⟨⟨u, outs⟩, h3, h4⟩ := Option.map_eq_some_iff.mp hal
  unfold Ex.checks at h2
  simp only [Prod.mk.injEq, Bool.and_eq_true, decide_eq_true_eq] at h2 h4
  obtain ⟨⟨⟨m1, m2⟩, m3⟩, m4, m5, m6⟩ := h2
  obtain ⟨p1, p2, p3⟩ := Ex.seen_prepared h1 m1
  obtain ⟨l, hl⟩ : ∃ l, x.2.2.replies = .available (-1) :: l := by
    cases hr : x.2.2.replies with
    | nil => rw [hr] at m6; cases m6
    | cons a l =>
      rw [hr] at m6
      cases a with
      | available n => simp at m6; exact ⟨l, by rw [m6.1]⟩
      | retrieved => simp at m6
  cases hch : u.chans with
  | nil => rw [hch] at h4; simp at h4
  | cons cd rest =>
    have := h Ex.two Ex.count x.1 x.2.1 u (Ex.block 60) outs _ x.2.2 l (by decide) (Or.inl rfl) p2 (by rw [Ex.block_length]; exact ordinary_of_check m2) (Ex.alone_of h3 p1)
      ⟨List.prefix_refl _, fun _ => rfl, m3, p3⟩ m4 hl 0 cd (by rw [hch]; rfl)
    have hlen := congrArg List.length this
    rw [hch] at h4
    simp at h4
    rw [List.length_append, m5, h4.1, h4.2.1] at hlen
    cases hlen

/-- C111 is false of the code: with output ready in one channel but not in the other, `retrieve` takes samples of the one, says that it got none, and they are lost. -/
theorem C111_violated : ¬ C111_statement := by
  intro h
  have hrun : (Ex.seen (.call (.process (Ex.block 300) false) :: Ex.users 7 ++ Ex.threads 0 60 ++ .call (.retrieve 5) :: Ex.users 5 ++ Ex.threads 1 60 ++ .call (.retrieve 5) :: Ex.users 5)).map (fun x =>
      (decide (x.1.mode = .justCreated), ordinaryCheck Ex.two x.2.1 300,
       Ex.calm (.call (.process (Ex.block 300) false) :: Ex.users 7 ++ Ex.threads 0 60 ++ .call (.retrieve 5) :: Ex.users 5 ++ Ex.threads 1 60 ++ .call (.retrieve 5) :: Ex.users 5) x,
       heard 0 x.2.2.replies)) = some (true, true, true, [133, 134, 135, 136, 137]) := by decide +kernel
  have hal : (Ex.alone 300).map (fun x => (delivered x.2 0, x.1.chans.map fun cd => cd.outbuf.data.take 1)) = some ([], [[128], [128]]) := by decide +kernel
  obtain ⟨x, h1, h2⟩ := Option.map_eq_some_iff.mp hrun
  obtain ⟨⟨u, outs⟩, h3, h4⟩ := Option.map_eq_some_iff.mp hal
  simp only [Prod.mk.injEq, decide_eq_true_eq] at h2 h4
  obtain ⟨m1, m2, m4, m5⟩ := h2
  obtain ⟨p1, p2, p3⟩ := Ex.seen_prepared h1 m1
  cases hch : u.chans with
  | nil => rw [hch] at h4; simp at h4
  | cons cd rest =>
    have := h Ex.two Ex.count x.1 x.2.1 u (Ex.block 300) outs _ x.2.2 (by decide) (Or.inl rfl) p2 (by rw [Ex.block_length]; exact ordinary_of_check m2) (Ex.alone_of h3 p1)
      (by simp [given, Ex.users, Ex.threads]) (fun e => by simp [ends, Ex.users, Ex.threads] at e) m4 p3 0 cd (by rw [hch]; rfl)
    rw [hch] at h4
    simp at h4
    rw [m5, h4.1, List.nil_append] at this
    obtain ⟨y, hy⟩ := this
    have e := h4.2.1
    rw [← hy] at e
    cases e

/-- Turns with everything in them: a block, a thread ahead of the other, a retrieval, the end, and -1 twice. -/
def Ex.turns : List (Event Int) :=
  .call (.process (Ex.block 300) false) :: Ex.users 7 ++ Ex.threads 0 60 ++ Ex.threads 1 50 ++ .call .available :: Ex.users 2 ++ Ex.threads 1 7 ++ Ex.users 3 ++ .call (.retrieve 10) :: Ex.users 2 ++ Ex.threads 0 9 ++ Ex.users 3 ++
    .call (.process (Ex.block 60) true) :: Ex.users 7 ++ Ex.threads 1 200 ++ Ex.threads 0 200 ++ .call .available :: Ex.users 5 ++ .call (.retrieve 350) :: Ex.users 5 ++ .call .available :: Ex.users 5 ++ .call .available :: Ex.users 5

/-- The theorems above apply to them (the output buffers have room for 8192 samples). -/
theorem Ex.applies : ∃ (s t u : State Int Int Unit Unit) (outs : List (List (List Int))) (s' : Sys Int Int Unit) (l : List (Reply Int)), Apart Ex.two ∧ Prepared Ex.two Ex.count s t ∧ Ordinary Ex.two t (Ex.block 360).length ∧
    Alone Ex.two Ex.count s (Ex.block 360) u outs ∧ Course Ex.two Ex.count t (Ex.block 360) Ex.turns s' ∧ Calm Ex.two Ex.count t Ex.turns ∧ s'.finished = true ∧ s'.replies = .available (-1) :: .available (-1) :: l ∧
    (heard 0 s'.replies).length = 360 ∧ (heard 0 s'.replies).take 12 = [128, 129, 130, 131, 132, 133, 134, 135, 136, 137, 138, 139] ∧ u.chans.length = 2 := by
  have hrun : (Ex.seen Ex.turns).map (fun x => (Ex.checks 360 Ex.turns x && Ex.calm Ex.turns x && x.2.2.finished, (heard 0 x.2.2.replies).length, (heard 0 x.2.2.replies).take 12,
      x.2.2.replies.map fun | .available n => n | _ => 0)) = some (true, 360, [128, 129, 130, 131, 132, 133, 134, 135, 136, 137, 138, 139], [-1, -1, 0, 350, 0, 82]) := by decide +kernel
  have hal : (Ex.alone 360).map (fun x => x.1.chans.length) = some 2 := by decide +kernel
  obtain ⟨x, h1, h2⟩ := Option.map_eq_some_iff.mp hrun
  obtain ⟨⟨u, outs⟩, h3, h4⟩ := Option.map_eq_some_iff.mp hal
  unfold Ex.checks at h2
  simp only [Prod.mk.injEq, Bool.and_eq_true, decide_eq_true_eq] at h2 h4
  obtain ⟨⟨⟨⟨⟨m1, m2⟩, m3⟩, m4⟩, m5⟩, m6, m7, m8⟩ := h2
  obtain ⟨p1, p2, p3⟩ := Ex.seen_prepared h1 m1
  have hg : given Ex.turns = Ex.block 360 := by
    show Ex.block 300 ++ Ex.block 60 = _
    rw [Ex.joined]
  obtain ⟨l, hl⟩ : ∃ l, x.2.2.replies = .available (-1) :: .available (-1) :: l := by
    cases hr : x.2.2.replies with
    | nil => rw [hr] at m8; cases m8
    | cons a l =>
      rw [hr] at m8
      cases l with
      | nil => simp at m8
      | cons b l =>
        cases a with
        | available n =>
          cases b with
          | available n' => simp at m8; exact ⟨l, by rw [m8.1, m8.2.1]⟩
          | retrieved => simp at m8
        | retrieved => simp at m8
  exact ⟨x.1, x.2.1, u, outs, x.2.2, l, Or.inl rfl, p2, by rw [Ex.block_length]; exact ordinary_of_check m2, Ex.alone_of h3 p1, ⟨by rw [hg], fun _ => hg, m3, p3⟩, m4, m5, hl, m6, m7, h4⟩

/-- C109 and C110 applied to them: all that a stretcher without threads gives has been heard. -/
example : ∃ (s u : State Int Int Unit Unit) (outs : List (List (List Int))) (s' : Sys Int Int Unit) (cd : Chan Int Int Unit), Alone Ex.two Ex.count s (Ex.block 360) u outs ∧ u.chans[1]? = some cd ∧
    heard 1 s'.replies = delivered outs 1 ++ cd.outbuf.data := by
  obtain ⟨s, t, u, outs, s', l, h1, h2, h3, h4, h5, h6, _, h8, _, _, h9⟩ := Ex.applies
  exact ⟨s, u, outs, s', _, h4, List.getElem?_eq_getElem (by omega), C110_partial h1 h2 h3 h4 h5 h6 h8 1 _ (List.getElem?_eq_getElem (by omega))⟩

/-- C111 applied to them. -/
example : ∃ (s' : Sys Int Int Unit), (heard 0 s'.replies).length = 360 ∧ (heard 1 s'.replies).length = 360 := by
  obtain ⟨s, t, u, outs, s', l, h1, h2, h3, h4, h5, h6, _, h8, h9, _, _⟩ := Ex.applies
  exact ⟨s', h9, ((C111_partial h1 h2 h3 h5 h6).2 1 0 (by decide) (by decide)).trans h9⟩

end Verif.R2.Threads
