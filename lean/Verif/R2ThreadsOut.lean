import Verif.R2ThreadsRun
import Verif.R2OfflineProps
/-!
# The faster engine with threads: the beginning, and what has been heard at any time
-/
namespace Verif.R2.Threads
open Verif.R2

variable {α σ ρ κ : Type}

/-! ## What has been given is the beginning of the output -/

theorem hearStep_prefix (skip T : Nat) (h : List α × Nat) (out : List α) : h.1 <+: (hearStep skip T h out).1 := List.prefix_append ..

theorem hearDrain_prefix (env : Env α σ ρ κ) (z : Sizes) (incs : List Int) (skip T : Nat) : ∀ (f : Nat) (x : Syn α σ) (h : List α × Nat),
    h.1 <+: (hearDrain env z incs skip T f x h).1 := by
  intro f
  induction f with
  | zero => intro x h; exact List.prefix_refl _
  | succ f ih =>
    intro x h
    unfold hearDrain
    split
    · exact List.prefix_refl _
    · exact List.IsPrefix.trans (hearStep_prefix skip T h _) (ih _ _)

theorem hearAt_prefix (env : Env α σ ρ κ) (z : Sizes) (incs : List Int) (x₀ : Syn α σ) (skip T : Nat) (X : List α) (j : Nat) : ∀ k,
    (hearAt env z incs x₀ skip T X j).1 <+: (hearAt env z incs x₀ skip T X (j + k)).1 := by
  intro k
  induction k with
  | zero => exact List.prefix_refl _
  | succ k ih => exact List.IsPrefix.trans ih (hearStep_prefix skip T _ _)

section
variable [Zero α] {J : Job α σ ρ κ}

theorem hear_prefix {j : Nat} (h : j ≤ frames J.z J.N) : (J.hear j).1 <+: J.out := by
  obtain ⟨k, hk⟩ := Nat.exists_eq_add_of_le h
  rw [J.out_eq]
  refine List.IsPrefix.trans ?_ (hearDrain_prefix _ _ _ _ _ _ _ _)
  rw [hk]
  exact hearAt_prefix ..

theorem Stage.frames (hJ : J.Ok) {cd : Chan α σ ρ} {g j k : Nat} (hg : g ≤ J.N) (h : Stage J cd g j k) {i : Nat} (hi : i ≤ k) : i ≤ frames J.z J.N := by
  unfold R2.frames
  cases i with
  | zero => exact Nat.zero_le _
  | succ i =>
    have := h.full i (by omega)
    have h1 : i ≤ J.N / J.z.increment := (Nat.le_div_iff_mul_le hJ.fine.inc).mpr (by omega)
    omega

theorem Draining'.prefix {cd : Chan α σ ρ} {S : Syn α σ} {h : List α × Nat} (d : Draining' J cd S h) : h.1 <+: J.out := by
  rw [← d.out]
  exact hearDrain_prefix ..

theorem After.prefix (hJ : J.Ok) {cd : Chan α σ ρ} {g : Nat} (hg : g ≤ J.N) {last : Bool} {S : Syn α σ} {h : List α × Nat} (a : After J cd g last S h) : h.1 <+: J.out := by
  unfold After at a
  split at a
  · rw [a.2.2]
  · rcases a with ⟨j, h1, _, h2⟩ | h1
    · rw [h2]
      exact hear_prefix (h1.frames hJ hg (le_refl j))
    · exact h1.prefix

/-- What has been retrieved and what waits to be is the beginning of the output. -/
theorem phase_prefix (hJ : J.Ok) {w : Worker α σ ρ} {g : Nat} {r : List α} (h : Phase J w g r) : r ++ w.cd.outbuf.data <+: J.out := by
  obtain ⟨cd, old, pc⟩ := w
  obtain ⟨c, h⟩ := h
  have hg : g ≤ J.N := c.le
  have over : Over J cd r → r ++ cd.outbuf.data <+: J.out := fun o => by rw [o.heard]
  have idle : Idle J cd g r → r ++ cd.outbuf.data <+: J.out := by
    rintro (⟨j, h1, _, h2⟩ | ⟨h, h1, h2⟩)
    · rw [h2.heard]; exact hear_prefix (h1.frames hJ hg (le_refl j))
    · rw [h2.heard]; exact h1.prefix
  have before : ∀ x, Before J cd g r x → r ++ cd.outbuf.data <+: J.out := by
    rintro x ⟨_, h, h2, h3, _⟩
    rw [h2.heard]
    exact List.IsPrefix.trans (hearStep_prefix ..) (After.prefix hJ hg h3)
  cases pc with
  | top => exact idle h
  | left => exact idle h.1
  | test k =>
    simp only at h
    split at h
    · exact over h
    · exact idle h
  | tested k rs =>
    simp only at h
    split at h
    · exact over h
    · exact idle h.1
  | take after =>
    simp only at h
    split at h
    · exact over h
    · rcases h with ⟨j, h1, _, h2⟩ | ⟨h, h1, h2⟩
      · show r ++ cd.outbuf.data <+: J.out
        rw [h2.heard]; exact hear_prefix (h1.frames hJ hg (Nat.le_succ j))
      · show r ++ cd.outbuf.data <+: J.out
        rw [h2.heard]; exact h1.prefix
  | skip after =>
    simp only at h
    split at h
    · exact over h
    · rcases h with ⟨j, h1, _, h2⟩ | ⟨h, h1, h2⟩
      · show r ++ cd.outbuf.data <+: J.out
        rw [h2.heard]; exact hear_prefix (h1.frames hJ hg (Nat.le_succ j))
      · show r ++ cd.outbuf.data <+: J.out
        rw [h2.heard]; exact h1.prefix
  | piece after tmp todo last =>
    cases todo with
    | nil =>
      simp only at h
      split at h
      · exact over h
      · obtain ⟨_, _, h, h2, h3⟩ := h
        show r ++ cd.outbuf.data <+: J.out
        rw [h2.heard]
        exact After.prefix hJ hg h3
    | cons i todo =>
      simp only at h
      obtain ⟨_, h⟩ := h
      split at h
      · exact over h
      · rcases h.2 with ⟨j, h1, _, h2⟩ | ⟨S, h, h1, _, h2⟩
        · show r ++ cd.outbuf.data <+: J.out
          rw [h2.heard]; exact hear_prefix (h1.frames hJ hg (Nat.le_succ j))
        · show r ++ cd.outbuf.data <+: J.out
          rw [h2.heard]; exact h1.prefix
  | grow x => exact before x h
  | swap x new => exact before x h.1
  | limit x => exact before x h.1
  | emit x θ =>
    obtain ⟨_, h, h2, h3, _⟩ := h
    show r ++ cd.outbuf.data <+: J.out
    rw [h2.heard]
    exact List.IsPrefix.trans (hearStep_prefix ..) (After.prefix hJ hg h3)
  | settle x =>
    obtain ⟨_, h, h2, h3⟩ := h
    show r ++ cd.outbuf.data <+: J.out
    rw [h2.heard]
    exact After.prefix hJ hg h3
  | done => exact over h

/-! ## As many samples of each channel -/

/-- How much a state holds is the same. -/
def Alike (x y : Syn α σ) : Prop := x.fill = y.fill ∧ x.count = y.count

omit [Zero α] in
theorem trim_alike (skip T o : Nat) {a b : List α} (h : a.length = b.length) : (trim skip T o a).1.length = (trim skip T o b).1.length ∧ (trim skip T o a).2 = (trim skip T o b).2 := by
  unfold trim
  rw [h]
  split
  · split
    · exact ⟨by simp [h], rfl⟩
    · exact ⟨h, rfl⟩
  · split
    · exact ⟨rfl, rfl⟩
    · exact ⟨by simp [h], rfl⟩

omit [Zero α] in
theorem hearStep_alike (skip T : Nat) {v w : List α × Nat} (h1 : v.1.length = w.1.length) (h2 : v.2 = w.2) {a b : List α} (h : a.length = b.length) :
    (hearStep skip T v a).1.length = (hearStep skip T w b).1.length ∧ (hearStep skip T v a).2 = (hearStep skip T w b).2 := by
  unfold hearStep
  obtain ⟨t1, t2⟩ := trim_alike skip T w.2 h
  rw [h2]
  simp only [List.length_append]
  rw [h1, t1, t2]
  exact ⟨rfl, rfl⟩

omit [Zero α] in
theorem hearAt_alike (env : Env α σ ρ κ) (z : Sizes) (incs : List Int) {x y : Syn α σ} (h : Alike x y) (skip T : Nat) (X Y : List α) : ∀ j,
    Alike (synAt env z incs x X j).1 (synAt env z incs y Y j).1 ∧
      (hearAt env z incs x skip T X j).1.length = (hearAt env z incs y skip T Y j).1.length ∧ (hearAt env z incs x skip T X j).2 = (hearAt env z incs y skip T Y j).2 := by
  intro j
  induction j with
  | zero => exact ⟨h, rfl, rfl⟩
  | succ j ih =>
    obtain ⟨⟨i1, i2⟩, i3, i4⟩ := ih
    refine ⟨⟨?_, ?_⟩, ?_⟩
    · show max _ _ - _ = max _ _ - _
      rw [i1, i2]
    · show (pick z incs _).1 + 1 = (pick z incs _).1 + 1
      rw [i2]
    · refine hearStep_alike skip T i3 i4 ?_
      unfold frameStep
      simp only [List.length_map, List.length_range, i2]

omit [Zero α] in
theorem hearDrain_alike (env : Env α σ ρ κ) (z : Sizes) (incs : List Int) (skip T : Nat) : ∀ (f : Nat) {x y : Syn α σ} {v w : List α × Nat}, Alike x y → v.1.length = w.1.length → v.2 = w.2 →
    (hearDrain env z incs skip T f x v).1.length = (hearDrain env z incs skip T f y w).1.length := by
  intro f
  induction f with
  | zero => intro x y v w _ h _; exact h
  | succ f ih =>
    intro x y v w hx h1 h2
    have hb : drainBy z incs x = drainBy z incs y := by
      unfold drainBy
      rw [hx.1, hx.2]
    unfold hearDrain
    rw [hx.1]
    split
    · exact h1
    · obtain ⟨s1, s2⟩ := hearStep_alike skip T h1 h2 (a := (drainStep env z incs x).2) (b := (drainStep env z incs y).2) (by unfold drainStep; simp only [List.length_map, List.length_range, hb])
      refine ih ⟨?_, ?_⟩ s1 s2
      · show x.fill - _ = y.fill - _
        rw [hb, hx.1]
      · show (pick z incs _).1 + 1 = (pick z incs _).1 + 1
        rw [hx.2]

/-- How long the output is does not depend on what is in the input. -/
theorem output_alike (p : Params) (env : Env α σ ρ κ) (z : Sizes) (incs : List Int) {x y : Syn α σ} (h : Alike x y) {a b : List α} (hl : a.length = b.length) :
    (output p env z incs x a).length = (output p env z incs y b).length := by
  unfold output
  rw [hl]
  obtain ⟨h1, h2, h3⟩ := hearAt_alike env z incs h (startSkip p z) (target z b.length) (padded z a) (padded z b) (frames z b.length)
  rw [h1.1]
  exact hearDrain_alike env z incs _ _ _ h1 h2 h3

end

/-! ## The beginning -/

section
variable [Zero α] [Add α] [Sub α] {p : Params} {env : Env α σ ρ κ}

/-- What is given by a channel that was ready to be played. -/
def sounds (p : Params) (env : Env α σ ρ κ) (t : State α σ ρ κ) (all : List (Frame α)) (c : Nat) : List α :=
  output p env t.sizes t.outputIncrements (initial env t c) (all.map (prepared p env c))

theorem job_out (p : Params) (env : Env α σ ρ κ) (t : State α σ ρ κ) (all : List (Frame α)) (c : Nat) :
    (job p env t.sizes t.outputIncrements (initial env t) all c).out = sounds p env t all c := rfl

/-- The threads have been started. -/
theorem flow_begin {s t : State α σ ρ κ} (hs : Prepared p env s t) {all : List (Frame α)} (h : Ordinary p t all.length) :
    AllOk p env t.sizes t.outputIncrements (initial env t) all ∧ Flow p env t.sizes t.outputIncrements (initial env t) all (start t) [] (fun _ => 0) (fun _ => []) ∧
      (start t).workers.length = p.channels ∧ ∀ c d, c < p.channels → d < p.channels → Alike (initial env t c) (initial env t d) := by
  obtain ⟨hf, hg⟩ := h.fine hs
  obtain ⟨a1, a2, a3, a4⟩ := prologue_clean (hs.ready h.offline).1 hs.start
  obtain ⟨_, b2⟩ := R2.flow_start (hs.ready h.offline).1 hs.start hf
  refine ⟨?_, ⟨?_, ?_, ?_⟩, ?_, ?_⟩
  · intro c
    refine ⟨hf, (b2 c).1, (b2 c).2, ?_⟩
    have e : (job p env t.sizes t.outputIncrements (initial env t) all c).N = all.length := List.length_map ..
    rw [e]
    exact hg
  · intro c w hw
    unfold start at hw
    simp only [List.getElem?_map] at hw
    obtain ⟨cd, hc, e⟩ := Option.map_eq_some_iff.mp hw
    subst e
    obtain ⟨b1, b2⟩ := a4 cd (List.mem_of_getElem? hc)
    have hi : initial env t c = cd.syn := by unfold initial; rw [hc]
    have hin := b2.inbuf
    have hout := b2.outbuf
    refine ⟨⟨b1.inCount, Nat.zero_le _, Or.inl b1.inputSize, ?_, ?_, ⟨?_, ?_⟩⟩, ?_⟩
    · show cd.inbuf.data.length ≤ cd.inbuf.cap
      rw [b1.inbuf, List.length_replicate]; omega
    · show t.sizes.window ≤ cd.inbuf.cap
      omega
    · show cd.outbuf.data.length ≤ 16 * cd.outbuf.cap
      rw [b1.outbuf]; exact Nat.zero_le _
    · show t.sizes.window ≤ 16 * cd.outbuf.cap
      omega
    · refine Or.inl ⟨0, ⟨b1.draining, b1.complete, ?_, ?_, fun i hi => absurd hi (Nat.not_lt_zero _), fun _ i hi => absurd hi (Nat.not_lt_zero _)⟩, ?_, ⟨?_, b1.outCount⟩⟩
      · show cd.inbuf.data = ((padded t.sizes _).take (t.sizes.window / 2 + 0)).drop (0 * _)
        rw [b1.inbuf, Nat.zero_mul, List.drop_zero, Nat.add_zero]
        unfold padded
        rw [List.take_append_of_le_length (by simp), List.take_of_length_le (by simp)]
      · rw [Nat.zero_mul]; exact Nat.zero_le _
      · show cd.syn = initial env t c
        rw [hi]
      · show [] ++ cd.outbuf.data = []
        rw [b1.outbuf]; rfl
  · exact ⟨List.nil_prefix, fun c _ => rfl, fun e => by cases e⟩
  · intro c w _
    exact ⟨rfl, Nat.zero_le _⟩
  · show (t.chans.map _).length = _
    rw [List.length_map, a3]
  · have key : ∀ c, c < p.channels → (initial env t c).fill = 0 ∧ (initial env t c).count = 0 := by
      intro c hc
      have hc' : c < t.chans.length := by rw [a3]; exact hc
      obtain ⟨b1, _⟩ := a4 _ (List.getElem_mem hc')
      unfold initial
      rw [List.getElem?_eq_getElem hc']
      exact ⟨b1.fill, b1.chunkCount⟩
    intro c d hc hd
    exact ⟨(key c hc).1.trans (key d hd).1.symm, (key c hc).2.trans (key d hd).2.symm⟩

/-- All the channels give as much. -/
theorem sounds_length {s t : State α σ ρ κ} (hs : Prepared p env s t) {all : List (Frame α)} (h : Ordinary p t all.length) {c d : Nat} (hc : c < p.channels) (hd : d < p.channels) :
    (sounds p env t all c).length = (sounds p env t all d).length := by
  obtain ⟨_, _, _, a4⟩ := flow_begin hs h
  exact output_alike p env t.sizes t.outputIncrements (a4 c d hc hd) (by simp)

/-- Any run in which nothing is read from a buffer that is being replaced and no more is asked for than there is. -/
theorem flow_whole (hap : Apart p) {s t : State α σ ρ κ} (hs : Prepared p env s t) {all : List (Frame α)} (h : Ordinary p t all.length) {es : List (Event α)} {s' : Sys α σ ρ}
    (hg : given es <+: all) (he : ends es = true → given es = all) (hc : (start t).calmly p env t.sizes t.outputIncrements es = true)
    (hh : (start t).heeding p env t.sizes t.outputIncrements es = true) (hr : (start t).run p env t.sizes t.outputIncrements es = some s') :
    ∃ B g r, Flow p env t.sizes t.outputIncrements (initial env t) all s' B g r ∧ Fits all s' B [] := by
  obtain ⟨a1, a2, _⟩ := flow_begin hs h
  exact flow_run a1 h.pitch hap.sep es a2 (Or.inr ⟨hg, he⟩) hc hh hr

end
end Verif.R2.Threads
