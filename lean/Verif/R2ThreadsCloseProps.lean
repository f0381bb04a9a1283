import Verif.R2ThreadsClose
/-!
# The faster engine with threads: `reset` and destruction return, and not before the threads have ended (C155)
-/
namespace Verif.R2.Threads
open Verif.R2

variable {α σ ρ κ : Type}

section
variable [Zero α] [Add α] [Sub α] {p : Params} {env : Env α σ ρ κ}

theorem close_kept (hap : Apart p) {s t : State α σ ρ κ} (hs : Prepared p env s t) {all : List (Frame α)} (h : Ordinary p t all.length) {es : List (Event α)} {s' : Sys α σ ρ} (hc : Any p env t all es s')
    {order : List Nat} (ho : order.Perm (List.range p.channels)) {k : Closing α σ ρ} (hk : s'.close order = some k) :
    AllOk p env t.sizes t.outputIncrements (initial env t) all ∧ ∃ caps, (∀ c, c < p.channels → (job p env t.sizes t.outputIncrements (initial env t) all c).out.length + t.sizes.window ≤ caps c) ∧
      Kept p env t.sizes t.outputIncrements (initial env t) all (fun c => ((t.chans[c]?).map fun cd => cd.inbuf.cap).getD 0) caps p.channels order k ∧ k.left = order ∧ t.chans.length = p.channels := by
  obtain ⟨b1, _, b3, _⟩ := flow_begin hs h
  obtain ⟨caps, S, k1, k2⟩ := haunted_begin hs h hc.given hc.ends
  obtain ⟨S', B', g', r', k3⟩ := haunted_run b1 h.pitch hap.sep es k1 k2 hc.run
  obtain ⟨_, l2⟩ := placed_run es (s := start t) trivial hc.run
  have hlen : s'.workers.length = p.channels := l2.trans b3
  have hk' : k = ⟨s'.workers, order, false⟩ := by
    unfold Sys.close at hk
    split at hk <;> cases hk
    rfl
  subst hk'
  refine ⟨b1, caps, by rw [← b3]; exact k1, ⟨hlen, ?_, ⟨[], rfl, by simp⟩, ?_⟩, rfl, ?_⟩
  · intro c w hw
    obtain ⟨g1, q, g2⟩ := k3.haunts.ghost c w hw
    exact Or.inr ⟨g1, q, _, _, k3.flow.phase c _ g2, k3.settled c _ g2, k3.slim c _ g2⟩
  · intro c hc
    exact List.mem_range.mp (ho.mem_iff.mp hc)
  · rw [← b3]; simp [start]

/-- **C155** (1).  `reset` and the destructor do not go on to the channels while a thread is still at work on one: whatever turns are taken (and every turn can be taken), when the caller has no thread left to wait for,
they all have ended. -/
theorem C155_waits (hap : Apart p) {s t : State α σ ρ κ} (hs : Prepared p env s t) {all : List (Frame α)} (h : Ordinary p t all.length) {es : List (Event α)} {s' : Sys α σ ρ} (hc : Any p env t all es s')
    {order : List Nat} (ho : order.Perm (List.range p.channels)) {k : Closing α σ ρ} (hk : s'.close order = some k) {more : List Turn} (hm : ∀ e ∈ more, e.below p.channels) :
    ∃ k', k.run p env t.sizes t.outputIncrements more = some k' ∧ (k'.left = [] → ∀ c, c < p.channels → ∃ w, k'.workers[c]? = some w ∧ w.pc = .done) := by
  obtain ⟨b1, caps, b2, b3, b4, _⟩ := close_kept hap hs h hc ho hk
  obtain ⟨k', e1, e2, -⟩ := kept_run b1 b2 more b3 hm
  refine ⟨k', e1, fun hl c hcp => ?_⟩
  obtain ⟨before, f1, f2⟩ := e2.order
  rw [hl, List.append_nil] at f1
  exact f2 c (by rw [← f1]; exact ho.mem_iff.mpr (List.mem_range.mpr hcp))

/-- **C155** (2).  `reset` and the destructor return, whatever has been given and asked for before and however far the threads are: if all the threads and the caller get turns, in whatever order and with the threads in the set in
whatever order.  A round is any number of turns in which every thread has had so many (a number that depends only on the size of its input buffer and on the window) and the caller one; in three rounds for each channel every
thread has been waited for. -/
theorem C155 (hap : Apart p) {s t : State α σ ρ κ} (hs : Prepared p env s t) {all : List (Frame α)} (h : Ordinary p t all.length) {es : List (Event α)} {s' : Sys α σ ρ} (hc : Any p env t all es s')
    {order : List Nat} (ho : order.Perm (List.range p.channels)) {k : Closing α σ ρ} (hk : s'.close order = some k) {rounds : List (List Turn)} (hm : ∀ r ∈ rounds, ∀ e ∈ r, e.below p.channels)
    (hfair : ∀ r ∈ rounds, (∀ (c : Nat) cd, t.chans[c]? = some cd → 96 * (cd.inbuf.cap + t.sizes.window + 2) ≤ Turn.of c r) ∧ Turn.caller ∈ r) (hmany : 3 * p.channels ≤ rounds.length) :
    ∃ k', k.run p env t.sizes t.outputIncrements rounds.flatten = some k' ∧ k'.left = [] ∧ ∀ c, c < p.channels → ∃ w, k'.workers[c]? = some w ∧ w.pc = .done := by
  obtain ⟨b1, caps, b2, b3, b4, b5⟩ := close_kept hap hs h hc ho hk
  obtain ⟨k', e1, e2, e3⟩ := kept_rounds b1 b2 p.channels (rounds := rounds) b3 (fun r hr => by
    refine ⟨hm r hr, (hfair r hr).2, fun c hcp => ?_⟩
    have hl : c < t.chans.length := by rw [b5]; exact hcp
    have := (hfair r hr).1 c _ (List.getElem?_eq_getElem hl)
    simp only [List.getElem?_eq_getElem hl, Option.map_some, Option.getD_some]
    exact this) (by rw [b4, ho.length_eq, List.length_range]) hmany
  refine ⟨k', e1, e3, fun c hcp => ?_⟩
  obtain ⟨before, f1, f2⟩ := e2.order
  rw [e3, List.append_nil] at f1
  exact f2 c (by rw [← f1]; exact ho.mem_iff.mpr (List.mem_range.mpr hcp))

end

/-- For instance, a block of sixty samples that is not the last, and one of the threads has begun with it; the other is first in the set.  (Neither thread would ever come to its end by itself.) -/
example : ∃ (s t : State Int Int Unit Unit) (s' : Sys Int Int Unit) (k : Closing Int Int Unit) (rounds : List (List Turn)), Prepared Ex.two Ex.count s t ∧ Ordinary Ex.two t (Ex.block 60).length ∧
    Any Ex.two Ex.count t (Ex.block 60) (.call (.process (Ex.block 60) false) :: Ex.users 7 ++ Ex.threads 0 9) s' ∧ [1, 0].Perm (List.range Ex.two.channels) ∧ s'.close [1, 0] = some k ∧
    (k.workers.all fun w => match w.pc with | .done => false | _ => true) = true ∧
    (∀ r ∈ rounds, ∀ e ∈ r, e.below Ex.two.channels) ∧
    (∀ r ∈ rounds, (∀ (c : Nat) cd, t.chans[c]? = some cd → 96 * (cd.inbuf.cap + t.sizes.window + 2) ≤ Turn.of c r) ∧ Turn.caller ∈ r) ∧ 3 * Ex.two.channels ≤ rounds.length := by
  have hrun : (Ex.seen (.call (.process (Ex.block 60) false) :: Ex.users 7 ++ Ex.threads 0 9)).map (fun x =>
      decide (x.1.mode = .justCreated) && ordinaryCheck Ex.two x.2.1 60 && x.2.1.chans.all (fun cd => decide (cd.inbuf.cap + x.2.1.sizes.window + 2 ≤ 2000)) &&
        decide (x.2.1.chans.length = 2) && ((x.2.2.close [1, 0]).map fun k => k.workers.all fun w => match w.pc with | .done => false | _ => true) == some true) = some true := by decide +kernel
  obtain ⟨x, h1, h2⟩ := Option.map_eq_some_iff.mp hrun
  simp only [Bool.and_eq_true, decide_eq_true_eq, List.all_eq_true, beq_iff_eq] at h2
  obtain ⟨⟨⟨⟨m1, m2⟩, m3⟩, m4⟩, m5⟩ := h2
  obtain ⟨p1, p2, p3⟩ := Ex.seen_prepared h1 m1
  obtain ⟨k, n1, n2⟩ := Option.map_eq_some_iff.mp m5
  refine ⟨x.1, x.2.1, x.2.2, k, List.replicate 6 (List.replicate 192000 (.thread 0) ++ [.caller] ++ List.replicate 192000 (.thread 1)), p2, by rw [Ex.block_length]; exact ordinary_of_check m2,
    ⟨List.prefix_refl _, fun _ => rfl, p3⟩, by decide, n1, n2, ?_, ?_, ?_⟩
  · intro r hr e he
    rw [List.mem_replicate] at hr
    rw [hr.2] at he
    simp only [List.mem_append, List.mem_replicate, List.mem_singleton] at he
    rcases he with (⟨_, rfl⟩ | rfl) | ⟨_, rfl⟩
    · show 0 < 2; omega
    · trivial
    · show 1 < 2; omega
  · intro r hr
    rw [List.mem_replicate] at hr
    rw [hr.2]
    refine ⟨?_, List.mem_append_left _ (List.mem_append_right _ List.mem_cons_self)⟩
    intro c cd hcd
    have := m3 cd (List.mem_of_getElem? hcd)
    have hc : c < 2 := by rw [← m4]; exact (List.getElem?_eq_some_iff.mp hcd).1
    have : 192000 ≤ Turn.of c (List.replicate 192000 (.thread 0) ++ [.caller] ++ List.replicate 192000 (.thread 1)) := by
      unfold Turn.of
      rw [List.countP_append, List.countP_append, List.countP_replicate, List.countP_replicate]
      rcases Nat.lt_or_ge c 1 with h | h
      · have : c = 0 := by omega
        subst this
        simp
      · have : c = 1 := by omega
        subst this
        simp
    omega
  · rw [List.length_replicate]
    decide

end Verif.R2.Threads
