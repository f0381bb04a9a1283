import Verif.R2RequiredProps
/-!
# The faster engine in real time: the output buffers are long enough

What is in the accumulator is not more than the longest block, and the output buffers are not shorter than was calculated.
-/
namespace Verif.R2
open Verif.StretchCalc Verif.Round

variable {α σ ρ κ : Type}

/-- The output buffer holds at least `n`, and in the accumulator there are at most `m`. -/
structure Big (n m : Nat) (cd : Chan α σ ρ) : Prop where
  wide : n ≤ cd.outbuf.cap
  fill : cd.accumulatorFill ≤ m

section
variable {p : Params} {env : Env α σ ρ κ} {z : Sizes} {n m : Nat}

theorem big_of {cd cd' : Chan α σ ρ} (h : Big n m cd) (h1 : cd'.outbuf.cap = cd.outbuf.cap) (h2 : cd'.accumulatorFill = cd.accumulatorFill) : Big n m cd' :=
  ⟨by rw [h1]; exact h.wide, by rw [h2]; exact h.fill⟩

theorem big_withResampler {cd : Chan α σ ρ} (h : Big n m cd) : Big n m (cd.withResampler p env z) := by
  unfold Chan.withResampler
  split
  · exact big_of h rfl rfl
  · exact h

theorem big_writeOutput {cd : Chan α σ ρ} (h : Big n m cd) (skip T : Nat) (out : List α) : Big n m (writeOutput skip T cd out) := by
  unfold writeOutput
  split
  · exact big_of h rfl rfl
  · split <;> exact big_of h rfl rfl

theorem big_writeChunk {si : Nat} {last : Bool} {cd cd' : Chan α σ ρ} (hb : Big n m cd) (h : writeChunk p env z si last cd = some cd') : Big n m cd' := by
  unfold writeChunk at h
  split at h
  · cases h
  · simp only [Option.some.injEq] at h
    have a : Big n m (resampled p env z cd ((List.range si).map (env.emit cd.spec)) last).1 := by
      unfold resampled
      split <;> exact big_of hb rfl rfl
    generalize resampled p env z cd ((List.range si).map (env.emit cd.spec)) last = y at *
    have b := big_writeOutput a (startSkip p z) (theoreticalOut z y.1) y.2
    generalize writeOutput (startSkip p z) (theoreticalOut z y.1) y.1 y.2 = w at *
    rw [← h]
    unfold lessFill
    have := b.fill
    split
    · exact ⟨b.wide, by simp only; omega⟩
    · exact ⟨b.wide, Nat.zero_le _⟩

theorem big_ensureOutbuf {cd : Chan α σ ρ} (h : Big n m cd) (si : Nat) : Big n m (ensureOutbuf z si cd) := by
  have g : Big n m { cd with outbuf := cd.outbuf.resized (cd.outbuf.cap * 2) } := by
    refine ⟨?_, h.fill⟩
    have := h.wide
    show n ≤ cd.outbuf.cap * 2
    omega
  unfold ensureOutbuf
  simp only
  split <;> split
  · exact g
  · exact h
  · exact g
  · exact h

theorem big_spectral (hm : z.window ≤ m) {cd : Chan α σ ρ} (h : Big n m cd) (i : Incs) : Big n m (spectral env z i cd) := by
  unfold spectral
  split
  · exact h
  · exact ⟨h.wide, max_le h.fill hm⟩

theorem big_processChunk (hm : z.window ≤ m) {i : Incs} {cd : Chan α σ ρ} {r : Chan α σ ρ × Bool} (hb : Big n m cd) (h : processChunk p env z i cd = some r) : Big n m r.1 := by
  unfold processChunk at h
  have hb := big_spectral (env := env) hm hb i
  simp only at h
  generalize spectral env z i cd = d at *
  split at h
  · split at h
    · cases h; exact hb
    · obtain ⟨e, he, h⟩ := Option.map_eq_some_iff.mp h
      rw [← h]
      exact big_writeChunk (big_ensureOutbuf hb _) he
  · obtain ⟨e, he, h⟩ := Option.map_eq_some_iff.mp h
    rw [← h]
    exact big_writeChunk (big_ensureOutbuf hb _) he

theorem big_testInbuf {cd : Chan α σ ρ} (h : Big n m cd) : Big n m (testInbuf z cd).1 := by
  unfold testInbuf
  simp only
  split
  · split
    · exact h
    · split
      · exact h
      · split
        · exact big_of h rfl rfl
        · exact h
  · exact h

theorem big_takeFrames : ∀ l : List (Chan α σ ρ), (∀ cd ∈ l, Big n m cd) → ∀ cd ∈ (takeFrames env z l).1, Big n m cd := by
  intro l
  induction l with
  | nil => intro _ cd hcd; cases hcd
  | cons x l ih =>
    intro h
    have a := big_testInbuf (z := z) (h x (List.mem_cons_self ..))
    have ih := ih fun cd hcd => h cd (List.mem_cons_of_mem _ hcd)
    unfold takeFrames
    simp only
    split
    · intro cd hcd
      rcases List.mem_cons.mp hcd with rfl | hcd
      · split
        · exact a
        · rename_i hd
          unfold analyseChunk takeFrame
          rw [if_neg hd]
          exact big_of a rfl rfl
      · exact ih cd hcd
    · intro cd hcd
      rcases List.mem_cons.mp hcd with rfl | hcd
      · exact a
      · exact h cd (List.mem_cons_of_mem _ hcd)

theorem big_calculate {s : State α σ ρ κ} (h : ∀ cd ∈ s.chans, Big n m cd) : ∀ cd ∈ (calculateIncrements env s).1.chans, Big n m cd := by
  unfold calculateIncrements
  split
  · exact h
  · rename_i cd cds heq
    split
    · intro x hx
      rw [heq] at h
      rcases List.mem_cons.mp hx with rfl | hx
      · exact big_of (h cd (List.mem_cons_self ..)) rfl rfl
      · exact h x (List.mem_cons_of_mem _ hx)
    · exact h

theorem big_eachChunk (hm : z.window ≤ m) (i : Incs) : ∀ (l : List (Chan α σ ρ)) (last : Bool) (r : List (Chan α σ ρ) × Bool), (∀ cd ∈ l, Big n m cd) →
    eachChunk p env z i l last = some r → ∀ cd ∈ r.1, Big n m cd := by
  intro l
  induction l with
  | nil => intro last r _ h; cases h; intro cd hcd; cases hcd
  | cons x l ih =>
    intro last r hl h
    unfold eachChunk at h
    obtain ⟨y, hy, h⟩ := Option.bind_eq_some_iff.mp h
    obtain ⟨ys, hys, h⟩ := Option.bind_eq_some_iff.mp h
    cases h
    intro cd hcd
    rcases List.mem_cons.mp hcd with rfl | hcd
    · exact big_of (big_processChunk hm (hl x (List.mem_cons_self ..)) hy) rfl rfl
    · exact ih _ _ (fun d hd => hl d (List.mem_cons_of_mem _ hd)) hys cd hcd

theorem big_one {s : State α σ ρ κ} {r : State α σ ρ κ × Bool} (hi : s.outputIncrements = []) (hm : s.sizes.window ≤ m) (hb : ∀ cd ∈ s.chans, Big n m cd) (h : processOneChunk p env s = some r) :
    ∀ cd ∈ r.1.chans, Big n m cd := by
  unfold processOneChunk at h
  have a := big_takeFrames (env := env) (z := s.sizes) s.chans hb
  generalize takeFrames env s.sizes s.chans = q at h a
  obtain ⟨chans, ready⟩ := q
  simp only at h a
  split at h
  · rw [choose_eq (s := { s with chans := chans }) hi] at h
    have b := big_calculate (env := env) (s := { s with chans := chans }) a
    obtain ⟨c3, _, _⟩ := calculate_keeps (env := env) { s with chans := chans }
    generalize calculateIncrements env { s with chans := chans } = y at h b c3
    obtain ⟨s', i⟩ := y
    simp only at h b c3
    obtain ⟨x, hx, h⟩ := Option.bind_eq_some_iff.mp h
    cases h
    exact big_eachChunk (by rw [c3]; exact hm) _ _ _ _ b hx
  · cases h; exact a

end

section
variable [Add α] [Sub α] {p : Params} {env : Env α σ ρ κ} {z : Sizes} {n m : Nat}

theorem big_channelRound (hrt : p.realTime = true) {incs : List Int} {c : Nat} {input : List (Frame α)} {final : Bool} {cd : Chan α σ ρ} {used : Nat} {r : Chan α σ ρ × Nat} (hb : Big n m cd)
    (h : channelRound p env z incs c input final cd used = some r) : Big n m r.1 := by
  unfold channelRound at h
  obtain ⟨y, hy, h⟩ := Option.bind_eq_some_iff.mp h
  have a : Big n m y.1 := by
    unfold consumeChannel at hy
    split at hy
    · obtain ⟨q, hq, hy⟩ := Option.map_eq_some_iff.mp hy
      rw [← hy]
      unfold consumeResampled
      simp only
      split
      · exact hb
      · split <;> exact big_of hb rfl rfl
    · cases hy
      exact big_of hb rfl rfl
  simp only [hrt, if_true] at h
  cases h
  simp only
  split
  · exact big_of a rfl rfl
  · exact a

theorem big_channelsRound (hrt : p.realTime = true) {incs : List Int} {input : List (Frame α)} {final : Bool} : ∀ (l : List (Chan α σ ρ × Nat)) (c : Nat) (xs : List (Chan α σ ρ × Nat)),
    (∀ x ∈ l, Big n m x.1) → channelsRound p env z incs input final c l = some xs → ∀ x ∈ xs, Big n m x.1 := by
  intro l
  induction l with
  | nil => intro c xs _ h; cases h; intro x hx; cases hx
  | cons x l ih =>
    intro c xs hl h
    obtain ⟨cd, used⟩ := x
    unfold channelsRound at h
    obtain ⟨y, hy, h⟩ := Option.bind_eq_some_iff.mp h
    obtain ⟨ys, hys, h⟩ := Option.bind_eq_some_iff.mp h
    cases h
    intro v hv
    rcases List.mem_cons.mp hv with rfl | hv
    · exact big_channelRound hrt (hl (cd, used) (List.mem_cons_self ..)) hy
    · exact ih _ _ (fun v hv => hl v (List.mem_cons_of_mem _ hv)) hys v hv

theorem big_loop (hrt : p.realTime = true) {input : List (Frame α)} {final : Bool} : ∀ (fuel : Nat) {s s' : State α σ ρ κ} {used : List Nat}, s.outputIncrements = [] → used.length = s.chans.length →
    s.sizes.window ≤ m → (∀ cd ∈ s.chans, Big n m cd) → processLoop p env input final fuel s used = some s' → ∀ cd ∈ s'.chans, Big n m cd := by
  intro fuel
  induction fuel with
  | zero => intro s s' used _ _ _ _ e; cases e
  | succ k ih =>
    intro s s' used hi hu hm hb e
    unfold processLoop at e
    obtain ⟨⟨t, used'⟩, e1, e2⟩ := Option.bind_eq_some_iff.mp e
    obtain ⟨a1, a2, a3, a4, a5, _, _⟩ := onward_round hrt hi hu e1
    obtain ⟨xs, b, f1, f2, _⟩ := round_split hrt e1
    have g := big_channelsRound hrt _ _ _ (fun x hx => hb _ (List.of_mem_zip hx).1) f1
    have g2 : ∀ cd ∈ t.chans, Big n m cd := by
      refine big_one (s := { s with chans := xs.map fun x => x.1 }) hi hm ?_ f2
      intro cd hcd
      obtain ⟨x, hx, rfl⟩ := List.mem_map.mp hcd
      exact g x hx
    simp only at e2
    split at e2
    · cases e2; exact g2
    · exact ih a3 a5 (by rw [a1]; exact hm) g2 e2

end

section
variable [Zero α] [Add α] [Sub α] {p : Params} {env : Env α σ ρ κ}

/-- What holds in real time between calls: the output buffers are not shorter than calculated. -/
def Widened (s : State α σ ρ κ) : Prop := ∀ cd ∈ s.chans, Big s.outbufSize s.maxProcessSize cd

omit [Add α] [Sub α] in
theorem grown_create (hrt : p.realTime = true) {a b : R3.Dbl} {s : State α σ ρ κ} (h : create p env a b = some s) : Widened s := by
  unfold create configure at h
  obtain ⟨u, hu, h⟩ := Option.bind_eq_some_iff.mp h
  obtain ⟨fresh, hfresh, h⟩ := Option.bind_eq_some_iff.mp h
  simp only [Bool.true_or, if_true, hrt] at h
  cases h
  unfold newChan at hfresh
  obtain ⟨base, hbase, hfresh⟩ := Option.bind_eq_some_iff.mp hfresh
  cases hfresh
  intro cd hcd
  simp only at hcd
  obtain ⟨x, hx, rfl⟩ := List.mem_map.mp hcd
  rw [List.eq_of_mem_replicate hx]
  exact big_withResampler ⟨le_max_left _ _, Nat.zero_le _⟩

omit [Add α] [Sub α] in
theorem grown_reconfigure (hrt : p.realTime = true) {a b : R3.Dbl} {s t : State α σ ρ κ} (hs : ∀ cd ∈ s.chans, s.outbufSize ≤ cd.outbuf.cap ∧ (cd.accumulatorFill ≤ s.maxProcessSize))
    (h : reconfigure p env s a b = some t) : Widened t := by
  unfold reconfigure at h
  simp only [hrt, if_true] at h
  obtain ⟨u, hu, h⟩ := Option.bind_eq_some_iff.mp h
  cases h
  unfold resize at hu
  obtain ⟨z, hz, hu⟩ := Option.bind_eq_some_iff.mp hu
  cases hu
  unfold Widened
  simp only [hrt, if_true]
  generalize (max ((max s.maxProcessSize z.window : Nat) / z.pitchScale) ((max s.maxProcessSize z.window * 2 : Nat) * (if z.timeRatio > 1 then z.timeRatio else 1))).ceil.toNat * 16 = o
  have first : ∀ cd ∈ (if z.window ≠ s.sizes.window then s.chans.map (Chan.setSizes env z.window z.fftSize) else s.chans), s.outbufSize ≤ cd.outbuf.cap ∧ cd.accumulatorFill ≤ max s.maxProcessSize z.window := by
    intro cd hcd
    split at hcd
    · obtain ⟨x, hx, rfl⟩ := List.mem_map.mp hcd
      exact ⟨(hs x hx).1, le_trans (hs x hx).2 (le_max_left _ _)⟩
    · exact ⟨(hs cd hcd).1, le_trans (hs cd hcd).2 (le_max_left _ _)⟩
  generalize (if z.window ≠ s.sizes.window then s.chans.map (Chan.setSizes env z.window z.fftSize) else s.chans) = l at first
  intro cd hcd
  split at hcd
  · obtain ⟨x, hx, rfl⟩ := List.mem_map.mp hcd
    refine ⟨?_, (first x hx).2⟩
    unfold Chan.setOutbufSize
    simp only
    split
    · unfold Fifo.resized; simp
    · omega
  · rename_i e
    have e : o = s.outbufSize := of_not_not e
    exact ⟨by rw [e]; exact (first cd hcd).1, (first cd hcd).2⟩

omit [Zero α] [Add α] [Sub α] in
theorem grown_finishLoop {n m : Nat} : ∀ (fuel : Nat) {s t : State α σ ρ κ}, s.outputIncrements = [] → s.sizes.window ≤ m → (∀ cd ∈ s.chans, Big n m cd) → finishLoop p env fuel s = some t →
    ∀ cd ∈ t.chans, Big n m cd := by
  intro fuel
  induction fuel with
  | zero => intro s t _ _ _ h; cases h
  | succ k ih =>
    intro s t hi hm hb h
    unfold finishLoop at h
    split at h
    · cases h; exact hb
    · split at h
      · obtain ⟨⟨u, last⟩, hu, h⟩ := Option.bind_eq_some_iff.mp h
        have := big_one hi hm hb hu
        obtain ⟨_, o2, _, o4⟩ := onward_one hi hu
        simp only at h
        split at h
        · cases h; exact this
        · exact ih o4 (by rw [o2]; exact hm) this h
      · cases h; exact hb

omit [Zero α] [Add α] [Sub α] in
theorem big_readChannels {n m : Nat} : ∀ (l : List (Chan α σ ρ)) (k : Nat), (∀ cd ∈ l, Big n m cd) → ∀ cd ∈ (readChannels l k).1, Big n m cd := by
  intro l
  induction l with
  | nil => intro k h; exact h
  | cons cd l ih =>
    intro k h
    unfold readChannels
    simp only
    intro x hx
    rcases List.mem_cons.mp hx with rfl | hx
    · exact big_of (h cd (List.mem_cons_self ..)) rfl rfl
    · exact ih _ (fun x hx => h x (List.mem_cons_of_mem _ hx)) x hx

theorem grown_call (hrt : p.realTime = true) {over : Bool} {c : Call α} {s : State α σ ρ κ} {r : State α σ ρ κ × List (List α)} (hs : Live p over s) (hc : Chosen p s) (hg : Widened s)
    (h : call p env s c = some r) : Widened r.1 := by
  have hg' : ∀ cd ∈ s.chans, s.outbufSize ≤ cd.outbuf.cap ∧ (cd.accumulatorFill ≤ s.maxProcessSize) := fun cd hcd => ⟨(hg cd hcd).wide, (hg cd hcd).fill⟩
  cases c with
  | setTimeRatio r =>
    obtain ⟨t, ht, rfl⟩ := Option.map_eq_some_iff.mp h
    unfold setTimeRatio at ht
    split at ht
    · cases ht; exact hg
    · split at ht
      · cases ht; exact hg
      · exact grown_reconfigure hrt hg' ht
  | setPitchScale r =>
    obtain ⟨t, ht, rfl⟩ := Option.map_eq_some_iff.mp h
    unfold setPitchScale at ht
    split at ht
    · cases ht; exact hg
    · split at ht
      · cases ht; exact hg
      · obtain ⟨u, hu, rfl⟩ := Option.map_eq_some_iff.mp ht
        have a := grown_reconfigure hrt hg' hu
        unfold resetResamplers
        split
        · intro cd hcd
          obtain ⟨x, hx, rfl⟩ := List.mem_map.mp hcd
          exact big_of (a x hx) rfl rfl
        · exact a
  | setExpectedInputDuration n =>
    obtain ⟨t, ht, rfl⟩ := Option.map_eq_some_iff.mp h
    unfold setExpectedInputDuration at ht
    split at ht
    · cases ht; exact hg
    · refine grown_reconfigure hrt ?_ ht
      exact hg'
  | setMaxProcessSize n =>
    obtain ⟨t, ht, rfl⟩ := Option.map_eq_some_iff.mp h
    unfold setMaxProcessSize at ht
    split at ht
    · cases ht; exact hg
    · rename_i hn
      refine grown_reconfigure hrt ?_ ht
      intro cd hcd
      have := (hg' cd hcd).2
      exact ⟨(hg' cd hcd).1, by simp only; omega⟩
  | setKeyFrameMap m =>
    cases h
    unfold setKeyFrameMap
    rw [if_pos hrt]
    exact hg
  | study input final =>
    obtain ⟨t, ht, rfl⟩ := Option.map_eq_some_iff.mp h
    unfold study at ht
    rw [if_pos hrt] at ht
    cases ht
    exact hg
  | process input final =>
    have so := settled_outer hrt (by unfold Settled; trivial) h
    obtain ⟨t, ht, rfl⟩ := Option.map_eq_some_iff.mp h
    simp only at so ⊢
    unfold Widened
    rw [so.outbuf, so.longest]
    unfold process at ht
    split at ht
    · cases ht; exact hg
    · rename_i hf
      obtain ⟨u, hu, ht⟩ := Option.bind_eq_some_iff.mp ht
      obtain ⟨v, hv, ht⟩ := Option.bind_eq_some_iff.mp ht
      cases ht
      have hu' : u.chans = s.chans ∧ u.sizes = s.sizes ∧ u.outputIncrements = s.outputIncrements := by
        have hm := hs.mode
        unfold prologue at hu
        generalize s.mode = m at hu hm hf
        cases m with
        | studying => exact absurd rfl hm
        | justCreated => cases hu; exact ⟨rfl, rfl, rfl⟩
        | processing => cases hu; exact ⟨rfl, rfl, rfl⟩
        | finished => exact absurd rfl hf
      obtain ⟨u1, u2, u3⟩ := hu'
      show ∀ cd ∈ v.chans, Big s.outbufSize s.maxProcessSize cd
      exact big_loop hrt _ (u3.trans hs.increments) List.length_replicate (by rw [u2]; exact hc.longest) (by rw [u1]; exact hg) hv
  | available =>
    have so := settled_outer hrt (by unfold Settled; trivial) h
    obtain ⟨t, ht, rfl⟩ := Option.map_eq_some_iff.mp h
    unfold available at ht
    obtain ⟨u, hu, rfl⟩ := Option.map_eq_some_iff.mp ht
    simp only at so ⊢
    unfold Widened
    rw [so.outbuf, so.longest]
    unfold finish at hu
    simp only [hrt, if_true] at hu
    split at hu
    · cases hu; exact hg
    · split at hu
      · exact grown_finishLoop _ hs.increments hc.longest hg hu
      · cases hu; exact hg
  | retrieve n =>
    cases h
    exact big_readChannels s.chans n hg
  | reset =>
    obtain ⟨t, ht, rfl⟩ := Option.map_eq_some_iff.mp h
    unfold reset at ht
    refine grown_reconfigure hrt ?_ ht
    intro cd hcd
    obtain ⟨x, hx, rfl⟩ := List.mem_map.mp hcd
    exact ⟨(hg x hx).wide, Nat.zero_le _⟩

theorem grown_run (hrt : p.realTime = true) : ∀ (cs : List (Call α)) {over : Bool} {s : State α σ ρ κ} {r : State α σ ρ κ × List (List (List α))}, Live p over s → Chosen p s → Widened s →
    run p env s cs = some r → Widened r.1 := by
  intro cs
  induction cs with
  | nil => intro over s r _ _ hg h; cases h; exact hg
  | cons c cs ih =>
    intro over s r hs hc hg h
    unfold run at h
    obtain ⟨x, hx, h⟩ := Option.bind_eq_some_iff.mp h
    obtain ⟨y, hy, h⟩ := Option.bind_eq_some_iff.mp h
    cases h
    have := ih (live_call hrt hs hx) (call_chosen hrt hc hx) (grown_call hrt hs hc hg hx) hy
    exact this

end

end Verif.R2
