import Verif.R2ThreadsLemmas
/-!
# The faster engine with threads: all turns
-/
namespace Verif.R2.Threads
open Verif.R2

variable {α σ ρ κ : Type}

section
variable [Zero α] {J : Job α σ ρ κ}

/-! ## What a step of a thread leaves to the user -/

/-- A thread takes input and gives output. -/
structure Mono (w w' : Worker α σ ρ) : Prop where
  out : w.cd.outbuf.readSpace ≤ w'.cd.outbuf.readSpace
  space : w.cd.inbuf.writeSpace ≤ w'.cd.inbuf.writeSpace
  size : w'.cd.inputSize = w.cd.inputSize
  complete : w.cd.outputComplete = true → w'.cd.outputComplete = true

omit [Zero α] in
theorem mono_same {w w' : Worker α σ ρ} (h1 : w'.cd.outbuf = w.cd.outbuf) (h2 : w'.cd.inbuf = w.cd.inbuf) (h3 : w'.cd.inputSize = w.cd.inputSize)
    (h4 : w'.cd.outputComplete = w.cd.outputComplete) : Mono w w' :=
  ⟨by rw [h1], by rw [h2], h3, fun h => h4.trans h⟩

omit [Zero α] in
theorem spectral_same (env : Env α σ ρ κ) (z : Sizes) (i : Incs) (cd : Chan α σ ρ) : (spectral env z i cd).outbuf = cd.outbuf ∧ (spectral env z i cd).inbuf = cd.inbuf ∧
    (spectral env z i cd).inputSize = cd.inputSize ∧ (spectral env z i cd).outputComplete = cd.outputComplete := by
  unfold spectral
  split <;> exact ⟨rfl, rfl, rfl, rfl⟩

omit [Zero α] in
theorem writeOutput_more (skip T : Nat) (cd : Chan α σ ρ) (out : List α) : cd.outbuf.readSpace ≤ (writeOutput skip T cd out).outbuf.readSpace ∧
    (writeOutput skip T cd out).inbuf = cd.inbuf ∧ (writeOutput skip T cd out).inputSize = cd.inputSize ∧ (writeOutput skip T cd out).outputComplete = cd.outputComplete := by
  have hw : ∀ xs : List α, cd.outbuf.readSpace ≤ (cd.outbuf.write xs).readSpace := by
    intro xs
    unfold Fifo.readSpace Fifo.write
    simp
  unfold writeOutput
  split
  · exact ⟨hw _, rfl, rfl, rfl⟩
  · split
    · exact ⟨le_refl _, rfl, rfl, rfl⟩
    · exact ⟨hw _, rfl, rfl, rfl⟩

theorem step_mono (hJ : J.Ok) {w w' : Worker α σ ρ} {g : Nat} {r : List α} (h : Phase J w g r) (hs : w.step J.p J.env J.z J.incs = some w') : Mono w w' := by
  obtain ⟨cd, old, pc⟩ := w
  have hc : Common J cd g := h.1
  unfold Worker.step at hs
  cases pc with
  | top => simp only [Option.some.injEq] at hs; subst hs; exact mono_same rfl rfl rfl rfl
  | left => simp only [Option.some.injEq] at hs; subst hs; exact mono_same rfl rfl rfl rfl
  | test k => simp only [Option.some.injEq] at hs; subst hs; exact mono_same rfl rfl rfl rfl
  | tested k rs =>
    simp only at hs
    split at hs
    · split at hs
      · cases hs; exact mono_same rfl rfl rfl rfl
      · split at hs
        · cases hs; exact mono_same rfl rfl rfl rfl
        · split at hs
          · cases hs; exact mono_same rfl rfl rfl rfl
          · cases hs; exact mono_same rfl rfl rfl rfl
    · cases hs; exact mono_same rfl rfl rfl rfl
  | take after =>
    simp only at hs
    split at hs
    · cases hs; exact mono_same rfl rfl rfl rfl
    · cases hs; exact mono_same rfl rfl rfl rfl
  | skip after =>
    simp only [Option.some.injEq] at hs
    subst hs
    generalize hcd' : (if cd.draining = true then cd else { cd with inbuf := cd.inbuf.skip J.z.increment }) = cd'
    have hf : cd'.outbuf = cd.outbuf ∧ cd.inbuf.writeSpace ≤ cd'.inbuf.writeSpace ∧ cd'.inputSize = cd.inputSize ∧ cd'.outputComplete = cd.outputComplete := by
      rw [← hcd']
      split
      · exact ⟨rfl, le_refl _, rfl, rfl⟩
      · refine ⟨rfl, ?_, rfl, rfl⟩
        unfold Fifo.writeSpace Fifo.skip
        simp only [List.length_drop]
        omega
    obtain ⟨g1, g2⟩ := getIncrements_eq J.z J.incs cd'
    rw [g1]
    exact ⟨by show cd.outbuf.readSpace ≤ cd'.outbuf.readSpace; rw [hf.1], hf.2.1, hf.2.2.1, fun e => hf.2.2.2.trans e⟩
  | piece after tmp todo last =>
    cases todo with
    | nil => simp only [Option.some.injEq] at hs; subst hs; exact mono_same rfl rfl rfl rfl
    | cons i todo =>
      simp only [Option.some.injEq] at hs
      subst hs
      obtain ⟨s1, s2, s3, s4⟩ := spectral_same J.env J.z i ({ cd with fltbuf := tmp } : Chan α σ ρ)
      unfold beginPiece
      simp only
      split
      · exact mono_same s1 s2 s3 s4
      · exact mono_same s1 s2 s3 s4
  | grow x => simp only [Option.some.injEq] at hs; subst hs; exact mono_same rfl rfl rfl rfl
  | swap x new =>
    simp only [Option.some.injEq] at hs
    subst hs
    have he : new = cd.outbuf.resized (cd.outbuf.cap * 2) := h.2.2
    have hfit := hc.room.fits
    have hd : new.data = cd.outbuf.data := by
      rw [he]
      unfold Fifo.resized
      exact List.take_of_length_le (by omega)
    refine ⟨?_, le_refl _, rfl, fun e => e⟩
    show cd.outbuf.data.length ≤ new.data.length
    rw [hd]
  | limit x => simp only [Option.some.injEq] at hs; subst hs; exact mono_same rfl rfl rfl rfl
  | emit x θ =>
    simp only at hs
    split at hs
    · cases hs
    · rw [resampled_plain hJ.fine.plain] at hs
      cases hs
      obtain ⟨s1, s2, s3, s4⟩ := writeOutput_more (startSkip J.p J.z) θ cd ((List.range x.si).map (J.env.emit cd.spec))
      exact ⟨s1, by simp only [s2]; exact le_refl _, s3, fun e => s4.trans e⟩
  | settle x =>
    simp only [Option.some.injEq] at hs
    subst hs
    unfold lessFill
    simp only
    split
    · exact mono_same rfl rfl rfl rfl
    · exact ⟨le_refl _, le_refl _, rfl, fun e => by have e' : cd.outputComplete = true := e; simp [e']⟩
  | done => simp only [Option.some.injEq] at hs; subst hs; exact mono_same rfl rfl rfl rfl

/-- A channel that says it is complete has given all. -/
theorem phase_complete {w : Worker α σ ρ} {g : Nat} {r : List α} (h : Phase J w g r) (hc : w.cd.outputComplete = true) : Over J w.cd r := by
  obtain ⟨cd, old, pc⟩ := w
  obtain ⟨_, h⟩ := h
  have no : ∀ {P : Prop}, cd.outputComplete = false → P := by
    intro P e
    have hc' : cd.outputComplete = true := hc
    rw [e] at hc'
    cases hc'
  cases pc with
  | top => exact no (idle_over h)
  | left => exact no (idle_over h.1)
  | test k =>
    simp only at h
    split at h
    · exact h
    · exact no (idle_over h)
  | tested k rs =>
    simp only at h
    split at h
    · exact h
    · exact no (idle_over h.1)
  | take after =>
    simp only at h
    split at h
    · exact h
    · rcases h with ⟨j, h1, _, _⟩ | ⟨h, h1, _⟩
      · exact no h1.complete
      · exact no h1.complete
  | skip after =>
    simp only at h
    split at h
    · exact h
    · rcases h with ⟨j, h1, _, _⟩ | ⟨h, h1, _⟩
      · exact no h1.complete
      · exact no h1.complete
  | piece after tmp todo last =>
    cases todo with
    | nil =>
      simp only at h
      split at h
      · exact h
      · exact no h.2.1
    | cons i todo =>
      simp only at h
      obtain ⟨_, h⟩ := h
      split at h
      · exact h
      · rcases h.2 with ⟨j, h1, _, _⟩ | ⟨S, h, h1, _⟩
        · exact no h1.complete
        · exact no h1.complete
  | grow x => exact no h.1.complete
  | swap x new => exact no h.1.1.complete
  | limit x => exact no h.1.1.complete
  | emit x θ => exact no h.1.1.complete
  | settle x => exact no h.1.complete
  | done => exact h

/-! ## All channels -/

variable {p : Params} {env : Env α σ ρ κ} {z : Sizes} {incs : List Int} {x₀ : Nat → Syn α σ} {all : List (Frame α)}

/-- The job of channel `c`. -/
def job [Add α] [Sub α] (p : Params) (env : Env α σ ρ κ) (z : Sizes) (incs : List Int) (x₀ : Nat → Syn α σ) (all : List (Frame α)) (c : Nat) : Job α σ ρ κ :=
  ⟨p, env, z, incs, x₀ c, all.map (prepared p env c)⟩

/-- In a call of `process`: `B` was given before, `used` of the block have been taken of each channel; those before `c₀` are marked if that is all. -/
structure Giving (all B : List (Frame α)) (g : Nat → Nat) (ws : List (Worker α σ ρ)) (fin : Bool) (input : List (Frame α)) (final : Bool) (used : List Nat) (c₀ : Nat) : Prop where
  finished : fin = false
  part : B ++ input <+: all
  whole : final = true → B ++ input = all
  length : used.length = ws.length
  count : ∀ c, c < ws.length → used.getD c 0 ≤ input.length ∧ g c = B.length + used.getD c 0
  marked : ∀ (c : Nat) w, ws[c]? = some w → c < c₀ → final = true → used.getD c 0 = input.length → w.cd.inputSize.isSome = true

/-- In no call of `process`. -/
structure Given (all B : List (Frame α)) (g : Nat → Nat) (ws : List (Worker α σ ρ)) (fin : Bool) : Prop where
  part : B <+: all
  given : ∀ c, c < ws.length → g c = B.length
  marked : fin = true → ∀ (c : Nat) w, ws[c]? = some w → w.cd.inputSize.isSome = true

/-- In no call of `retrieve`. -/
def Still (r : Nat → List α) (ws : List (Worker α σ ρ)) (replies : List (Reply α)) : Prop :=
  ∀ (c : Nat) w, ws[c]? = some w → r c = heard c replies ∧ allowance replies ≤ w.cd.outbuf.readSpace

/-- In a call of `retrieve`, the channels before `c₀` having been read. -/
structure Taking (r : Nat → List α) (ws : List (Worker α σ ρ)) (replies : List (Reply α)) (n got c₀ : Nat) (outs : List (List α)) : Prop where
  got : got = n
  heeds : n ≤ allowance replies
  length : outs.length = c₀
  le : c₀ ≤ ws.length
  read : ∀ (c : Nat) w, ws[c]? = some w → c < c₀ → (outs.getD c []).length = n ∧ r c = heard c replies ++ outs.getD c [] ∧
    allowance replies - n ≤ w.cd.outbuf.readSpace
  unread : ∀ (c : Nat) w, ws[c]? = some w → c₀ ≤ c → r c = heard c replies ∧ allowance replies ≤ w.cd.outbuf.readSpace

/-- What is always so of the input. -/
def Inputs (all B : List (Frame α)) (g : Nat → Nat) (ws : List (Worker α σ ρ)) (fin : Bool) : User α → Prop
  | .consume input final used c => Giving all B g ws fin input final used c
  | .write input final used c n => Giving all B g ws fin input final used c ∧ ∀ w, ws[c]? = some w → n ≤ w.cd.inbuf.writeSpace
  | .mark input final used c => Giving all B g ws fin input final used c
  | _ => Given all B g ws fin

/-- What is always so of the output. -/
def Outputs (r : Nat → List α) (ws : List (Worker α σ ρ)) (replies : List (Reply α)) : User α → Prop
  | .asking c least _ => Still r ws replies ∧ ∀ (d : Nat) w, ws[d]? = some w → d < c → least ≤ w.cd.outbuf.readSpace
  | .asked c least _ => Still r ws replies ∧ ∀ (d : Nat) w, ws[d]? = some w → d ≤ c → least ≤ w.cd.outbuf.readSpace
  | .point n got c outs => Taking r ws replies n got c outs
  | .read n got c outs place => Taking r ws replies n got c outs ∧ ∀ w, ws[c]? = some w → place = w.old.length
  | _ => Still r ws replies

/-- What is always so. -/
structure Flow [Add α] [Sub α] (p : Params) (env : Env α σ ρ κ) (z : Sizes) (incs : List Int) (x₀ : Nat → Syn α σ) (all : List (Frame α)) (s : Sys α σ ρ)
    (B : List (Frame α)) (g : Nat → Nat) (r : Nat → List α) : Prop where
  phase : ∀ (c : Nat) w, s.workers[c]? = some w → Phase (job p env z incs x₀ all c) w (g c) (r c)
  inputs : Inputs all B g s.workers s.finished s.user
  outputs : Outputs r s.workers s.replies s.user

/-- What is assumed. -/
def AllOk [Add α] [Sub α] (p : Params) (env : Env α σ ρ κ) (z : Sizes) (incs : List Int) (x₀ : Nat → Syn α σ) (all : List (Frame α)) : Prop :=
  ∀ c, (job p env z incs x₀ all c).Ok

section
variable {s : Sys α σ ρ} {B : List (Frame α)} {g : Nat → Nat} {r : Nat → List α}

omit [Zero α] in
theorem get_set {l : List (Worker α σ ρ)} {c d : Nat} {w w' v : Worker α σ ρ} (hc : l[c]? = some w) (h : (l.set c w')[d]? = some v) :
    (d = c ∧ v = w') ∨ (d ≠ c ∧ l[d]? = some v) := by
  have hl : c < l.length := by
    rw [List.getElem?_eq_some_iff] at hc
    exact hc.1
  by_cases e : d = c
  · subst e
    rw [List.getElem?_set_self hl] at h
    exact Or.inl ⟨rfl, (Option.some.inj h).symm⟩
  · rw [List.getElem?_set_ne (by omega)] at h
    exact Or.inr ⟨e, h⟩

/-- A turn of a thread. -/
theorem flow_thread [Add α] [Sub α] (hJ : AllOk p env z incs x₀ all) (h : Flow p env z incs x₀ all s B g r) (calm : s.calm = true) {c : Nat} {w : Worker α σ ρ} (hc : s.workers[c]? = some w) :
    ∃ w', w.step p env z incs = some w' ∧ Flow p env z incs x₀ all { s with workers := s.workers.set c w' } B g r ∧ Mono w w' := by
  have hph := h.phase c w hc
  obtain ⟨w', h1, h2, h3⟩ := step_phase (hJ c) hph
  have hm := step_mono (hJ c) hph h1
  have h1' : w.step p env z incs = some w' := h1
  -- every channel afterwards is one that was there, or got on
  have key : ∀ (d : Nat) v, (s.workers.set c w')[d]? = some v → ∃ u, s.workers[d]? = some u ∧ Mono u v ∧ (v.old = u.old ∨ d = c) := by
    intro d v hv
    rcases get_set hc hv with ⟨e1, e2⟩ | ⟨_, e⟩
    · subst e1 e2
      exact ⟨w, hc, hm, Or.inr rfl⟩
    · exact ⟨v, e, mono_same rfl rfl rfl rfl, Or.inl rfl⟩
  refine ⟨w', h1', ⟨?_, ?_, ?_⟩, hm⟩
  · intro d v hv
    rcases get_set hc hv with ⟨e1, e2⟩ | ⟨_, e⟩
    · subst e1 e2
      exact h2
    · exact h.phase d v e
  · have hin := h.inputs
    have hg : ∀ input final used c₀, Giving all B g s.workers s.finished input final used c₀ → Giving all B g (s.workers.set c w') s.finished input final used c₀ := by
      intro input final used c₀ a
      refine ⟨a.finished, a.part, a.whole, by simpa using a.length, by simpa using a.count, ?_⟩
      intro d v hv
      obtain ⟨u, u1, u2, _⟩ := key d v hv
      rw [u2.size]
      exact a.marked d u u1
    have hgn : Given all B g s.workers s.finished → Given all B g (s.workers.set c w') s.finished := by
      intro a
      refine ⟨a.part, by simpa using a.given, ?_⟩
      intro hf d v hv
      obtain ⟨u, u1, u2, _⟩ := key d v hv
      rw [u2.size]
      exact a.marked hf d u u1
    show Inputs all B g (s.workers.set c w') s.finished s.user
    cases hu : s.user with
    | consume input final used c₀ => rw [hu] at hin; exact hg _ _ _ _ hin
    | write input final used c₀ n =>
      rw [hu] at hin
      refine ⟨hg _ _ _ _ hin.1, ?_⟩
      intro v hv
      obtain ⟨u, u1, u2, _⟩ := key c₀ v hv
      exact le_trans (hin.2 u u1) u2.space
    | mark input final used c₀ => rw [hu] at hin; exact hg _ _ _ _ hin
    | idle => rw [hu] at hin; exact hgn hin
    | asking => rw [hu] at hin; exact hgn hin
    | asked => rw [hu] at hin; exact hgn hin
    | point => rw [hu] at hin; exact hgn hin
    | read => rw [hu] at hin; exact hgn hin
  · have hout := h.outputs
    have hst : Still r s.workers s.replies → Still r (s.workers.set c w') s.replies := by
      intro a d v hv
      obtain ⟨u, u1, u2, _⟩ := key d v hv
      exact ⟨(a d u u1).1, le_trans (a d u u1).2 u2.out⟩
    have htk : ∀ n got c₀ outs, Taking r s.workers s.replies n got c₀ outs → Taking r (s.workers.set c w') s.replies n got c₀ outs := by
      intro n got c₀ outs a
      refine ⟨a.got, a.heeds, a.length, by simpa using a.le, ?_, ?_⟩
      · intro d v hv hd
        obtain ⟨u, u1, u2, _⟩ := key d v hv
        obtain ⟨b1, b2, b3⟩ := a.read d u u1 hd
        exact ⟨b1, b2, le_trans b3 u2.out⟩
      · intro d v hv hd
        obtain ⟨u, u1, u2, _⟩ := key d v hv
        obtain ⟨b1, b2⟩ := a.unread d u u1 hd
        exact ⟨b1, le_trans b2 u2.out⟩
    show Outputs r (s.workers.set c w') s.replies s.user
    cases hu : s.user with
    | consume => rw [hu] at hout; exact hst hout
    | write => rw [hu] at hout; exact hst hout
    | mark => rw [hu] at hout; exact hst hout
    | idle => rw [hu] at hout; exact hst hout
    | asking c₀ least q =>
      rw [hu] at hout
      refine ⟨hst hout.1, ?_⟩
      intro d v hv hd
      obtain ⟨u, u1, u2, _⟩ := key d v hv
      exact le_trans (hout.2 d u u1 hd) u2.out
    | asked c₀ least q =>
      rw [hu] at hout
      refine ⟨hst hout.1, ?_⟩
      intro d v hv hd
      obtain ⟨u, u1, u2, _⟩ := key d v hv
      exact le_trans (hout.2 d u u1 hd) u2.out
    | point => rw [hu] at hout; exact htk _ _ _ _ hout
    | read n got c₀ outs place =>
      rw [hu] at hout
      refine ⟨htk _ _ _ _ hout.1, ?_⟩
      intro v hv
      rcases get_set hc hv with ⟨e1, e2⟩ | ⟨_, e⟩
      · subst e1 e2
        rcases h3 with h3 | ⟨x, new, h3⟩
        · rw [h3]; exact hout.2 w hc
        · unfold Sys.calm at calm
          rw [hu] at calm
          simp only [hc, Option.all_some] at calm
          unfold Worker.swapping at calm
          rw [h3] at calm
          cases calm
      · exact hout.2 v e

/-- A call begins. -/
theorem flow_call [Add α] [Sub α] (h : Flow p env z incs x₀ all s B g r) (hu : s.user = .idle) {q : Req α} (hh : s.heeds (.call q) = true)
    (hp : ∀ input final, q = .process input final → s.finished = false → B ++ input <+: all ∧ (final = true → B ++ input = all)) :
    Flow p env z incs x₀ all (s.call q) B g r := by
  have hin := h.inputs
  have hout := h.outputs
  rw [hu] at hin hout
  cases q with
  | process input final =>
    unfold Sys.call
    simp only
    split
    · exact h
    · rename_i hf
      have hf' : s.finished = false := by simpa using hf
      obtain ⟨a1, a2⟩ := hp input final rfl hf'
      refine ⟨h.phase, ⟨hf', a1, a2, by simp, ?_, ?_⟩, hout⟩
      · intro c hc
        have e : (List.replicate s.workers.length 0).getD c 0 = 0 := by
          rw [List.getD_eq_getElem?_getD, List.getElem?_replicate]
          split <;> rfl
        rw [e]
        exact ⟨Nat.zero_le _, (hin.given c hc).trans (Nat.add_zero _).symm⟩
      · intro c w _ hc
        omega
  | available => exact ⟨h.phase, hin, hout, fun d w _ hd => absurd hd (Nat.not_lt_zero _)⟩
  | retrieve n =>
    refine ⟨h.phase, hin, ⟨rfl, by have e := hh; simp only [Sys.heeds, decide_eq_true_eq] at e; exact e, rfl, Nat.zero_le _, fun c w _ hc => absurd hc (Nat.not_lt_zero _), fun c w hw _ => hout c w hw⟩⟩

/-- What of a block is being given. -/
def pending : User α → List (Frame α)
  | .consume input _ _ _ => input
  | .write input _ _ _ _ => input
  | .mark input _ _ _ => input
  | _ => []

/-- Whether that is the last. -/
def closing : User α → Bool
  | .consume _ final _ _ => final
  | .write _ final _ _ _ => final
  | .mark _ final _ _ => final
  | _ => false

/-- What is fixed in a turn of the user: nothing of the blocks is lost. -/
structure Keeps (s s' : Sys α σ ρ) (B B' : List (Frame α)) : Prop where
  blocks : B' ++ pending s'.user = B ++ pending s.user
  ended : (s'.finished || closing s'.user) = (s.finished || closing s.user)

omit [Zero α] in
theorem getD_set (l : List Nat) {c : Nat} (hc : c < l.length) (v : Nat) (d : Nat) : (l.set c v).getD d 0 = if d = c then v else l.getD d 0 := by
  simp only [List.getD_eq_getElem?_getD]
  by_cases e : d = c
  · subst e
    rw [List.getElem?_set_self hc, if_pos rfl]
    rfl
  · rw [List.getElem?_set_ne (by omega), if_neg e]

omit [Zero α] in
theorem lt_of_get {l : List (Worker α σ ρ)} {c : Nat} {w : Worker α σ ρ} (h : l[c]? = some w) : c < l.length := by
  rw [List.getElem?_eq_some_iff] at h
  exact h.1

/-- One channel is replaced and gives no less. -/
theorem still_set {ws : List (Worker α σ ρ)} {replies : List (Reply α)} {c : Nat} {w w' : Worker α σ ρ} (hc : ws[c]? = some w) (hq : w'.cd.outbuf = w.cd.outbuf)
    (h : Still r ws replies) : Still r (ws.set c w') replies := by
  intro d v hv
  rcases get_set hc hv with ⟨e1, e2⟩ | ⟨_, e⟩
  · subst e1 e2
    rw [hq]
    exact h d w hc
  · exact h d v e

/-- StretcherProcess.cpp:161. -/
theorem flow_consume [Add α] [Sub α] {input : List (Frame α)} {final : Bool} {used : List Nat} {c : Nat} {s' : Sys α σ ρ} (h : Flow p env z incs x₀ all s B g r)
    (hu : s.user = .consume input final used c) (hs : s.userStep p env z = some s') : ∃ B', Flow p env z incs x₀ all s' B' g r ∧ Keeps s s' B B' := by
  have hin := h.inputs
  have hout := h.outputs
  rw [hu] at hin hout
  unfold Sys.userStep at hs
  rw [hu] at hs
  simp only at hs
  split at hs
  · rename_i hn
    split at hs
    · rename_i hall
      cases hs
      have hfull : ∀ d, d < s.workers.length → used.getD d 0 = input.length := by
        intro d hd
        have h1 := (hin.count d hd).1
        have hd' : d < used.length := by rw [hin.length]; exact hd
        rw [List.all_eq_true] at hall
        have h2 := hall (used[d]) (List.getElem_mem hd')
        rw [List.getD_eq_getElem?_getD, List.getElem?_eq_getElem hd'] at h1 ⊢
        simp only [Option.getD_some, ge_iff_le, decide_eq_true_eq] at h1 h2 ⊢
        omega
      refine ⟨B ++ input, ⟨h.phase, ⟨hin.part, ?_, ?_⟩, hout⟩, ⟨by rw [hu]; exact List.append_nil _, by rw [hu, hin.finished]; show (final || false) = (false || final); simp⟩⟩
      · intro d hd
        rw [(hin.count d hd).2, hfull d hd, List.length_append]
      · intro hf d w hw
        have hd : d < s.workers.length := lt_of_get hw
        refine hin.marked d w hw ?_ hf (hfull d hd)
        rw [List.getElem?_eq_none_iff] at hn
        omega
    · cases hs
      refine ⟨B, ⟨h.phase, ⟨hin.finished, hin.part, hin.whole, hin.length, hin.count, fun d w hw hd => absurd hd (Nat.not_lt_zero _)⟩, hout⟩, ⟨by rw [hu]; rfl, by rw [hu]; rfl⟩⟩
  · rename_i w hw
    cases hs
    refine ⟨B, ⟨h.phase, ⟨hin, ?_⟩, hout⟩, ⟨by rw [hu]; rfl, by rw [hu]; rfl⟩⟩
    intro v hv
    have e : s.workers[c]? = some v := hv
    rw [hw] at e
    cases e
    exact le_refl _

theorem block_part [Add α] [Sub α] {input : List (Frame α)} {c n k : Nat} (h : B ++ input <+: all) (hn : n + k ≤ input.length) :
    ((input.drop n).take k).map (prepared p env c) = ((job p env z incs x₀ all c).X.drop (z.window / 2 + (B.length + n))).take k := by
  obtain ⟨t, ht⟩ := h
  show _ = ((padded z (all.map (prepared p env c))).drop (z.window / 2 + (B.length + n))).take k
  unfold padded
  have e : (List.replicate (z.window / 2) (0 : α) ++ all.map (prepared p env c)).drop (z.window / 2 + (B.length + n)) = (all.map (prepared p env c)).drop (B.length + n) := by
    have e2 := List.drop_length_add_append (B.length + n) (l₁ := List.replicate (z.window / 2) (0 : α)) (l₂ := all.map (prepared p env c))
    rw [List.length_replicate] at e2
    exact e2
  rw [e, ← ht, ← List.map_drop, ← List.map_take, List.append_assoc, List.drop_length_add_append, List.drop_append_of_le_length (by omega),
    List.take_append_of_le_length (by rw [List.length_drop]; omega)]

/-- StretcherProcess.cpp:241-258. -/
theorem flow_write [Add α] [Sub α] {input : List (Frame α)} {final : Bool} {used : List Nat} {c n : Nat} {s' : Sys α σ ρ} (h : Flow p env z incs x₀ all s B g r)
    (hu : s.user = .write input final used c n) (hs : s.userStep p env z = some s') : ∃ g', Flow p env z incs x₀ all s' B g' r ∧ Keeps s s' B B := by
  have hin := h.inputs
  have hout := h.outputs
  rw [hu] at hin hout
  obtain ⟨hin, hn⟩ := hin
  unfold Sys.userStep at hs
  rw [hu] at hs
  simp only at hs
  split at hs
  · cases hs
  · rename_i w hw
    cases hs
    have hcl := lt_of_get hw
    obtain ⟨c1, c2⟩ := hin.count c hcl
    have hwl := hn w hw
    have hph := h.phase c w hw
    have hcommon : Common (job p env z incs x₀ all c) w.cd (g c) := hph.1
    have hN : (job p env z incs x₀ all c).N = all.length := List.length_map ..
    have hlen : B.length + input.length ≤ all.length := by
      have := hin.part.length_le
      rw [List.length_append] at this
      exact this
    generalize hk : min n (input.length - used.getD c 0) = k
    have hk1 : used.getD c 0 + k ≤ input.length := by omega
    have hgrown := grown_write (n := k) hcommon (by
      rcases hcommon.size with e | ⟨_, e⟩
      · exact Or.inl e
      · right
        rw [hN] at e
        omega) (by omega) (by omega)
    have hX : (((job p env z incs x₀ all c).X.drop ((job p env z incs x₀ all c).z.window / 2 + g c)).take k) = ((input.drop (used.getD c 0)).take k).map (prepared p env c) := by
      rw [c2]
      exact (block_part hin.part hk1).symm
    rw [hX] at hgrown
    obtain ⟨cd, old, pc⟩ := w
    have hph' := hgrown.phase hph
    have hcount : cd.inCount = g c := hcommon.inCount
    have hul : c < used.length := by rw [hin.length]; exact hcl
    refine ⟨fun d => if d = c then g c + k else g d, ⟨?_, ?_, ?_⟩, ⟨by rw [hu]; rfl, by rw [hu]; rfl⟩⟩
    · intro d v hv
      rcases get_set hw hv with ⟨e1, e2⟩ | ⟨e0, e⟩
      · subst e1 e2
        simp only [if_pos, hcount]
        exact hph'
      · simp only [if_neg e0]
        exact h.phase d v e
    · refine ⟨hin.finished, hin.part, hin.whole, by simpa using hin.length, ?_, ?_⟩
      · intro d hd
        rw [getD_set _ hul]
        have hd' : d < s.workers.length := by simpa using hd
        have h1 := hin.count d hd'
        by_cases e : d = c
        · simp only [if_pos e]
          omega
        · simp only [if_neg e]
          exact h1
      · intro d v hv hd hf
        have hdc : d ≠ c := by omega
        rw [getD_set _ hul, if_neg hdc]
        rcases get_set hw hv with ⟨e1, _⟩ | ⟨_, e⟩
        · exact absurd e1 hdc
        · exact hin.marked d v e hd hf
    · exact still_set hw rfl hout

/-- R2Stretcher.cpp:1319-1328. -/
theorem flow_mark [Add α] [Sub α] {input : List (Frame α)} {final : Bool} {used : List Nat} {c : Nat} {s' : Sys α σ ρ} (h : Flow p env z incs x₀ all s B g r)
    (hu : s.user = .mark input final used c) (hs : s.userStep p env z = some s') : Flow p env z incs x₀ all s' B g r ∧ Keeps s s' B B := by
  have hin := h.inputs
  have hout := h.outputs
  rw [hu] at hin hout
  unfold Sys.userStep at hs
  rw [hu] at hs
  simp only at hs
  split at hs
  · cases hs
  · rename_i w hw
    have hcl := lt_of_get hw
    obtain ⟨c1, c2⟩ := hin.count c hcl
    cases hs
    have hN : (job p env z incs x₀ all c).N = all.length := List.length_map ..
    have hph := h.phase c w hw
    generalize hw' : (if used.getD c 0 ≥ input.length ∧ final = true then ({ w with cd := { w.cd with inputSize := some w.cd.inCount } } : Worker α σ ρ) else w) = w'
    have hq : w'.cd.outbuf = w.cd.outbuf := by
      rw [← hw']
      split <;> rfl
    have hm : final = true → used.getD c 0 = input.length → w'.cd.inputSize.isSome = true := by
      intro f e
      rw [← hw', if_pos ⟨e.ge, f⟩]
      rfl
    have hsome : w.cd.inputSize.isSome = true → w'.cd.inputSize.isSome = true := by
      intro e
      rw [← hw']
      split
      · rfl
      · exact e
    have hph' : Phase (job p env z incs x₀ all c) w' (g c) (r c) := by
      rw [← hw']
      split
      · rename_i hf
        obtain ⟨cd, old, pc⟩ := w
        have hcommon : Common (job p env z incs x₀ all c) cd (g c) := hph.1
        have hall := congrArg List.length (hin.whole hf.2)
        rw [List.length_append] at hall
        have hg : g c = (job p env z incs x₀ all c).N := by
          rw [hN]
          have := hf.1
          omega
        rw [hg] at hcommon hph ⊢
        have e := (grown_mark hcommon).phase hph
        rw [← hcommon.inCount] at e
        rw [hcommon.inCount] at e
        have hi := hcommon.inCount
        simp only [hi]
        exact e
      · exact hph
    refine ⟨⟨?_, ?_, still_set hw hq hout⟩, ⟨by rw [hu]; rfl, by rw [hu]; rfl⟩⟩
    · intro d v hv
      rcases get_set hw hv with ⟨e1, e2⟩ | ⟨_, e⟩
      · subst e1 e2
        exact hph'
      · exact h.phase d v e
    · refine ⟨hin.finished, hin.part, hin.whole, by simpa using hin.length, by simpa using hin.count, ?_⟩
      intro d v hv hd hf hd2
      rcases get_set hw hv with ⟨e1, e2⟩ | ⟨e0, e⟩
      · subst e1 e2
        exact hm hf hd2
      · exact hin.marked d v e (by omega) hf hd2

/-- StretcherProcess.cpp:1243-1265. -/
theorem flow_asking [Add α] [Sub α] (hz : z.pitchScale = 1) {c least : Nat} {q : Bool} {s' : Sys α σ ρ} (h : Flow p env z incs x₀ all s B g r)
    (hu : s.user = .asking c least q) (hs : s.userStep p env z = some s') : Flow p env z incs x₀ all s' B g r ∧ Keeps s s' B B := by
  have hin := h.inputs
  have hout := h.outputs
  rw [hu] at hin hout
  obtain ⟨hout, hl⟩ := hout
  unfold Sys.userStep at hs
  rw [hu] at hs
  simp only at hs
  split at hs
  · rename_i hn
    cases hs
    refine ⟨⟨h.phase, hin, ?_⟩, ⟨by rw [hu]; rfl, by rw [hu]; rfl⟩⟩
    intro d w hw
    refine ⟨(hout d w hw).1, ?_⟩
    have hd := lt_of_get hw
    rw [List.getElem?_eq_none_iff] at hn
    have h1 := hl d w hw (Nat.lt_of_lt_of_le hd hn)
    have h2 : (answer z s.workers least q).toNat ≤ least := by
      unfold answer
      split
      · exact Nat.zero_le _
      · simp
    exact le_trans h2 h1
  · rename_i w hw
    cases hs
    refine ⟨⟨h.phase, hin, ⟨hout, ?_⟩⟩, ⟨by rw [hu]; rfl, by rw [hu]; rfl⟩⟩
    intro d v hv hd
    have hv' : s.workers[d]? = some v := hv
    by_cases e : d = c
    · subst e
      rw [hw] at hv'
      cases hv'
      split
      · exact le_refl _
      · omega
    · have := hl d v hv' (by omega)
      split
      · omega
      · exact this

/-- StretcherProcess.cpp:1246. -/
theorem flow_asked [Add α] [Sub α] {c least : Nat} {q : Bool} {s' : Sys α σ ρ} (h : Flow p env z incs x₀ all s B g r)
    (hu : s.user = .asked c least q) (hs : s.userStep p env z = some s') : Flow p env z incs x₀ all s' B g r ∧ Keeps s s' B B := by
  have hin := h.inputs
  have hout := h.outputs
  rw [hu] at hin hout
  obtain ⟨hout, hl⟩ := hout
  unfold Sys.userStep at hs
  rw [hu] at hs
  simp only at hs
  split at hs
  · cases hs
  · cases hs
    exact ⟨⟨h.phase, hin, ⟨hout, fun d v hv hd => hl d v hv (Nat.le_of_lt_succ hd)⟩⟩, ⟨by rw [hu]; rfl, by rw [hu]; rfl⟩⟩

/-- StretcherProcess.cpp:1276-1301. -/
theorem flow_point [Add α] [Sub α] (hsep : (p.channelsTogether && decide (p.channels ≥ 2)) = false) {n got c : Nat} {outs : List (List α)} {s' : Sys α σ ρ}
    (h : Flow p env z incs x₀ all s B g r)
    (hu : s.user = .point n got c outs) (hs : s.userStep p env z = some s') : Flow p env z incs x₀ all s' B g r ∧ Keeps s s' B B := by
  have hin := h.inputs
  have hout := h.outputs
  rw [hu] at hin hout
  unfold Sys.userStep at hs
  rw [hu] at hs
  simp only [hsep] at hs
  split at hs
  · rename_i hn
    cases hs
    rw [List.getElem?_eq_none_iff] at hn
    refine ⟨⟨h.phase, hin, ?_⟩, ⟨by rw [hu]; rfl, by rw [hu]; rfl⟩⟩
    intro d w hw
    obtain ⟨a1, a2, a3⟩ := hout.read d w hw (Nat.lt_of_lt_of_le (lt_of_get hw) hn)
    refine ⟨?_, a3⟩
    show r d = heard d s.replies ++ (outs.getD d []).take got
    rw [List.take_of_length_le (by rw [a1, hout.got]), a2]
  · rename_i w hw
    cases hs
    refine ⟨⟨h.phase, hin, ⟨hout, ?_⟩⟩, ⟨by rw [hu]; rfl, by rw [hu]; rfl⟩⟩
    intro v hv
    have hv' : s.workers[c]? = some v := hv
    rw [hw] at hv'
    cases hv'
    rfl

/-- StretcherProcess.cpp:1276. -/
theorem flow_read [Add α] [Sub α] (calm : s.calm = true) {n got c place : Nat} {outs : List (List α)} {s' : Sys α σ ρ} (h : Flow p env z incs x₀ all s B g r)
    (hu : s.user = .read n got c outs place) (hs : s.userStep p env z = some s') : ∃ r', Flow p env z incs x₀ all s' B g r' ∧ Keeps s s' B B := by
  have hin := h.inputs
  have hout := h.outputs
  rw [hu] at hin hout
  obtain ⟨hout, hp⟩ := hout
  unfold Sys.calm at calm
  unfold Sys.userStep at hs
  rw [hu] at hs calm
  simp only at hs calm
  split at hs
  · cases hs
  · rename_i w hw
    have hcl := lt_of_get hw
    have hpl := hp w hw
    rw [hw] at calm
    have hb : w.bufAt place = w.cd.outbuf := by
      unfold Worker.bufAt
      rw [hpl, List.getElem?_eq_none (le_refl _)]
      rfl
    have hsb : w.setBuf place (w.cd.outbuf.skip got) = { w with cd := { w.cd with outbuf := w.cd.outbuf.skip got } } := by
      unfold Worker.setBuf
      rw [if_neg (by omega)]
    rw [hb, hsb] at hs
    cases hs
    obtain ⟨u1, u2⟩ := hout.unread c w hw (le_refl _)
    have hgot := hout.got
    have hheeds := hout.heeds
    have hlen : (w.cd.outbuf.peek got).length = got := by
      unfold Fifo.readSpace at u2
      unfold Fifo.peek
      rw [List.length_take]
      omega
    have hph := h.phase c w hw
    obtain ⟨cd, old, pc⟩ := w
    have hsw : ∀ x new, pc ≠ .swap x new := by
      intro x new e
      subst e
      simp [Worker.swapping] at calm
    have hph' := phase_read hph hsw got
    refine ⟨fun d => if d = c then r c ++ cd.outbuf.peek got else r d, ⟨?_, ?_, ?_⟩, ⟨by rw [hu]; rfl, by rw [hu]; rfl⟩⟩
    · intro d v hv
      rcases get_set hw hv with ⟨e1, e2⟩ | ⟨e0, e⟩
      · subst e1 e2
        simp only [if_pos]
        exact hph'
      · simp only [if_neg e0]
        exact h.phase d v e
    · refine ⟨hin.part, by simpa using hin.given, ?_⟩
      intro hf d v hv
      rcases get_set hw hv with ⟨e1, e2⟩ | ⟨e0, e⟩
      · subst e1 e2
        exact hin.marked hf d ⟨cd, old, pc⟩ hw
      · exact hin.marked hf d v e
    · show Taking _ _ _ n (if (cd.outbuf.peek got).length < got then _ else got) _ _
      rw [if_neg (by omega)]
      have hol := hout.length
      refine ⟨hgot, hheeds, by simp [hol], by rw [List.length_set]; exact hcl, ?_, ?_⟩
      · intro d v hv hd
        rcases get_set hw hv with ⟨e1, e2⟩ | ⟨e0, e⟩
        · subst e1 e2
          have e3 : (outs ++ [cd.outbuf.peek got]).getD d [] = cd.outbuf.peek got := by
            rw [List.getD_eq_getElem?_getD, List.getElem?_append_right (by omega), hol]
            simp
          rw [e3]
          refine ⟨hlen.trans hgot, by simp only [if_pos, u1], ?_⟩
          unfold Fifo.readSpace at u2 ⊢
          show _ ≤ (cd.outbuf.data.drop got).length
          rw [List.length_drop]
          show allowance s.replies - n ≤ _
          have u2' : allowance s.replies ≤ cd.outbuf.data.length := u2
          omega
        · have e3 : (outs ++ [cd.outbuf.peek got]).getD d [] = outs.getD d [] := by
            rw [List.getD_eq_getElem?_getD, List.getElem?_append_left (by omega), List.getD_eq_getElem?_getD]
          rw [e3]
          simp only [if_neg e0]
          exact hout.read d v e (by omega)
      · intro d v hv hd
        rcases get_set hw hv with ⟨e1, e2⟩ | ⟨e0, e⟩
        · omega
        · simp only [if_neg e0]
          exact hout.unread d v e (by omega)

/-- A turn of the user. -/
theorem flow_user [Add α] [Sub α] (hz : z.pitchScale = 1) (hsep : (p.channelsTogether && decide (p.channels ≥ 2)) = false) (calm : s.calm = true) {s' : Sys α σ ρ}
    (h : Flow p env z incs x₀ all s B g r) (hs : s.userStep p env z = some s') : ∃ B' g' r', Flow p env z incs x₀ all s' B' g' r' ∧ Keeps s s' B B' := by
  cases hu : s.user with
  | idle => unfold Sys.userStep at hs; rw [hu] at hs; cases hs
  | consume => obtain ⟨B', h1, h2⟩ := flow_consume h hu hs; exact ⟨B', g, r, h1, h2⟩
  | write => obtain ⟨g', h1, h2⟩ := flow_write h hu hs; exact ⟨B, g', r, h1, h2⟩
  | mark => obtain ⟨h1, h2⟩ := flow_mark h hu hs; exact ⟨B, g, r, h1, h2⟩
  | asking => obtain ⟨h1, h2⟩ := flow_asking hz h hu hs; exact ⟨B, g, r, h1, h2⟩
  | asked => obtain ⟨h1, h2⟩ := flow_asked h hu hs; exact ⟨B, g, r, h1, h2⟩
  | point => obtain ⟨h1, h2⟩ := flow_point hsep h hu hs; exact ⟨B, g, r, h1, h2⟩
  | read => obtain ⟨r', h1, h2⟩ := flow_read calm h hu hs; exact ⟨B, g, r', h1, h2⟩

/-! ## A whole run -/

/-- The rest of the input is what it should be. -/
def Fits (all : List (Frame α)) (s : Sys α σ ρ) (B : List (Frame α)) (es : List (Event α)) : Prop :=
  (s.finished || closing s.user) = true ∨ ((B ++ pending s.user) ++ given es <+: all ∧ (ends es = true → (B ++ pending s.user) ++ given es = all))

theorem flow_turn [Add α] [Sub α] (hJ : AllOk p env z incs x₀ all) (hz : z.pitchScale = 1) (hsep : (p.channelsTogether && decide (p.channels ≥ 2)) = false)
    {e : Event α} {es : List (Event α)} {s' : Sys α σ ρ} (h : Flow p env z incs x₀ all s B g r) (hf : Fits all s B (e :: es)) (calm : s.calm = true)
    (hh : s.heeds e = true) (hs : s.step p env z incs e = some s') : ∃ B' g' r', Flow p env z incs x₀ all s' B' g' r' ∧ Fits all s' B' es := by
  cases e with
  | call q =>
    unfold Sys.step at hs
    simp only at hs
    split at hs
    · rename_i hu
      cases hs
      refine ⟨B, g, r, flow_call h hu hh ?_, ?_⟩
      · intro input final hq hfin
        subst hq
        rcases hf with hf | ⟨f1, f2⟩
        · rw [hfin, hu] at hf
          cases hf
        · rw [hu] at f1 f2
          simp only [pending, List.append_nil, given, ends] at f1 f2
          cases final with
          | true =>
            simp only [if_true, Bool.true_or] at f1 f2
            exact ⟨f1, fun _ => f2 trivial⟩
          | false =>
            simp only [Bool.false_eq_true, if_false] at f1
            refine ⟨List.IsPrefix.trans ?_ f1, fun e => by cases e⟩
            rw [← List.append_assoc]
            exact List.prefix_append ..
      · cases q with
        | process input final =>
          unfold Sys.call
          simp only
          split
          · rename_i hfin
            left
            rw [hfin]
            rfl
          · rename_i hfin
            have hfin' : s.finished = false := by simpa using hfin
            rcases hf with hf | ⟨f1, f2⟩
            · rw [hfin', hu] at hf
              cases hf
            · cases final with
              | true => left; show (s.finished || true) = true; simp
              | false =>
                right
                rw [hu] at f1 f2
                simp only [pending, List.append_nil, given, ends, Bool.false_eq_true, if_false, Bool.false_or] at f1 f2 ⊢
                rw [List.append_assoc]
                exact ⟨f1, f2⟩
        | available =>
          rcases hf with hf | hf
          · left; rw [hu] at hf; exact hf
          · right; rw [hu] at hf; exact hf
        | retrieve n =>
          rcases hf with hf | hf
          · left; rw [hu] at hf; exact hf
          · right; rw [hu] at hf; exact hf
    · cases hs
  | user =>
    obtain ⟨B', g', r', h1, h2⟩ := flow_user hz hsep calm h hs
    refine ⟨B', g', r', h1, ?_⟩
    unfold Fits
    rw [h2.ended, h2.blocks]
    exact hf
  | thread c =>
    unfold Sys.step at hs
    simp only at hs
    obtain ⟨w, hw, hs⟩ := Option.bind_eq_some_iff.mp hs
    obtain ⟨w', h1, h2, _⟩ := flow_thread hJ h calm hw
    rw [h1] at hs
    cases hs
    exact ⟨B, g, r, h2, hf⟩

theorem flow_run [Add α] [Sub α] (hJ : AllOk p env z incs x₀ all) (hz : z.pitchScale = 1) (hsep : (p.channelsTogether && decide (p.channels ≥ 2)) = false)
    (es : List (Event α)) : ∀ {s s' : Sys α σ ρ} {B : List (Frame α)} {g : Nat → Nat} {r : Nat → List α}, Flow p env z incs x₀ all s B g r → Fits all s B es →
    s.calmly p env z incs es = true → s.heeding p env z incs es = true → s.run p env z incs es = some s' →
    ∃ B' g' r', Flow p env z incs x₀ all s' B' g' r' ∧ Fits all s' B' [] := by
  induction es with
  | nil =>
    intro s s' B g r h hf _ _ hs
    unfold Sys.run at hs
    cases hs
    exact ⟨B, g, r, h, hf⟩
  | cons e es ih =>
    intro s s' B g r h hf hc hh hs
    unfold Sys.run at hs
    obtain ⟨t, ht, hs⟩ := Option.bind_eq_some_iff.mp hs
    unfold Sys.calmly at hc
    unfold Sys.heeding at hh
    rw [ht] at hc hh
    simp only [Bool.and_eq_true] at hc hh
    obtain ⟨B', g', r', h1, h2⟩ := flow_turn hJ hz hsep h hf hc.1 hh.1 ht
    exact ih h1 h2 hc.2 hh.2 hs

end
end
end Verif.R2.Threads
