import Verif.R2Offline
/-!
# The faster engine offline: histories
-/
namespace Verif.R2
open Verif.Round Verif.StretchCalc

variable {α σ ρ κ : Type}

/-- The length the output is to have, for `n` samples of input. -/
def target (z : Sizes) (n : Nat) : Nat := (lrint ((n : Rat) * z.timeRatio)).toNat

/-- What is assumed of an input of `n` samples: what the frames that fit in it give is not more than is to be heard (and the half window that is
left out). -/
structure Good (p : Params) (z : Sizes) (incs : List Int) (n : Nat) : Prop where
  early : ∀ j, (∀ i, i < j → i * z.increment + z.window ≤ z.window / 2 + n) → spent z incs j ≤ startSkip p z + target z n

/-- The (padded) input of a channel. -/
def padded [Zero α] (z : Sizes) (input : List α) : List α := List.replicate (z.window / 2) 0 ++ input

theorem padded_length [Zero α] (z : Sizes) (input : List α) : (padded z input).length = z.window / 2 + input.length := by
  unfold padded; simp

/-- All that is to be heard. -/
def output [Zero α] (p : Params) (env : Env α σ ρ κ) (z : Sizes) (incs : List Int) (x₀ : Syn α σ) (input : List α) : List α :=
  (hearDrain env z incs (startSkip p z) (target z input.length) (synAt env z incs x₀ (padded z input) (frames z input.length)).1.fill
    (synAt env z incs x₀ (padded z input) (frames z input.length)).1
    (hearAt env z incs x₀ (startSkip p z) (target z input.length) (padded z input) (frames z input.length))).1

/-- If no piece is longer than the whole is to be: all that is made, the beginning left out, and as much of it as is to be heard. -/
theorem output_fits [Zero α] (p : Params) (env : Env α σ ρ κ) {z : Sizes} {incs : List Int} (x₀ : Syn α σ) (input : List α) (hT : Fits z incs (target z input.length))
    (h1 : 1 ≤ z.increment) : output p env z incs x₀ input = ((emission env z incs x₀ input).drop (startSkip p z)).take (target z input.length) := by
  have hT1 : 1 ≤ target z input.length := le_trans h1 hT.inc
  unfold output
  rw [hearAt_fits env hT hT1, hearDrain_fits env hT hT1]
  rfl

section
variable [Zero α] [Add α] [Sub α] {p : Params} {env : Env α σ ρ κ} {z : Sizes} {incs : List Int}

theorem running_consume {x₀ : Syn α σ} {cd : Chan α σ ρ} {r I : List α} {j : Nat} (h : Running p env z incs x₀ cd r (padded z I) j) (c : Nat)
    (rest : List (Frame α)) :
    Running p env z incs x₀ (consumePlain p env c cd rest).1 r
      (padded z (I ++ (rest.take (min cd.inbuf.writeSpace rest.length)).map (prepared p env c))) j ∧
      (consumePlain p env c cd rest).1.inbuf.cap = cd.inbuf.cap := by
  unfold consumePlain
  simp only
  generalize hY : (rest.take (min cd.inbuf.writeSpace rest.length)).map (prepared p env c) = Y
  have hlen : Y.length = min cd.inbuf.writeSpace rest.length := by rw [← hY]; simp
  have hp' : padded z (I ++ Y) = padded z I ++ Y := by unfold padded; rw [List.append_assoc]
  have hsyn := synAt_append env z incs x₀ (padded z I) Y j h.full
  rw [← hp'] at hsyn
  have hl : (padded z (I ++ Y)).length = (padded z I).length + Y.length := by rw [hp', List.length_append]
  refine ⟨⟨?_, ?_, ?_, ?_, ?_, h.inputSize, h.draining, h.complete, h.room, ?_, ?_⟩, rfl⟩
  · unfold Fifo.write
    simp only
    rw [List.take_of_length_le (by omega), h.data, hp', List.drop_append_of_le_length h.le]
  · have := h.le; omega
  · rw [hsyn]; exact h.syn
  · rw [hsyn]; exact h.heard
  · rw [hsyn]; exact h.outCount
  · have := h.inCount
    simp only
    omega
  · intro i hi
    have := h.full i hi
    omega

/-- A channel in a call of `process`: `B` has been given before, `used` of the block has been taken. -/
inductive Stage (p : Params) (env : Env α σ ρ κ) (z : Sizes) (incs : List Int) (x₀ : Nat → Syn α σ) (r : Nat → List α) (B input : List (Frame α)) (final : Bool)
    (c : Nat) : Chan α σ ρ × Nat → Prop where
  | running (cd : Chan α σ ρ) (used j : Nat) (h : Running p env z incs (x₀ c) cd (r c) (padded z ((B ++ input.take used).map (prepared p env c))) j)
      (small : cd.inbuf.data.length < z.window) (cap : z.window ≤ cd.inbuf.cap) (le : used ≤ input.length) : Stage p env z incs x₀ r B input final c (cd, used)
  | ended (cd : Chan α σ ρ) (h : Ended z cd (output p env z incs (x₀ c) ((B ++ input).map (prepared p env c))) (r c)) (hf : final = true) :
      Stage p env z incs x₀ r B input final c (cd, input.length)

/-- After a round: more has been taken, and at the end all is given. -/
structure Next (p : Params) (env : Env α σ ρ κ) (z : Sizes) (incs : List Int) (x₀ : Nat → Syn α σ) (r : Nat → List α) (B input : List (Frame α)) (final : Bool)
    (used c : Nat) (y : Chan α σ ρ × Nat) : Prop where
  stage : Stage p env z incs x₀ r B input final c y
  more : used < y.2 ∨ y.2 = input.length
  fin : y.2 = input.length → final = true → Ended z y.1 (output p env z incs (x₀ c) ((B ++ input).map (prepared p env c))) (r c)
  open_ : final = false → ∃ j, Running p env z incs (x₀ c) y.1 (r c) (padded z ((B ++ input.take y.2).map (prepared p env c))) j ∧
    y.1.inbuf.data.length < z.window ∧ z.window ≤ y.1.inbuf.cap

theorem stage_round (hp : Fine p z incs) {x₀ : Nat → Syn α σ} (h0 : ∀ c, (x₀ c).count = 0 ∧ (x₀ c).fill ≤ z.window) {r : Nat → List α} {B input : List (Frame α)} {final : Bool}
    (hg : final = true → Good p z incs (B.length + input.length)) {c : Nat} {cd : Chan α σ ρ} {used : Nat}
    (h : Stage p env z incs x₀ r B input final c (cd, used)) :
    ∃ y, channelRound p env z incs c input final cd used = some y ∧ Next p env z incs x₀ r B input final used c y := by
  have hinc := hp.inc
  have hwin := hp.window
  cases h with
  | ended cd h hf =>
    obtain ⟨cd', a1, a2⟩ := ended_loop (env := env) hp (cd := { cd with inbuf := cd.inbuf.write [], inputSize := some cd.inCount }) (heard := _) (r := r c)
      ⟨h.heard, rfl, h.draining, h.complete, h.fill⟩ ((cd.inbuf.write []).readSpace + cd.accumulatorFill + z.window + 2)
    refine ⟨(cd', input.length), ?_, ⟨.ended cd' a2 hf, Or.inr rfl, fun _ _ => a2, fun e => absurd (e.symm.trans hf) (by decide)⟩⟩
    unfold channelRound consumeChannel
    rw [hp.plain.before]
    simp only [Bool.false_eq_true, if_false, Option.bind_eq_bind, Option.bind_some]
    unfold consumePlain
    simp only [List.drop_length, List.length_nil, Nat.min_zero, List.take_nil, List.map_nil, Nat.add_zero, ge_iff_le, Nat.le_refl, hf, and_self, if_true,
      hp.plain.offline, Bool.false_eq_true, if_false]
    unfold processChunks
    rw [a1]
    rfl
  | running cd used j h small cap le =>
    obtain ⟨b1, b2⟩ := running_consume h c (input.drop used)
    have hws : 1 ≤ cd.inbuf.writeSpace := by unfold Fifo.writeSpace; omega
    unfold channelRound consumeChannel
    rw [hp.plain.before]
    simp only [Bool.false_eq_true, if_false, Option.bind_eq_bind, Option.bind_some, hp.plain.offline]
    have hn : (consumePlain p env c cd (input.drop used)).2 = min cd.inbuf.writeSpace (input.length - used) := by
      unfold consumePlain; simp only [List.length_drop]
    rw [hn]
    generalize hN : min cd.inbuf.writeSpace (input.length - used) = N at *
    have hI : (B ++ input.take used).map (prepared p env c) ++ ((input.drop used).take (min cd.inbuf.writeSpace (input.drop used).length)).map (prepared p env c) =
        (B ++ input.take (used + N)).map (prepared p env c) := by
      rw [← List.map_append, List.append_assoc, List.length_drop, hN, ← List.take_add]
    rw [hI] at b1
    generalize (consumePlain p env c cd (input.drop used)).1 = d at b1 b2 ⊢
    by_cases hend : used + N ≥ input.length ∧ final = true
    · rw [if_pos hend]
      obtain ⟨he, hf⟩ := hend
      have hused : used + N = input.length := by omega
      have htake : input.take (used + N) = input := List.take_of_length_le (by omega)
      rw [htake] at b1
      have hlen : ((B ++ input).map (prepared p env c)).length = B.length + input.length := by simp
      have hX := padded_length z ((B ++ input).map (prepared p env c))
      rw [hlen] at hX
      have hcount : d.inCount = B.length + input.length := by have := b1.inCount; omega
      have good := hg hf
      obtain ⟨f1, f2, _⟩ := synAt_facts env (incs := incs) (h0 c).1 (h0 c).2 (padded z ((B ++ input).map (prepared p env c))) j
      have hearly := good.early j (by rw [← hX]; exact b1.full)
      have hE : Ending p env z incs (x₀ c) (target z (B.length + input.length)) { d with inputSize := some d.inCount } (r c)
          (padded z ((B ++ input).map (prepared p env c))) j := by
        refine ⟨b1.data, b1.syn, ?_, ?_, ?_, rfl, b1.draining, b1.complete, b1.room, ?_⟩
        · rw [hearAt_early env (h0 c).1 (h0 c).2 _ _ _ _ hearly]
          exact b1.heard
        · rw [hearAt_early env (h0 c).1 (h0 c).2 _ _ _ _ hearly]
          exact b1.outCount
        · unfold theoreticalOut target
          simp only [hcount]
        · intro i hi
          have := b1.full i hi
          omega
      have hfill : d.accumulatorFill ≤ z.window := by
        have e : d.accumulatorFill = (synAt env z incs (x₀ c) (padded z ((B ++ input).map (prepared p env c))) j).1.fill := congrArg Syn.fill b1.syn
        rw [e]; exact f2
      have hdl : d.inbuf.data.length = (padded z ((B ++ input).map (prepared p env c))).length - j * z.increment := by rw [b1.data, List.length_drop]
      have hhalf : z.window / 2 ≤ d.inbuf.data.length := by
        rcases Nat.eq_zero_or_pos j with hj | hj
        · rw [hdl, hj, hX]; omega
        · have := b1.full (j - 1) (by omega)
          have hm : j * z.increment = (j - 1) * z.increment + z.increment := by
            obtain ⟨k, rfl⟩ : ∃ k, j = k + 1 := ⟨j - 1, by omega⟩
            rw [Nat.succ_mul]; rfl
          omega
      obtain ⟨cd', e1, e2⟩ := ending_loop (env := env) hp hX (d.inbuf.data.length + d.accumulatorFill + z.window + 3)
        { d with inputSize := some d.inCount } j hE hfill (Or.inl hhalf) (by show d.inbuf.data.length + z.window + 1 < _; omega)
      have hout : Ended z cd' (output p env z incs (x₀ c) ((B ++ input).map (prepared p env c))) (r c) := by
        unfold output
        rw [hlen]
        exact e2
      refine ⟨(cd', used + N), ?_, ⟨?_, Or.inr hused, fun _ _ => hout, fun e => absurd (e.symm.trans hf) (by decide)⟩⟩
      · unfold processChunks Fifo.readSpace
        simp only [e1]
        rfl
      · rw [hused]
        exact .ended cd' hout hf
    · rw [if_neg hend]
      obtain ⟨cd', j', e1, e2, e3, e4⟩ := running_loop (env := env) hp (d.inbuf.data.length + d.accumulatorFill + z.window + 3) d j b1 (by omega)
      refine ⟨(cd', used + N), ?_, ⟨.running cd' (used + N) j' e2 e4 (by rw [e3, b2]; exact cap) (by omega), by omega, ?_, fun _ => ⟨j', e2, e4, by rw [e3, b2]; exact cap⟩⟩⟩
      · unfold processChunks Fifo.readSpace
        rw [e1]
        rfl
      · intro h1 h2
        exact absurd ⟨by simp only at h1; omega, h2⟩ hend

/-! ## All channels -/

omit [Zero α] in
theorem channelsRound_spec {input : List (Frame α)} {final : Bool} {P Q : Nat → Chan α σ ρ × Nat → Prop}
    (step : ∀ c cd used, P c (cd, used) → ∃ y, channelRound p env z incs c input final cd used = some y ∧ Q c y) : ∀ (l : List (Chan α σ ρ × Nat)) (c : Nat),
    (∀ (k : Nat) x, l[k]? = some x → P (c + k) x) → ∃ l', channelsRound p env z incs input final c l = some l' ∧ l'.length = l.length ∧
      ∀ (k : Nat) y, l'[k]? = some y → Q (c + k) y := by
  intro l
  induction l with
  | nil =>
    intro c _
    exact ⟨[], rfl, rfl, fun k y h => by simp at h⟩
  | cons x l ih =>
    intro c h
    obtain ⟨cd, used⟩ := x
    obtain ⟨y, a1, a2⟩ := step c cd used (h 0 _ rfl)
    obtain ⟨l', b1, b2, b3⟩ := ih (c + 1) (fun k x hx => by
      have := h (k + 1) x (by simpa using hx)
      rwa [show c + 1 + k = c + (k + 1) by omega])
    refine ⟨y :: l', ?_, by simp [b2], ?_⟩
    · unfold channelsRound
      rw [a1]
      simp only [Option.bind_eq_bind, Option.bind_some, b1]
      rfl
    · intro k w hw
      cases k with
      | zero =>
        simp only [List.getElem?_cons_zero, Option.some.injEq] at hw
        rw [← hw]
        exact a2
      | succ k =>
        simp only [List.getElem?_cons_succ] at hw
        have := b3 k w hw
        rwa [show c + 1 + k = c + (k + 1) by omega] at this

/-- The state in a call of `process`, `k` rounds done. -/
structure In (p : Params) (env : Env α σ ρ κ) (z : Sizes) (incs : List Int) (x₀ : Nat → Syn α σ) (r : Nat → List α) (B input : List (Frame α)) (final : Bool)
    (k : Nat) (s : State α σ ρ κ) (used : List Nat) : Prop where
  sizes : s.sizes = z
  profile : s.outputIncrements = incs
  mode : s.mode = .processing
  length : s.chans.length = p.channels
  usedLen : used.length = s.chans.length
  stage : ∀ (c : Nat) x, (s.chans.zip used)[c]? = some x → Stage p env z incs x₀ r B input final c x
  more : ∀ n ∈ used, k ≤ n ∨ n = input.length

/-- What a channel is like between calls. -/
def Between (p : Params) (env : Env α σ ρ κ) (z : Sizes) (incs : List Int) (x₀ : Syn α σ) (r : List α) (I : List α) (ended : Bool) (cd : Chan α σ ρ) : Prop :=
  if ended then Ended z cd (output p env z incs x₀ I) r
  else ∃ j, Running p env z incs x₀ cd r (padded z I) j ∧ cd.inbuf.data.length < z.window ∧ z.window ≤ cd.inbuf.cap

/-- The state between calls: `B` has been given, `r` has been retrieved. -/
structure Flow (p : Params) (env : Env α σ ρ κ) (z : Sizes) (incs : List Int) (x₀ : Nat → Syn α σ) (r : Nat → List α) (B : List (Frame α)) (ended : Bool)
    (s : State α σ ρ κ) : Prop where
  sizes : s.sizes = z
  profile : s.outputIncrements = incs
  mode : s.mode = if ended then .finished else .processing
  length : s.chans.length = p.channels
  chans : ∀ (c : Nat) cd, s.chans[c]? = some cd → Between p env z incs (x₀ c) (r c) (B.map (prepared p env c)) ended cd

theorem round_in (hp : Fine p z incs) {x₀ : Nat → Syn α σ} (h0 : ∀ c, (x₀ c).count = 0 ∧ (x₀ c).fill ≤ z.window) {r : Nat → List α} {B input : List (Frame α)} {final : Bool}
    (hg : final = true → Good p z incs (B.length + input.length)) {k : Nat} {s : State α σ ρ κ} {used : List Nat}
    (h : In p env z incs x₀ r B input final k s used) :
    ∃ s' used', processRound p env input final s used = some (s', used') ∧ In p env z incs x₀ r B input final (k + 1) s' used' ∧
      ∀ (c : Nat) x, (s'.chans.zip used')[c]? = some x → ∃ u, Next p env z incs x₀ r B input final u c x := by
  obtain ⟨l', a1, a2, a3⟩ := channelsRound_spec (p := p) (env := env) (z := z) (incs := incs) (input := input) (final := final)
    (P := fun c x => Stage p env z incs x₀ r B input final c x ∧ (k ≤ x.2 ∨ x.2 = input.length))
    (Q := fun c y => (∃ u, Next p env z incs x₀ r B input final u c y) ∧ (k + 1 ≤ y.2 ∨ y.2 = input.length))
    (by
      intro c cd used hx
      obtain ⟨y, b1, b2⟩ := stage_round (env := env) hp h0 hg hx.1
      refine ⟨y, b1, ⟨used, b2⟩, ?_⟩
      rcases b2.more with hm | hm
      · rcases hx.2 with hk | hk
        · left; simp only at hk; omega
        · simp only at hk
          right
          have : y.2 ≤ input.length := by
            have := b2.stage
            cases this with
            | running cd used j h small cap le => exact le
            | ended cd h hf => exact le_refl _
          omega
      · exact Or.inr hm)
    (s.chans.zip used) 0 (by
      intro c x hx
      rw [Nat.zero_add]
      refine ⟨h.stage c x hx, ?_⟩
      have := List.mem_of_getElem? hx
      obtain ⟨cd, n⟩ := x
      exact h.more n (List.of_mem_zip this).2)
  have hzip : ∀ l : List (Chan α σ ρ × Nat), (l.map fun x => x.1).zip (l.map fun x => x.2) = l := by
    intro l
    induction l with
    | nil => rfl
    | cons x l ih => simp only [List.map_cons, List.zip_cons_cons, ih]
  have hl : l'.length = p.channels := by rw [a2, List.length_zip, h.usedLen, Nat.min_self, h.length]
  refine ⟨{ s with chans := l'.map fun x => x.1 }, l'.map fun x => x.2, ?_, ⟨h.sizes, h.profile, h.mode, ?_, ?_, ?_, ?_⟩, ?_⟩
  · unfold processRound
    rw [h.sizes, h.profile, a1]
    simp only [Option.bind_eq_bind, Option.bind_some, hp.plain.offline, Bool.false_eq_true, if_false, Option.pure_def]
  · simp only [List.length_map]; exact hl
  · simp only [List.length_map]
  · intro c x hx
    simp only [hzip] at hx
    obtain ⟨⟨u, hn⟩, _⟩ := a3 c x hx
    rw [Nat.zero_add] at hn
    exact hn.stage
  · intro n hn
    obtain ⟨y, hy, e⟩ := List.mem_map.mp hn
    obtain ⟨c, hc⟩ := List.mem_iff_getElem?.mp hy
    rw [← e]
    exact (a3 c y hc).2
  · intro c x hx
    simp only [hzip] at hx
    obtain ⟨hn, _⟩ := a3 c x hx
    rwa [Nat.zero_add] at hn

theorem loop_in (hp : Fine p z incs) {x₀ : Nat → Syn α σ} (h0 : ∀ c, (x₀ c).count = 0 ∧ (x₀ c).fill ≤ z.window) {r : Nat → List α} {B input : List (Frame α)} {final : Bool}
    (hg : final = true → Good p z incs (B.length + input.length)) : ∀ (fuel k : Nat) (s : State α σ ρ κ) (used : List Nat),
    In p env z incs x₀ r B input final k s used → input.length + 1 ≤ fuel + k → 1 ≤ fuel →
    ∃ s', processLoop p env input final fuel s used = some s' ∧ s'.sizes = z ∧ s'.outputIncrements = incs ∧ s'.mode = .processing ∧
      s'.chans.length = p.channels ∧ ∀ (c : Nat) cd, s'.chans[c]? = some cd →
        Between p env z incs (x₀ c) (r c) ((B ++ input).map (prepared p env c)) final cd := by
  intro fuel
  induction fuel with
  | zero => intro k s used _ _ h; omega
  | succ fuel ih =>
    intro k s used h hk hf
    obtain ⟨s', used', a1, a2, a3⟩ := round_in (env := env) hp h0 hg h
    unfold processLoop
    rw [a1]
    simp only [Option.bind_some]
    split
    · rename_i hall
      refine ⟨s', rfl, a2.sizes, a2.profile, a2.mode, a2.length, ?_⟩
      intro c cd hc
      have hcl : c < s'.chans.length := by
        rw [List.getElem?_eq_some_iff] at hc
        exact hc.1
      have hu : c < used'.length := by rw [a2.usedLen]; exact hcl
      have hzip : (s'.chans.zip used')[c]? = some (cd, used'[c]) := by
        rw [List.getElem?_zip_eq_some]
        exact ⟨hc, List.getElem?_eq_getElem hu⟩
      obtain ⟨u, hn⟩ := a3 c _ hzip
      have hge : used'[c] ≥ input.length := by
        have := List.all_eq_true.mp hall used'[c] (List.getElem_mem hu)
        simpa using this
      have hle : used'[c] ≤ input.length := by
        have hst := hn.stage
        generalize used'[c] = n at hst
        cases hst with
        | running cd used j h small cap le => exact le
        | ended cd h hf => exact le_refl _
      have heq : used'[c] = input.length := by omega
      unfold Between
      cases hfin : final with
      | true => exact hn.fin heq hfin
      | false =>
        obtain ⟨j, c1, c2, c3⟩ := hn.open_ hfin
        refine ⟨j, ?_, c2, c3⟩
        simp only [heq, List.take_length] at c1
        exact c1
    · rename_i hall
      refine ih (k + 1) s' used' a2 (by omega) ?_
      by_contra hc
      apply hall
      rw [List.all_eq_true]
      intro n hn
      rcases a2.more n hn with hm | hm
      · simp only [ge_iff_le, decide_eq_true_eq]; omega
      · simp [hm]

theorem flow_process (hp : Fine p z incs) {x₀ : Nat → Syn α σ} (h0 : ∀ c, (x₀ c).count = 0 ∧ (x₀ c).fill ≤ z.window) {r : Nat → List α} {B input : List (Frame α)} {final : Bool}
    (hg : final = true → Good p z incs (B.length + input.length)) {s : State α σ ρ κ} (h : Flow p env z incs x₀ r B false s) :
    ∃ s', process p env s input final = some s' ∧ Flow p env z incs x₀ r (B ++ input) final s' := by
  have hm : s.mode = .processing := h.mode
  obtain ⟨s', a1, a2, a3, a4, a5, a6⟩ := loop_in (env := env) (r := r) hp h0 hg (rounds s input) 0 s (List.replicate s.chans.length 0) (by
    refine ⟨h.sizes, h.profile, hm, h.length, by simp, ?_, fun n _ => Or.inl (Nat.zero_le _)⟩
    intro c x hx
    obtain ⟨cd, n⟩ := x
    obtain ⟨b1, b2⟩ := List.getElem?_zip_eq_some.mp hx
    have hn : n = 0 := List.eq_of_mem_replicate (List.mem_of_getElem? b2)
    subst hn
    obtain ⟨j, c1, c2, c3⟩ := h.chans c cd b1
    refine .running cd 0 j ?_ c2 c3 (Nat.zero_le _)
    rw [List.take_zero, List.append_nil]
    exact c1) (by
      unfold rounds
      have : input.length + 2 ≤ (input.length + 2) * ((s.chans.map fun cd => cd.inbuf.cap).foldl max 0 + 2) := Nat.le_mul_of_pos_right _ (by omega)
      omega) (by
      unfold rounds
      have : input.length + 2 ≤ (input.length + 2) * ((s.chans.map fun cd => cd.inbuf.cap).foldl max 0 + 2) := Nat.le_mul_of_pos_right _ (by omega)
      omega)
  refine ⟨{ s' with mode := if final then .finished else s'.mode }, ?_, ⟨a2, a3, ?_, a5, a6⟩⟩
  · unfold process
    rw [if_neg (by rw [hm]; decide)]
    have hpro : prologue env s = some s := by unfold prologue; rw [hm]
    rw [hpro]
    simp only [Option.bind_eq_bind, Option.bind_some, a1]
    rfl
  · simp only [a4]

/-! ## Output -/

omit [Zero α] [Add α] [Sub α] in
theorem readChannels_spec : ∀ (l : List (Chan α σ ρ)) (n : Nat), (readChannels l n).1.length = l.length ∧
    ∀ (c : Nat) cd, (readChannels l n).1[c]? = some cd → ∃ d m, l[c]? = some d ∧ cd = { d with outbuf := d.outbuf.skip m } ∧
      (readChannels l n).2.1.getD c [] = d.outbuf.peek m := by
  intro l
  induction l with
  | nil => intro n; exact ⟨rfl, fun c cd h => by simp [readChannels] at h⟩
  | cons d l ih =>
    intro n
    unfold readChannels
    simp only
    obtain ⟨a1, a3⟩ := ih (if (d.outbuf.peek n).length < n then (d.outbuf.peek n).length else n)
    refine ⟨by simp [a1], ?_⟩
    intro c cd hc
    cases c with
    | zero =>
      simp only [List.getElem?_cons_zero, Option.some.injEq] at hc
      exact ⟨d, n, rfl, hc.symm, by simp only [List.getD_cons_zero]⟩
    | succ c =>
      simp only [List.getElem?_cons_succ] at hc
      obtain ⟨e, m, b1, b2, b3⟩ := a3 c cd hc
      exact ⟨e, m, by simpa using b1, b2, by simpa using b3⟩

/-- What has been retrieved of channel `c`. -/
def delivered (outs : List (List (List α))) (c : Nat) : List α := (outs.map fun o => o.getD c []).flatten

omit [Add α] [Sub α] in
theorem between_retrieve {x₀ : Syn α σ} {r I : List α} {ended : Bool} {d : Chan α σ ρ} (h : Between p env z incs x₀ r I ended d) (m : Nat) :
    Between p env z incs x₀ (r ++ d.outbuf.peek m) I ended { d with outbuf := d.outbuf.skip m } := by
  have hq : d.outbuf.peek m ++ (d.outbuf.skip m).data = d.outbuf.data := by unfold Fifo.peek Fifo.skip; simp
  unfold Between at h ⊢
  cases ended with
  | true =>
    simp only [if_true] at h ⊢
    refine ⟨?_, h.inputSize, h.draining, h.complete, h.fill⟩
    rw [List.append_assoc, hq]
    exact h.heard
  | false =>
    simp only [Bool.false_eq_true, if_false] at h ⊢
    obtain ⟨j, a1, a2, a3⟩ := h
    refine ⟨j, ⟨a1.data, a1.le, a1.syn, ?_, a1.outCount, a1.inputSize, a1.draining, a1.complete, ⟨?_, a1.room.cap⟩, a1.inCount, a1.full⟩, a2, a3⟩
    · rw [List.append_assoc, hq]
      exact a1.heard
    · have := a1.room.fits
      unfold Fifo.skip
      simp only [List.length_drop]
      omega

theorem flow_retrieve (hsep : (p.channelsTogether && decide (p.channels ≥ 2)) = false) {x₀ : Nat → Syn α σ} {r : Nat → List α} {B : List (Frame α)} {ended : Bool}
    {s : State α σ ρ κ} (h : Flow p env z incs x₀ r B ended s) (n : Nat) :
    Flow p env z incs x₀ (fun c => r c ++ (retrieve p s n).2.1.getD c []) B ended (retrieve p s n).1 := by
  obtain ⟨a1, a2⟩ := readChannels_spec s.chans n
  unfold retrieve
  simp only [hsep, Bool.false_eq_true, if_false]
  refine ⟨h.sizes, h.profile, h.mode, a1.trans h.length, ?_⟩
  intro c cd hc
  obtain ⟨d, m, b1, b2, b3⟩ := a2 c cd hc
  rw [b2, b3]
  exact between_retrieve (h.chans c d b1) m

omit [Add α] [Sub α] in
theorem between_processChunks (hp : Fine p z incs) {x₀ : Syn α σ} {r I : List α} {cd : Chan α σ ρ} (h : Between p env z incs x₀ r I true cd) :
    ∃ cd', processChunks p env z incs cd = some cd' ∧ Between p env z incs x₀ r I true cd' := by
  unfold Between at h ⊢
  simp only [if_true] at h ⊢
  exact ended_loop hp h _

omit [Add α] [Sub α] in
theorem finishEach_spec (hp : Fine p z incs) {x₀ : Nat → Syn α σ} {r : Nat → List α} {I : Nat → List α} : ∀ (l : List (Chan α σ ρ)) (c₀ : Nat),
    (∀ (c : Nat) cd, l[c]? = some cd → Between p env z incs (x₀ (c₀ + c)) (r (c₀ + c)) (I (c₀ + c)) true cd) →
    ∃ l', finishEach p env z incs l = some l' ∧ l'.length = l.length ∧
      ∀ (c : Nat) cd, l'[c]? = some cd → Between p env z incs (x₀ (c₀ + c)) (r (c₀ + c)) (I (c₀ + c)) true cd := by
  intro l
  induction l with
  | nil => intro c₀ _; exact ⟨[], rfl, rfl, fun c cd h => by simp at h⟩
  | cons d l ih =>
    intro c₀ h
    obtain ⟨l', b1, b2, b3⟩ := ih (c₀ + 1) (fun c cd hc => by
      have := h (c + 1) cd (by simpa using hc)
      rwa [show c₀ + 1 + c = c₀ + (c + 1) by omega])
    have h0 := h 0 d rfl
    obtain ⟨d', e1, e2⟩ := between_processChunks hp h0
    have key : ∃ d'', (if d.inbuf.readSpace > 0 then processChunks p env z incs d else some d) = some d'' ∧
        Between p env z incs (x₀ (c₀ + 0)) (r (c₀ + 0)) (I (c₀ + 0)) true d'' := by
      split
      · exact ⟨d', e1, e2⟩
      · exact ⟨d, rfl, h0⟩
    obtain ⟨d'', f1, f2⟩ := key
    refine ⟨d'' :: l', ?_, by simp [b2], ?_⟩
    · unfold finishEach
      have : ∀ x : Option (Chan α σ ρ), x = some d'' → (x.bind fun cd => (finishEach p env z incs l).bind fun cds => some (cd :: cds)) = some (d'' :: l') := by
        intro x hx
        rw [hx, Option.bind_some, b1, Option.bind_some]
      rw [← this _ f1]
      simp only
      split <;> rfl
    · intro c cd hc
      cases c with
      | zero =>
        simp only [List.getElem?_cons_zero, Option.some.injEq] at hc
        rw [← hc]; exact f2
      | succ c =>
        simp only [List.getElem?_cons_succ] at hc
        have := b3 c cd hc
        rwa [show c₀ + 1 + c = c₀ + (c + 1) by omega] at this

theorem flow_available (hp : Fine p z incs) {x₀ : Nat → Syn α σ} {r : Nat → List α} {B : List (Frame α)} {ended : Bool}
    {s : State α σ ρ κ} (h : Flow p env z incs x₀ r B ended s) :
    ∃ s', available p env s = some (s', count s') ∧ Flow p env z incs x₀ r B ended s' := by
  have key : ∃ s', finish p env s = some s' ∧ Flow p env z incs x₀ r B ended s' := by
    unfold finish
    cases hc : s.chans with
    | nil => exact ⟨s, rfl, h⟩
    | cons cd cds =>
      have hb := h.chans 0 cd (by rw [hc]; rfl)
      simp only
      cases ended with
      | false =>
        obtain ⟨j, a1, _⟩ := hb
        rw [a1.inputSize]
        exact ⟨s, rfl, h⟩
      | true =>
        have hi : cd.inputSize.isSome = true := by
          unfold Between at hb
          exact hb.inputSize
        simp only [hi, if_true, hp.plain.offline, Bool.false_eq_true, if_false]
        obtain ⟨l', b1, b2, b3⟩ := finishEach_spec (env := env) hp (x₀ := x₀) (r := r) (I := fun c => B.map (prepared p env c)) s.chans 0
          (fun c cd hc => by rw [Nat.zero_add]; exact h.chans c cd hc)
        rw [h.sizes, h.profile, ← hc, b1]
        refine ⟨_, rfl, ⟨rfl, rfl, h.mode, b2.trans h.length, ?_⟩⟩
        intro c cd hc
        have := b3 c cd hc
        rwa [Nat.zero_add] at this
  obtain ⟨s', a1, a2⟩ := key
  refine ⟨s', ?_, a2⟩
  unfold available
  rw [a1]
  rfl

/-! ## Histories -/

/-- The calls that may be made once processing has begun. -/
def Playing : Call α → Prop
  | .process _ _ => True
  | .available => True
  | .retrieve _ => True
  | _ => False

/-- All the input given up to the end of it. -/
def given : List (Call α) → List (Frame α)
  | [] => []
  | .process input final :: cs => if final then input else input ++ given cs
  | _ :: cs => given cs

/-- Whether the end of the input has been given. -/
def ends : List (Call α) → Bool
  | [] => false
  | .process _ final :: cs => final || ends cs
  | _ :: cs => ends cs

theorem flow_ended (hp : Fine p z incs) (hsep : (p.channelsTogether && decide (p.channels ≥ 2)) = false) {x₀ : Nat → Syn α σ} {B : List (Frame α)} :
    ∀ (cs : List (Call α)) (r : Nat → List α) (s : State α σ ρ κ), (∀ c ∈ cs, Playing c) → Flow p env z incs x₀ r B true s →
    ∃ s' outs, run p env s cs = some (s', outs) ∧ Flow p env z incs x₀ (fun c => r c ++ delivered outs c) B true s' := by
  intro cs
  induction cs with
  | nil =>
    intro r s _ h
    refine ⟨s, [], rfl, ?_⟩
    have : (fun c => r c ++ delivered ([] : List (List (List α))) c) = r := by funext c; simp [delivered]
    rw [this]
    exact h
  | cons c cs ih =>
    intro r s hpl h
    have key : ∃ s1 o, call p env s c = some (s1, o) ∧ Flow p env z incs x₀ (fun c => r c ++ o.getD c []) B true s1 := by
      have hc := hpl c (List.mem_cons_self ..)
      have hnil : (fun c => r c ++ ([] : List (List α)).getD c []) = r := by funext c; simp
      cases c with
      | process input final =>
        refine ⟨s, [], ?_, by rw [hnil]; exact h⟩
        have hm : s.mode = .finished := h.mode
        show (process p env s input final).map (fun s => (s, [])) = _
        unfold process
        rw [if_pos hm]
        rfl
      | available =>
        obtain ⟨s1, a1, a2⟩ := flow_available hp h
        refine ⟨s1, [], ?_, by rw [hnil]; exact a2⟩
        unfold call
        simp only [a1, Option.map_some]
      | retrieve n => exact ⟨_, _, rfl, flow_retrieve hsep h n⟩
      | _ => exact hc.elim
    obtain ⟨s1, o, a1, a2⟩ := key
    obtain ⟨s', outs, b1, b2⟩ := ih _ s1 (fun d hd => hpl d (List.mem_cons_of_mem _ hd)) a2
    refine ⟨s', o :: outs, ?_, ?_⟩
    · unfold run
      simp only [a1, b1, Option.bind_eq_bind, Option.bind_some]
      rfl
    · have : (fun c => r c ++ delivered (o :: outs) c) = (fun c => (r c ++ o.getD c []) ++ delivered outs c) := by
        funext c
        unfold delivered
        simp only [List.map_cons, List.flatten_cons, List.append_assoc]
      rw [this]
      exact b2

theorem flow_run (hp : Fine p z incs) (hsep : (p.channelsTogether && decide (p.channels ≥ 2)) = false) {x₀ : Nat → Syn α σ}
    (h0 : ∀ c, (x₀ c).count = 0 ∧ (x₀ c).fill ≤ z.window) :
    ∀ (cs : List (Call α)) (r : Nat → List α) (B : List (Frame α)) (s : State α σ ρ κ), (∀ c ∈ cs, Playing c) → Flow p env z incs x₀ r B false s →
    (ends cs = true → Good p z incs (B.length + (given cs).length)) →
    ∃ s' outs, run p env s cs = some (s', outs) ∧ Flow p env z incs x₀ (fun c => r c ++ delivered outs c) (B ++ given cs) (ends cs) s' := by
  intro cs
  induction cs with
  | nil =>
    intro r B s _ h _
    refine ⟨s, [], rfl, ?_⟩
    have : (fun c => r c ++ delivered ([] : List (List (List α))) c) = r := by funext c; simp [delivered]
    rw [this]
    simp only [given, List.append_nil, ends]
    exact h
  | cons c cs ih =>
    intro r B s hpl h hg
    have hpl' : ∀ d ∈ cs, Playing d := fun d hd => hpl d (List.mem_cons_of_mem _ hd)
    have hnil : (fun c => r c ++ ([] : List (List α)).getD c []) = r := by funext c; simp
    have key : ∃ s1 o B1 e, call p env s c = some (s1, o) ∧ Flow p env z incs x₀ (fun c => r c ++ o.getD c []) B1 e s1 ∧
        ((e = false ∧ ends (c :: cs) = ends cs ∧ B1 ++ given cs = B ++ given (c :: cs)) ∨ (e = true ∧ ends (c :: cs) = true ∧ B1 = B ++ given (c :: cs))) := by
      have hc := hpl c (List.mem_cons_self ..)
      cases c with
      | process input final =>
        obtain ⟨s1, a1, a2⟩ := flow_process (env := env) (input := input) (final := final) hp h0 (by
          intro hf
          have := hg (by simp [ends, hf])
          simpa [given, hf] using this) h
        refine ⟨s1, [], B ++ input, final, ?_, by rw [hnil]; exact a2, ?_⟩
        · show (process p env s input final).map (fun s => (s, [])) = _
          rw [a1]
          rfl
        · cases final with
          | false =>
            left
            refine ⟨rfl, by simp [ends], ?_⟩
            simp [given]
          | true =>
            right
            refine ⟨rfl, by simp [ends], ?_⟩
            simp [given]
      | available =>
        obtain ⟨s1, a1, a2⟩ := flow_available hp h
        refine ⟨s1, [], B, false, ?_, by rw [hnil]; exact a2, Or.inl ⟨rfl, rfl, rfl⟩⟩
        unfold call
        simp only [a1, Option.map_some]
      | retrieve n => exact ⟨_, _, B, false, rfl, flow_retrieve hsep h n, Or.inl ⟨rfl, rfl, rfl⟩⟩
      | _ => exact hc.elim
    obtain ⟨s1, o, B1, e, a1, a2, a3⟩ := key
    have hdel : ∀ outs, (fun c => r c ++ delivered (o :: outs) c) = (fun c => (r c ++ o.getD c []) ++ delivered outs c) := by
      intro outs
      funext c
      unfold delivered
      simp only [List.map_cons, List.flatten_cons, List.append_assoc]
    have hrun : ∀ s' outs, run p env s1 cs = some (s', outs) → run p env s (c :: cs) = some (s', o :: outs) := by
      intro s' outs hr
      unfold run
      simp only [a1, hr, Option.bind_eq_bind, Option.bind_some]
      rfl
    rcases a3 with ⟨e1, e2, e3⟩ | ⟨e1, e2, e3⟩
    · subst e1
      obtain ⟨s', outs, b1, b2⟩ := ih _ B1 s1 hpl' a2 (by
        intro he
        have := hg (by rw [e2]; exact he)
        have hl := congrArg List.length e3
        simp only [List.length_append] at hl
        rwa [← hl] at this)
      refine ⟨s', o :: outs, hrun s' outs b1, ?_⟩
      rw [hdel, ← e3, e2]
      exact b2
    · subst e1
      obtain ⟨s', outs, b1, b2⟩ := flow_ended hp hsep cs _ s1 hpl' a2
      refine ⟨s', o :: outs, hrun s' outs b1, ?_⟩
      rw [hdel, e2, ← e3]
      exact b2

end
end Verif.R2
