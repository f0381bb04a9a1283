import Verif.R2SameStudy
import Verif.R2SizesProps
import Verif.R3Limits
/-!
# The faster engine: channels given the same audio come out the same, also after a study (C114)
-/
namespace Verif.R2
open Verif.StretchCalc Verif.Round

variable {α σ ρ κ : Type}

/-! ## Sizes -/

theorem sized_wide {p : Params} {z : Sizes} (h : Sized p z) (hrt : p.realTime = false) (h1 : 8000 ≤ p.rate) (h2 : p.rate ≤ 192000) : Wide z := by
  obtain ⟨d, a, b, h⟩ := h
  unfold calculateSizes at h
  simp only at h
  obtain ⟨base, hb, h⟩ := Option.bind_eq_some_iff.mp h
  obtain ⟨l, hl, h⟩ := Option.bind_eq_some_iff.mp h
  obtain ⟨inc, _, h⟩ := Option.bind_eq_some_iff.mp h
  cases h
  obtain ⟨k, hk, _⟩ := base_spec h1 h2
  rw [hk] at hb
  cases hb
  have hbase : 1 ≤ 2 ^ k := Nat.one_le_two_pow
  have hr : 0 < (R3.fixRatios a b).1 * (R3.fixRatios a b).2 := mul_pos (R3.fixRatios_pos a b).1 (R3.fixRatios_pos a b).2
  generalize (R3.fixRatios a b).1 * (R3.fixRatios a b).2 = r at hl hr
  have hw : 1 ≤ l.window := by
    unfold chosen at hl
    simp only [hrt, Bool.false_eq_true, if_false] at hl
    split at hl
    · unfold squashOffline at hl
      obtain ⟨i, _, hl⟩ := Option.bind_eq_some_iff.mp hl
      obtain ⟨o, _, hl⟩ := Option.bind_eq_some_iff.mp hl
      split at hl
      · obtain ⟨j, hj, hl⟩ := Option.bind_eq_some_iff.mp hl
        cases hl
        obtain ⟨c1, c2, _⟩ := ceil_spec (x := 1 / r) (by positivity)
        unfold roundUpInt at hj
        split at hj
        · rename_i hlt
          rw [c1] at hj hlt
          obtain ⟨m, m1, m2, _⟩ := MathMisc.roundUp_spec (n := (1 / r).ceil.toNat) (by omega) (by omega)
          rw [m1] at hj
          cases hj
          have : 1 ≤ 2 ^ m := Nat.one_le_two_pow
          simp only
          omega
        · cases hj
      · cases hl
        exact hbase
    · unfold stretchOffline at hl
      obtain ⟨⟨o, i⟩, _, hl⟩ := Option.bind_eq_some_iff.mp hl
      obtain ⟨mw, _, hl⟩ := Option.bind_eq_some_iff.mp hl
      have up : ∀ (fuel w v : Nat), 1 ≤ w → upTo8192 fuel w = some v → 1 ≤ v := by
        intro fuel
        induction fuel with
        | zero => intro w v _ e; cases e
        | succ n ih =>
          intro w v hw e
          unfold upTo8192 at e
          split at e
          · exact ih _ _ (by omega) e
          · cases e; exact hw
      simp only at hl
      split at hl
      · obtain ⟨w, hw, hl⟩ := Option.bind_eq_some_iff.mp hl
        cases hl
        exact up _ _ _ (by omega) hw
      · cases hl
        simp only
        omega
  exact ⟨by simp only; split <;> omega, by simp only; split <;> omega⟩

section
variable [Zero α] [Add α] [Sub α] {p : Params} {env : Env α σ ρ κ} {z : Sizes}

/-! ## A round -/

/-- What a channel has taken in, offline, before processing. -/
def tookIn (p : Params) (env : Env α σ ρ κ) (c : Nat) (input : List (Frame α)) (final : Bool) (u : Nat) (cd : Chan α σ ρ) : Chan α σ ρ :=
  let cd' := (consumePlain p env c cd (input.drop u)).1
  if u + min cd.inbuf.writeSpace (input.drop u).length ≥ input.length ∧ final = true then { cd' with inputSize := some cd'.inCount } else cd'

omit [Zero α] in
theorem channelRound_offline (hp : p.realTime = false) (incs : List Int) (c : Nat) (input : List (Frame α)) (final : Bool) (cd : Chan α σ ρ) (u : Nat) :
    channelRound p env z incs c input final cd u = (processChunks p env z incs (tookIn p env c input final u cd)).map fun y => (y, u + min cd.inbuf.writeSpace (input.drop u).length) := by
  have e : resampleBefore p z.pitchScale = false := by unfold resampleBefore; simp [hp]
  unfold channelRound consumeChannel
  simp only [e, hp, Bool.false_eq_true, if_false, Option.bind_eq_bind, Option.bind_some]
  unfold tookIn consumePlain
  simp only
  cases processChunks p env z incs _ <;> rfl

omit [Zero α] in
theorem tookIn_near (hap : Apart p) {input : List (Frame α)} (hi : ∀ f ∈ input, EvenFrame f) {H : Nat} {x cd : Chan α σ ρ} (h : Near H x cd) (c : Nat) (final : Bool) (u : Nat) :
    Near H (tookIn p env 0 input final u x) (tookIn p env c input final u cd) := by
  obtain ⟨f1, _, _, _, f5, _⟩ := h.field
  have e : ∀ n, ((input.drop u).take n).map (prepared p env c) = ((input.drop u).take n).map (prepared p env 0) := fun n =>
    prepared_level hap (fun f hf => hi f (List.mem_of_mem_drop (List.mem_of_mem_take hf))) c
  unfold tookIn consumePlain
  simp only [f1, e, f5]
  have hh := h.rest
  split
  · exact ⟨h.above, congrArg (fun q : Chan α σ ρ => ({ q with
      inbuf := x.inbuf.write (((input.drop u).take (min x.inbuf.writeSpace (input.drop u).length)).map (prepared p env 0)),
      inCount := x.inCount + min x.inbuf.writeSpace (input.drop u).length, inputSize := some (x.inCount + min x.inbuf.writeSpace (input.drop u).length) } : Chan α σ ρ)) hh⟩
  · exact ⟨h.above, congrArg (fun q : Chan α σ ρ => ({ q with
      inbuf := x.inbuf.write (((input.drop u).take (min x.inbuf.writeSpace (input.drop u).length)).map (prepared p env 0)),
      inCount := x.inCount + min x.inbuf.writeSpace (input.drop u).length } : Chan α σ ρ)) hh⟩

omit [Zero α] in
theorem tookIn_fields (input : List (Frame α)) (final : Bool) (u : Nat) (x : Chan α σ ρ) :
    (tookIn p env 0 input final u x).inbuf.readSpace = x.inbuf.readSpace + min x.inbuf.writeSpace (input.drop u).length ∧ (tookIn p env 0 input final u x).inbuf.cap = x.inbuf.cap ∧
      (tookIn p env 0 input final u x).draining = x.draining ∧
        (x.inputSize = none → ((tookIn p env 0 input final u x).inputSize.isSome = true ↔ u + min x.inbuf.writeSpace (input.drop u).length ≥ input.length ∧ final = true)) := by
  have hl : (x.inbuf.write (((input.drop u).take (min x.inbuf.writeSpace (input.drop u).length)).map (prepared p env 0))).readSpace = x.inbuf.readSpace + min x.inbuf.writeSpace (input.drop u).length := by
    unfold Fifo.write Fifo.readSpace
    simp only [List.length_append, List.length_take, List.length_map]
    omega
  unfold tookIn consumePlain
  simp only
  split
  · rename_i hc
    exact ⟨hl, rfl, rfl, fun _ => ⟨fun _ => hc, fun _ => rfl⟩⟩
  · rename_i hc
    refine ⟨hl, rfl, rfl, fun hn => ⟨fun hs => ?_, fun h => absurd h hc⟩⟩
    simp [hn] at hs

/-- The channels before anything has been processed: as a channel `x` with at least so much in its input buffer. -/
structure Waiting (H least : Nat) (x : Chan α σ ρ) (l : List (Chan α σ ρ)) : Prop where
  near : ∀ cd ∈ l, Near H x cd
  inputSize : x.inputSize = none
  draining : x.draining = false
  long : least ≤ x.inbuf.readSpace

/-- The channels in `process`, of which so much of the input has been taken: as before any processing, or the same. -/
def Along (H b u : Nat) (l : List (Chan α σ ρ)) : Prop := (∃ x, Twinned x l) ∨ ∃ x, Waiting H (H + b + u) x l

omit [Zero α] in
theorem channelsRound_along (hap : Apart p) (hp : p.realTime = false) (hz : Wide z) (incs : List Int) {input : List (Frame α)} (hi : ∀ f ∈ input, EvenFrame f) {final : Bool} {b u : Nat}
    (hb : final = true → input = [] → 1 ≤ b) {l : List (Chan α σ ρ × Nat)} {xs : List (Chan α σ ρ × Nat)} (hu : ∀ y ∈ l, y.2 = u) (hl : Along (z.window / 2) b u (l.map fun y => y.1))
    (e : channelsRound p env z incs input final 0 l = some xs) :
    ∃ u', (∀ y ∈ xs, y.2 = u') ∧ ((∃ x, Twinned x (xs.map fun y => y.1)) ∨ (∃ x, Waiting (z.window / 2) (z.window / 2 + b + u') x (xs.map fun y => y.1)) ∧ (final = true → u' < input.length)) := by
  rcases hl with ⟨x, hx⟩ | ⟨x, hx⟩
  · obtain ⟨_, hm⟩ := channelsRound_same hap incs hi final (x := x) (u := u) l (fun y hy => ⟨hx _ (List.mem_map.mpr ⟨y, hy, rfl⟩), hu y hy⟩) e
    cases hr : channelRound p env z incs 0 input final x u with
    | none =>
      have hnil : xs = [] := by
        cases xs with
        | nil => rfl
        | cons y ys =>
          obtain ⟨y', h1, _⟩ := hm y (List.mem_cons_self ..)
          rw [hr] at h1
          cases h1
      subst hnil
      exact ⟨0, fun y hy => absurd hy (by simp), Or.inl ⟨x, fun d hd => absurd hd (by simp)⟩⟩
    | some r =>
      refine ⟨r.2, ?_, Or.inl ⟨r.1.core, ?_⟩⟩
      · intro y hy
        obtain ⟨y', h1, _, h3⟩ := hm y hy
        rw [hr] at h1
        cases h1
        exact h3
      · intro d hd
        obtain ⟨y, hy, rfl⟩ := List.mem_map.mp hd
        obtain ⟨y', h1, h2, _⟩ := hm y hy
        rw [hr] at h1
        cases h1
        exact h2
  · obtain ⟨w1, w2, w3, w4⟩ := hx
    obtain ⟨t1, t2, t3, t4⟩ := tookIn_fields (p := p) (env := env) input final u x
    have t4 := t4 w2
    generalize hn : min x.inbuf.writeSpace (input.drop u).length = n at t1 t4
    generalize hx1 : tookIn p env 0 input final u x = x1 at t1 t2 t3 t4
    have hd1 : x1.draining = false := t3.trans w3
    have hr1 : x1.inputSize.isSome = true → z.window / 2 < x1.inbuf.readSpace := by
      intro hs
      obtain ⟨a1, a2⟩ := t4.mp hs
      cases input with
      | nil => have := hb a2 rfl; omega
      | cons f fs => simp only [List.length_cons] at a1; omega
    -- each channel
    have each : ∀ (l : List (Chan α σ ρ × Nat)) (c : Nat) (xs : List (Chan α σ ρ × Nat)), (∀ y ∈ l, y.2 = u) → (∀ y ∈ l, Near (z.window / 2) x y.1) → channelsRound p env z incs input final c l = some xs →
        ∀ y ∈ xs, y.2 = u + n ∧ if (testInbuf z x1).2 = true then (processChunks p env z incs x1).map Chan.core = some y.1.core else Near (z.window / 2) x1 y.1 := by
      intro l
      induction l with
      | nil => intro c xs _ _ e; unfold channelsRound at e; cases e; intro y hy; cases hy
      | cons q l ih =>
        intro c xs hu hnear e
        obtain ⟨cd, used⟩ := q
        unfold channelsRound at e
        obtain ⟨y, e1, e⟩ := Option.bind_eq_some_iff.mp e
        obtain ⟨ys, e2, e⟩ := Option.bind_eq_some_iff.mp e
        cases e
        intro y' hy'
        rcases List.mem_cons.mp hy' with rfl | hy'
        · have hused : used = u := hu (cd, used) (List.mem_cons_self ..)
          subst hused
          have hc := hnear (cd, used) (List.mem_cons_self ..)
          have hb' : cd.inbuf = x.inbuf := hc.field.1
          have ht := tookIn_near (env := env) hap hi hc c final used
          rw [hx1] at ht
          rw [channelRound_offline hp, hb', hn] at e1
          obtain ⟨v, e3, e4⟩ := Option.map_eq_some_iff.mp e1
          cases e4
          refine ⟨rfl, ?_⟩
          have hk := chunks_near (p := p) (env := env) (incs := incs) hz ht hd1 hr1
          split
          · rename_i hready
            rw [if_pos hready] at hk
            rw [← hk, processChunks_core, e3]
            rfl
          · rename_i hready
            rw [if_neg hready] at hk
            rw [hk.1] at e3
            cases e3
            exact ht
        · exact ih (c + 1) ys (fun y hy => hu y (List.mem_cons_of_mem _ hy)) (fun y hy => hnear y (List.mem_cons_of_mem _ hy)) e2 y' hy'
    have hall := each l 0 xs hu (fun y hy => w1 _ (List.mem_map.mpr ⟨y, hy, rfl⟩)) e
    refine ⟨u + n, fun y hy => (hall y hy).1, ?_⟩
    by_cases hready : (testInbuf z x1).2 = true
    · left
      refine same_of x (P := fun v => (processChunks p env z incs x1).map Chan.core = some v) ?_ ?_
      · intro d hd
        obtain ⟨y, hy, rfl⟩ := List.mem_map.mp hd
        have := (hall y hy).2
        rw [if_pos hready] at this
        exact ⟨_, this, rfl⟩
      · intro v v' h1 h2
        rw [h1] at h2
        cases h2
        rfl
    · right
      have hnone : x1.inputSize = none := by
        by_contra hne
        have hs : x1.inputSize.isSome = true := by rw [Option.isSome_iff_ne_none]; exact hne
        have := hr1 hs
        apply hready
        unfold testInbuf
        have h0 : ¬ x1.inbuf.readSpace = 0 := by omega
        have h1 : ¬ x1.inbuf.readSpace < z.window / 2 := by omega
        have h2 : ¬ x1.inputSize.isNone = true := by rw [← Option.not_isSome, hs]; simp
        simp only [h0, h1, h2, if_false]
        split <;> rfl
      refine ⟨⟨x1, ?_, hnone, hd1, by omega⟩, ?_⟩
      · intro d hd
        obtain ⟨y, hy, rfl⟩ := List.mem_map.mp hd
        have := (hall y hy).2
        rw [if_neg hready] at this
        exact this
      · intro hf
        by_contra hge
        have : x1.inputSize.isSome = true := t4.mpr ⟨by omega, hf⟩
        rw [hnone] at this
        cases this

omit [Zero α] in
theorem loop_along (hap : Apart p) (hp : p.realTime = false) {input : List (Frame α)} (hi : ∀ f ∈ input, EvenFrame f) {final : Bool} {b : Nat} (hb : final = true → input = [] → 1 ≤ b) (fuel : Nat) :
    ∀ {s s' : State α σ ρ κ} {used : List Nat} {u : Nat}, Wide s.sizes → (∀ n ∈ used, n = u) → Along (s.sizes.window / 2) b u s.chans → processLoop p env input final fuel s used = some s' →
      s'.sizes = s.sizes ∧ s'.mode = s.mode ∧
        ((∃ x, Twinned x s'.chans) ∨ (∃ x, Waiting (s.sizes.window / 2) (s.sizes.window / 2 + b + input.length) x s'.chans) ∧ final = false) := by
  induction fuel with
  | zero => intro s s' used u _ _ _ e; cases e
  | succ n ih =>
    intro s s' used u hz hu h e
    unfold processLoop at e
    obtain ⟨⟨t, used'⟩, e1, e2⟩ := Option.bind_eq_some_iff.mp e
    unfold processRound at e1
    obtain ⟨xs, e3, e1⟩ := Option.bind_eq_some_iff.mp e1
    simp only [hp, Bool.false_eq_true, if_false] at e1
    cases e1
    have hl : Along (s.sizes.window / 2) b u ((s.chans.zip used).map fun y => y.1) := by
      have hmem : ∀ cd ∈ (s.chans.zip used).map (fun y => y.1), cd ∈ s.chans := by
        intro cd hcd
        obtain ⟨y, hy, rfl⟩ := List.mem_map.mp hcd
        exact (List.of_mem_zip hy).1
      rcases h with ⟨x, hx⟩ | ⟨x, h1, h2, h3, h4⟩
      · exact Or.inl ⟨x, fun cd hcd => hx cd (hmem cd hcd)⟩
      · exact Or.inr ⟨x, fun cd hcd => h1 cd (hmem cd hcd), h2, h3, h4⟩
    obtain ⟨u', hu', hr⟩ := channelsRound_along hap hp hz s.outputIncrements hi hb (fun y hy => hu _ (List.of_mem_zip hy).2) hl e3
    have hused : ∀ n ∈ xs.map (fun x => x.2), n = u' := by
      intro n hn
      obtain ⟨y, hy, rfl⟩ := List.mem_map.mp hn
      exact hu' y hy
    simp only at e2
    split at e2
    · rename_i hall
      cases e2
      refine ⟨rfl, rfl, ?_⟩
      rcases hr with hr | ⟨⟨x, hx⟩, hlt⟩
      · exact Or.inl hr
      · cases xs with
        | nil => exact Or.inl ⟨x, fun d hd => absurd hd (by simp)⟩
        | cons y ys =>
          have hge : u' ≥ input.length := by
            rw [← hu' y (List.mem_cons_self ..)]
            have := List.all_eq_true.mp hall y.2 (List.mem_map.mpr ⟨y, List.mem_cons_self .., rfl⟩)
            simpa using this
          refine Or.inr ⟨⟨x, hx.near, hx.inputSize, hx.draining, by have := hx.long; omega⟩, ?_⟩
          cases final with
          | false => rfl
          | true => exact absurd (hlt rfl) (by omega)
    · have := ih (s := { s with chans := xs.map fun x => x.1 }) hz hused
        (by rcases hr with hr | ⟨hr, _⟩
            · exact Or.inl hr
            · exact Or.inr hr) e2
      exact this

/-! ## The calls -/

/-- How the channels compare, offline; `fed` if there has been something to process since the channels were last filled with half a window of zeros. -/
def Kin (env : Env α σ ρ κ) (fed : Bool) (s : State α σ ρ κ) : Prop :=
  ((s.mode = .processing ∨ s.mode = .finished) ∧ ∃ x, Twinned x s.chans) ∨
    (s.mode ≠ .studying ∧ (fed = true → s.mode ≠ .justCreated) ∧
      ∃ x, Waiting (s.sizes.window / 2) (s.sizes.window / 2 + if fed = true ∧ s.mode ≠ .finished then 1 else 0) x s.chans) ∨
    (s.mode = .studying ∧ fed = false ∧ ∃ x : Chan α σ ρ, x.inputSize = none ∧ ∀ cd ∈ s.chans, Loose env (s.sizes.window / 2) x cd)

omit [Zero α] [Add α] [Sub α] in
theorem Kin.loose {fed : Bool} {s : State α σ ρ κ} (h : Kin env fed s) : ∃ x : Chan α σ ρ, ∀ cd ∈ s.chans, Loose env (s.sizes.window / 2) x cd := by
  rcases h with ⟨_, x, hx⟩ | ⟨_, _, x, hx⟩ | ⟨_, _, x, _, hx⟩
  · exact ⟨x, fun cd hcd => (near_of_core (hx cd hcd)).loose⟩
  · exact ⟨x, fun cd hcd => (hx.near cd hcd).loose⟩
  · exact ⟨x, hx⟩

omit [Add α] [Sub α] in
theorem waiting_of_clean {x : Chan α σ ρ} {l : List (Chan α σ ρ)} (hne : l ≠ []) (hn : ∀ cd ∈ l, Near (z.window / 2) x cd) (hc : ∀ cd ∈ l, Clean z cd) : Waiting (z.window / 2) (z.window / 2) x l := by
  cases l with
  | nil => exact absurd rfl hne
  | cons cd l =>
    have h1 := hn cd (List.mem_cons_self ..)
    have h2 := hc cd (List.mem_cons_self ..)
    obtain ⟨f1, _, f3, f4, _, _⟩ := h1.field
    refine ⟨hn, by rw [← f4]; exact h2.inputSize, by rw [← f3]; exact h2.draining, ?_⟩
    rw [← f1]
    unfold Fifo.readSpace
    rw [h2.inbuf, List.length_replicate]

omit [Add α] [Sub α] in
theorem configure_kin (hp : p.realTime = false) {s t : State α σ ρ κ} {a b : R3.Dbl} {x : Chan α σ ρ} {first : Bool} (h : ∀ cd ∈ s.chans, Loose env (s.sizes.window / 2) x cd)
    (e : configure p env first s a b = some t) : ∃ y : Chan α σ ρ, ∀ cd ∈ t.chans, Near (t.sizes.window / 2) y cd := by
  unfold configure at e
  obtain ⟨u, e1, e⟩ := Option.bind_eq_some_iff.mp e
  obtain ⟨fresh, _, e⟩ := Option.bind_eq_some_iff.mp e
  cases e
  simp only [hp, Bool.false_eq_true, if_false]
  have h0 : ∃ x : Chan α σ ρ, ∀ cd ∈ (if (first || decide (u.sizes.window ≠ s.sizes.window) || decide (u.outbufSize ≠ s.outbufSize)) = true then List.replicate p.channels fresh else s.chans),
      Loose env (u.sizes.window / 2) x cd := by
    split
    · refine ⟨fresh.core, fun d hd => ?_⟩
      rw [(List.mem_replicate.mp hd).2]
      exact (near_of_core rfl).loose
    · rename_i hc
      have hw : u.sizes.window = s.sizes.window := by
        by_contra hne
        exact hc (by simp [hne])
      rw [hw]
      exact ⟨x, h⟩
  obtain ⟨x, hx⟩ := h0
  refine ⟨(Chan.prefill env u.sizes (Chan.withResampler p env u.sizes x).core).core, ?_⟩
  intro cd hcd
  obtain ⟨c1, hc1, rfl⟩ := List.mem_map.mp hcd
  obtain ⟨c2, hc2, rfl⟩ := List.mem_map.mp hc1
  exact (hx c2 hc2).withResampler.prefill

omit [Add α] [Sub α] in
theorem reconfigure_kin (hp : p.realTime = false) (hch : 1 ≤ p.channels) {s t : State α σ ρ κ} {a b : R3.Dbl} {x : Chan α σ ρ} (hl : s.chans.length = p.channels)
    (hr : ∀ cd ∈ s.chans, Roomy s.sizes cd) (h : ∀ cd ∈ s.chans, Loose env (s.sizes.window / 2) x cd) (e : reconfigure p env s a b = some t) :
    t.mode = s.mode ∧ ∃ y, Waiting (t.sizes.window / 2) (t.sizes.window / 2) y t.chans := by
  unfold reconfigure at e
  simp only [hp, Bool.false_eq_true, if_false] at e
  have key : ∃ u : State α σ ρ κ, configure p env false u a b = some t ∧ u.sizes = s.sizes ∧ u.mode = s.mode ∧ u.chans = s.chans := by
    split at e
    · obtain ⟨u, hu, e⟩ := Option.bind_eq_some_iff.mp e
      obtain ⟨v, hv, e'⟩ := Option.map_eq_some_iff.mp hu
      refine ⟨u, e, ?_⟩
      obtain ⟨f1, f2, f3⟩ := calculateStretch_fields hv
      rw [← e']
      exact ⟨f1, f2, f3⟩
    · exact ⟨s, e, rfl, rfl, rfl⟩
  obtain ⟨u, hu, k1, k2, k3⟩ := key
  obtain ⟨a1, a2, a3⟩ := configure_clean hp (fun _ => by rw [k1, k3]; exact ⟨hl, hr⟩) hu
  obtain ⟨y, hy⟩ := configure_kin (env := env) hp (x := x) (by rw [k1, k3]; exact h) hu
  refine ⟨a2.trans k2, y, waiting_of_clean ?_ hy fun cd hcd => (a3 cd hcd).1⟩
  intro hnil
  rw [hnil] at a1
  simp only [List.length_nil] at a1
  omega

omit [Zero α] [Add α] [Sub α] in
theorem kin_of_waiting {t : State α σ ρ κ} (h : ∃ y, Waiting (t.sizes.window / 2) (t.sizes.window / 2) y t.chans) : Kin env false t := by
  obtain ⟨y, hy⟩ := h
  by_cases hm : t.mode = .studying
  · exact Or.inr (Or.inr ⟨hm, rfl, y, hy.inputSize, fun cd hcd => (hy.near cd hcd).loose⟩)
  · exact Or.inr (Or.inl ⟨hm, by simp, y, hy.near, hy.inputSize, hy.draining, by have := hy.long; simpa using this⟩)

theorem process_kin (hap : Apart p) (hp : p.realTime = false) (hch : 1 ≤ p.channels) {input : List (Frame α)} (hi : ∀ f ∈ input, EvenFrame f) {final fed : Bool} (hfed : final = true → input = [] → fed = true)
    {s s' : State α σ ρ κ} (hk : Kept p s) (hz : Wide s.sizes) (h : Kin env fed s) (e : process p env s input final = some s') : Kin env (fed || !input.isEmpty) s' := by
  unfold process at e
  split at e
  · rename_i hm
    cases e
    rcases h with h | ⟨h1, h2, x, hx⟩ | ⟨h1, _⟩
    · exact Or.inl h
    · refine Or.inr (Or.inl ⟨h1, fun _ => by rw [hm]; simp, x, ?_⟩)
      simp only [hm, ne_eq, not_true_eq_false, and_false, if_false] at hx ⊢
      exact hx
    · rw [hm] at h1; cases h1
  · rename_i hm
    obtain ⟨t, e1, e⟩ := Option.bind_eq_some_iff.mp e
    obtain ⟨t', e2, e⟩ := Option.bind_eq_some_iff.mp e
    cases e
    have hpro : t.sizes = s.sizes ∧ t.mode = .processing ∧ Along (s.sizes.window / 2) (if fed = true then 1 else 0) 0 t.chans := by
      unfold prologue at e1
      split at e1
      · rename_i hmode
        obtain ⟨v, e3, e4⟩ := Option.map_eq_some_iff.mp e1
        obtain ⟨f1, f2, f3⟩ := calculateStretch_fields e3
        cases e4
        refine ⟨f1, rfl, ?_⟩
        rcases h with ⟨h1, _⟩ | ⟨h1, _⟩ | ⟨_, h2, x, _, hx⟩
        · rw [hmode] at h1; simp at h1
        · exact absurd hmode h1
        · subst h2
          refine Or.inr ⟨(Chan.prefill env s.sizes x).core, ?_⟩
          have hw := waiting_of_clean (z := s.sizes) (x := (Chan.prefill env s.sizes x).core) (l := s.chans.map (Chan.prefill env s.sizes))
            (by
              intro hnil
              have := hk.length
              rw [List.map_eq_nil_iff.mp hnil] at this
              simp only [List.length_nil] at this
              omega)
            (by
              intro cd hcd
              obtain ⟨c, hc, rfl⟩ := List.mem_map.mp hcd
              exact (hx c hc).prefill)
            (by
              intro cd hcd
              obtain ⟨c, hc, rfl⟩ := List.mem_map.mp hcd
              exact (prefill_clean (hk.roomy c hc)).1)
          rw [f1, f3]
          simpa using hw
      · rename_i hmode
        cases e1
        refine ⟨rfl, rfl, ?_⟩
        rcases h with ⟨h1, _⟩ | ⟨_, h2, x, hx⟩ | ⟨h1, _⟩
        · rw [hmode] at h1; simp at h1
        · have hf : fed = false := by
            cases fed with
            | false => rfl
            | true => exact absurd hmode (h2 rfl)
          subst hf
          exact Or.inr ⟨x, by simpa using hx⟩
        · rw [hmode] at h1; cases h1
      · rename_i n1 n2
        cases e1
        have hmode : s.mode = .processing := by
          cases hm' : s.mode with
          | justCreated => exact absurd hm' n2
          | studying => exact absurd hm' n1
          | processing => rfl
          | finished => exact absurd hm' hm
        refine ⟨rfl, hmode, ?_⟩
        rcases h with ⟨_, h1⟩ | ⟨_, _, x, hx⟩ | ⟨h1, _⟩
        · exact Or.inl h1
        · refine Or.inr ⟨x, ?_⟩
          simpa [hmode] using hx
        · rw [hmode] at h1; cases h1
    obtain ⟨q1, q2, q3⟩ := hpro
    obtain ⟨r1, r2, r3⟩ := loop_along hap hp hi (b := if fed = true then 1 else 0) (fun hf hnil => by rw [if_pos (hfed hf hnil)]) _ (by rw [q1]; exact hz)
      (u := 0) (fun n hn => (List.mem_replicate.mp hn).2) (by rw [q1]; exact q3) e2
    rcases r3 with r3 | ⟨⟨x, hx⟩, hf⟩
    · refine Or.inl ⟨?_, r3⟩
      show (if final = true then Mode.finished else t'.mode) = _ ∨ (if final = true then Mode.finished else t'.mode) = _
      split
      · exact Or.inr rfl
      · exact Or.inl (r2.trans q2)
    · subst hf
      refine Or.inr (Or.inl ⟨?_, fun _ => ?_, x, ?_⟩)
      · show t'.mode ≠ _
        rw [r2, q2]; simp
      · show t'.mode ≠ _
        rw [r2, q2]; simp
      · show Waiting (t'.sizes.window / 2) _ x t'.chans
        rw [r1]
        refine ⟨hx.near, hx.inputSize, hx.draining, ?_⟩
        have hlong := hx.long
        refine le_trans ?_ hlong
        have one : ∀ (c : Prop) [Decidable c], (if c then 1 else 0 : Nat) ≤ 1 := fun c _ => by split <;> omega
        cases fed with
        | true =>
          rw [if_pos rfl, Nat.add_assoc]
          exact Nat.add_le_add_left (le_trans (one _) (by omega)) _
        | false =>
          cases input with
          | nil => simp
          | cons f fs =>
            rw [show (if (false : Bool) = true then 1 else 0 : Nat) = 0 from rfl, Nat.add_zero, List.length_cons]
            exact Nat.add_le_add_left (le_trans (one _) (by omega)) _

omit [Zero α] [Add α] [Sub α] in
theorem finish_kin (hp : p.realTime = false) {fed : Bool} {s s' : State α σ ρ κ} (h : Kin env fed s) (e : finish p env s = some s') : Kin env fed s' := by
  unfold finish at e
  split at e
  · cases e; exact h
  · rename_i cd cds heq
    have hmem : cd ∈ s.chans := by rw [heq]; exact List.mem_cons_self ..
    split at e
    · rename_i hs
      simp only [hp, Bool.false_eq_true, if_false] at e
      rcases h with ⟨h1, x, hx⟩ | ⟨_, _, x, hx⟩ | ⟨_, _, x, hx, hl⟩
      · obtain ⟨chans, e1, e2⟩ := Option.map_eq_some_iff.mp e
        cases e2
        refine Or.inl ⟨h1, same_of x (P := fun y => (if x.inbuf.readSpace > 0 then processChunks p env s.sizes s.outputIncrements x else some x) = some y) (finishEach_same _ _ _ hx e1) ?_⟩
        intro y y' h1 h2
        rw [h1] at h2
        cases h2
        rfl
      · rw [(hx.near cd hmem).field.2.2.2.1, hx.inputSize] at hs
        cases hs
      · have : cd.inputSize = x.inputSize := by rw [← (hl cd hmem).rest]
        rw [this, hx] at hs
        cases hs
    · cases e; exact h

omit [Zero α] [Add α] [Sub α] in
/-- Reading from channels whose output buffers are the same. -/
theorem read_equal {q : Fifo α} : ∀ (l : List (Chan α σ ρ)) {got n : Nat}, (∀ cd ∈ l, cd.outbuf = q) → q.data.take got = q.data.take n → q.data.drop got = q.data.drop n →
    (∀ o ∈ (readChannels l got).2.1, o = q.data.take n) ∧ (readChannels l got).1 = l.map fun cd => { cd with outbuf := q.skip n } := by
  intro l
  induction l with
  | nil => intro got n _ _ _; exact ⟨fun o ho => absurd ho (by simp [readChannels]), rfl⟩
  | cons cd l ih =>
    intro got n h h1 h2
    have hout : cd.outbuf = q := h cd (List.mem_cons_self ..)
    have e : cd.outbuf.peek got = q.data.take n := by rw [hout]; exact h1
    unfold readChannels
    simp only
    rw [e]
    have hlen : (q.data.take n).length = min got q.data.length := by rw [← h1, List.length_take]
    obtain ⟨a1, a2⟩ := ih (got := if (q.data.take n).length < got then (q.data.take n).length else got) (n := n)
      (fun d hd => h d (List.mem_cons_of_mem _ hd))
      (by
        split
        · rename_i hlt
          rw [hlen] at hlt ⊢
          rw [← h1, List.take_of_length_le (i := got) (by omega), List.take_of_length_le (by omega)]
        · exact h1)
      (by
        split
        · rename_i hlt
          rw [hlen] at hlt ⊢
          rw [← h2, List.drop_of_length_le (i := got) (by omega), List.drop_of_length_le (by omega)]
        · exact h2)
    refine ⟨?_, ?_⟩
    · intro o ho
      rcases List.mem_cons.mp ho with rfl | ho
      · rfl
      · exact a1 o ho
    · have : cd.outbuf.skip got = q.skip n := by rw [hout]; unfold Fifo.skip; rw [h2]
      rw [List.map_cons, this, a2]

omit [Zero α] in
theorem retrieve_kin (hap : Apart p) {fed : Bool} {s : State α σ ρ κ} (h : Kin env fed s) (n : Nat) : Kin env fed (retrieve p s n).1 ∧ ∀ a ∈ (retrieve p s n).2.1, ∀ b ∈ (retrieve p s n).2.1, a = b := by
  obtain ⟨x, hx⟩ := h.loose
  have hq : ∀ cd ∈ s.chans, cd.outbuf = x.outbuf := fun cd hcd => by rw [← (hx cd hcd).rest]
  obtain ⟨h1, h2⟩ := read_equal s.chans (got := n) (n := n) hq rfl rfl
  have hs := hap.sep
  unfold retrieve
  simp only [hs, Bool.false_eq_true, if_false]
  refine ⟨?_, fun a ha b hb => (h1 a ha).trans (h1 b hb).symm⟩
  rw [h2]
  generalize x.outbuf.skip n = q
  rcases h with ⟨m1, y, hy⟩ | ⟨m1, m2, y, hy⟩ | ⟨m1, m2, y, m3, hy⟩
  · exact Or.inl ⟨m1, _, hy.map (f := fun cd => { cd with outbuf := q }) (fun cd => rfl)⟩
  · refine Or.inr (Or.inl ⟨m1, m2, { y with outbuf := q }, ?_, hy.inputSize, hy.draining, hy.long⟩)
    intro d hd
    obtain ⟨c, hc, rfl⟩ := List.mem_map.mp hd
    obtain ⟨n1, n2⟩ := hy.near c hc
    exact ⟨n1, congrArg (fun c : Chan α σ ρ => ({ c with outbuf := q } : Chan α σ ρ)) n2⟩
  · refine Or.inr (Or.inr ⟨m1, m2, { y with outbuf := q }, m3, ?_⟩)
    intro d hd
    obtain ⟨c, hc, rfl⟩ := List.mem_map.mp hd
    obtain ⟨n1, n2, n3, n4⟩ := hy c hc
    exact ⟨n1, n2, n3, congrArg (fun c : Chan α σ ρ => ({ c with outbuf := q } : Chan α σ ρ)) n4⟩

/-! ## Studying -/

omit [Zero α] [Add α] [Sub α] in
theorem Loose.next {H : Nat} {x y cd : Chan α σ ρ} (h : Loose env H x.core y) (h' : Loose env H y.core cd) : Loose env H x.core cd := h.trans h'

omit [Zero α] [Add α] [Sub α] in
theorem studyLoop_loose (hforget : ∀ k s l, env.specReset (env.studyCurve k s l).2.1 = env.specReset s) (final : Bool) {H : Nat} : ∀ (fuel : Nat) (s : State α σ ρ κ) (cd : Chan α σ ρ) (r : State α σ ρ κ × Chan α σ ρ),
    s.sizes.fftSize / 2 ≤ H → studyLoop env final fuel s cd = some r → Loose env H cd.core r.2 := by
  intro fuel
  induction fuel with
  | zero => intro s cd r _ e; cases e
  | succ n ih =>
    intro s cd r hH e
    unfold studyLoop at e
    split at e
    · simp only at e
      refine Loose.next ?_ (ih _ _ r (by exact hH) e)
      refine ⟨?_, hforget _ _ _, rfl, rfl⟩
      intro i hi
      have : ¬ i ≤ s.sizes.fftSize / 2 := by omega
      simp only [this, if_false]
    · cases e
      exact (near_of_core rfl).loose

omit [Zero α] [Add α] [Sub α] in
theorem studyInput_loose (hforget : ∀ k s l, env.specReset (env.studyCurve k s l).2.1 = env.specReset s) (final : Bool) {H : Nat} : ∀ (fuel : Nat) (s : State α σ ρ κ) (cd : Chan α σ ρ) (rest : List α)
    (r : State α σ ρ κ × Chan α σ ρ), s.sizes.fftSize / 2 ≤ H → studyInput env final fuel s cd rest = some r → Loose env H cd.core r.2 := by
  intro fuel
  induction fuel with
  | zero =>
    intro s cd rest r _ e
    unfold studyInput at e
    split at e
    · cases e; exact (near_of_core rfl).loose
    · cases e
  | succ n ih =>
    intro s cd rest r hH e
    unfold studyInput at e
    split at e
    · cases e; exact (near_of_core rfl).loose
    · obtain ⟨⟨t, cd'⟩, e1, e2⟩ := Option.bind_eq_some_iff.mp e
      have h1 := studyLoop_loose hforget final _ _ _ _ hH e1
      have h2 := ih _ _ _ r (by rw [(studyLoop_fields final _ _ _ _ e1).2.1]; exact hH) e2
      refine Loose.next (Loose.next ?_ h1) h2
      exact ⟨fun _ _ => rfl, rfl, rfl, rfl⟩

omit [Zero α] [Add α] [Sub α] in
theorem study_kin (hforget : ∀ k s l, env.specReset (env.studyCurve k s l).2.1 = env.specReset s) (hp : p.realTime = false) {input : List (Frame α)} {final fed : Bool} {s s' : State α σ ρ κ} (hz : Wide s.sizes)
    (h : Kin env fed s) (e : study p env s input final = some s') : Kin env fed s' := by
  unfold study at e
  simp only [hp, Bool.false_eq_true, if_false] at e
  split at e
  · cases e; exact h
  · rename_i hm
    have hmode : s.mode = .justCreated ∨ s.mode = .studying := by
      cases hm' : s.mode with
      | justCreated => exact Or.inl rfl
      | studying => exact Or.inr rfl
      | processing => exact absurd (Or.inl hm') hm
      | finished => exact absurd (Or.inr hm') hm
    have hl : fed = false ∧ ∃ x : Chan α σ ρ, x.inputSize = none ∧ ∀ cd ∈ s.chans, Loose env (s.sizes.window / 2) x cd := by
      rcases h with ⟨h1, _⟩ | ⟨h1, h2, x, hx⟩ | ⟨_, h2, h3⟩
      · exact absurd h1 hm
      · refine ⟨?_, x, hx.inputSize, fun cd hcd => (hx.near cd hcd).loose⟩
        cases fed with
        | false => rfl
        | true =>
          rcases hmode with hmode | hmode
          · exact absurd hmode (h2 rfl)
          · exact absurd hmode h1
      · exact ⟨h2, h3⟩
    obtain ⟨hf, x, hx1, hx2⟩ := hl
    split at e
    · cases e
    · rename_i cd cds heq
      obtain ⟨⟨t, cd'⟩, e1, e2⟩ := Option.bind_eq_some_iff.mp e
      obtain ⟨f1, f2, _⟩ := studyInput_fields final _ _ _ _ _ e1
      have hH : s.sizes.fftSize / 2 ≤ s.sizes.window / 2 := Nat.div_le_div_right hz.fft
      have h1 := studyInput_loose hforget final (H := s.sizes.window / 2) _ _ _ _ _ (by exact hH) e1
      cases e2
      have e3 : (studyEnd final t cd').mode = .studying ∧ (studyEnd final t cd').sizes = s.sizes := by
        unfold studyEnd
        split
        · exact ⟨f1, f2⟩
        · exact ⟨f1, f2⟩
      refine Or.inr (Or.inr ⟨e3.1, hf, x, hx1, ?_⟩)
      show ∀ d ∈ cd' :: cds, Loose env ((studyEnd final t cd').sizes.window / 2) x d
      rw [e3.2]
      intro d hd
      rcases List.mem_cons.mp hd with rfl | hd
      · exact (hx2 cd (by rw [heq]; exact List.mem_cons_self ..)).trans h1
      · exact hx2 d (by rw [heq]; exact List.mem_cons_of_mem _ hd)

/-! ## Histories -/

/-- Whether, after the call, something has been given to `process` since the last call that starts anew. -/
def Call.feeds (fed : Bool) : Call α → Bool
  | .process input _ => fed || !input.isEmpty
  | .reset | .setTimeRatio _ | .setPitchScale _ | .setExpectedInputDuration _ | .setMaxProcessSize _ => false
  | _ => fed

/-- Whether the call, if it ends the input by an empty block, comes after something that has been given. -/
def Call.after (fed : Bool) : Call α → Bool
  | .process [] true => fed
  | _ => true

/-- The input is not ended by an empty block unless something has been given before. -/
def Heard : (fed : Bool) → List (Call α) → Bool
  | _, [] => true
  | fed, c :: cs => c.after fed && Heard (c.feeds fed) cs

theorem call_kin (hforget : ∀ k s l, env.specReset (env.studyCurve k s l).2.1 = env.specReset s) (hap : Apart p) (hp : p.realTime = false) (hch : 1 ≤ p.channels) (h1 : 8000 ≤ p.rate) (h2 : p.rate ≤ 192000)
    {fed : Bool} {s s' : State α σ ρ κ} {c : Call α} {o : List (List α)} (hi : ∀ f ∈ c.input, EvenFrame f) (hc : c.after fed = true) (hk : Kept p s)
    (h : Kin env fed s) (e : call p env s c = some (s', o)) : Kin env (c.feeds fed) s' ∧ ∀ a ∈ o, ∀ b ∈ o, a = b := by
  have nil : ∀ a ∈ ([] : List (List α)), ∀ b ∈ ([] : List (List α)), a = b := fun a ha => absurd ha (by simp)
  have hz := sized_wide hk.sized hp h1 h2
  -- nothing happens, and something has not been given
  have less : ∀ {fed : Bool} {s : State α σ ρ κ}, Kin env fed s → Kin env false s := by
    intro fed s h
    rcases h with h | ⟨a1, a2, x, hx⟩ | ⟨a1, _, a3⟩
    · exact Or.inl h
    · refine Or.inr (Or.inl ⟨a1, by simp, x, hx.near, hx.inputSize, hx.draining, ?_⟩)
      have := hx.long
      simp only [Bool.false_eq_true, false_and, if_false]
      omega
    · exact Or.inr (Or.inr ⟨a1, rfl, a3⟩)
  obtain ⟨x, hx⟩ := h.loose
  have again : ∀ {u t : State α σ ρ κ} {a b : R3.Dbl}, u.chans = s.chans → u.sizes = s.sizes → reconfigure p env u a b = some t →
      t.mode = u.mode ∧ ∃ y, Waiting (t.sizes.window / 2) (t.sizes.window / 2) y t.chans := by
    intro u t a b k1 k2 e
    exact reconfigure_kin hp hch (x := x) (by rw [k1]; exact hk.length) (by rw [k1, k2]; exact hk.roomy) (by rw [k1, k2]; exact hx) e
  cases c with
  | setTimeRatio r =>
    obtain ⟨t, e1, e2⟩ := Option.map_eq_some_iff.mp e
    cases e2
    refine ⟨?_, nil⟩
    unfold setTimeRatio at e1
    split at e1
    · cases e1; exact less h
    · split at e1
      · cases e1; exact less h
      · exact kin_of_waiting (again rfl rfl e1).2
  | setPitchScale r =>
    obtain ⟨t, e1, e2⟩ := Option.map_eq_some_iff.mp e
    cases e2
    refine ⟨?_, nil⟩
    unfold setPitchScale at e1
    split at e1
    · cases e1; exact less h
    · split at e1
      · cases e1; exact less h
      · obtain ⟨u, e3, e4⟩ := Option.map_eq_some_iff.mp e1
        cases e4
        obtain ⟨_, y, hy⟩ := again rfl rfl e3
        unfold resetResamplers
        split
        · refine kin_of_waiting ⟨{ y with resampler := y.resampler.map env.rsReset }, ?_, hy.inputSize, hy.draining, hy.long⟩
          intro d hd
          obtain ⟨c, hc, rfl⟩ := List.mem_map.mp hd
          obtain ⟨n1, n2⟩ := hy.near c hc
          exact ⟨n1, congrArg (fun c : Chan α σ ρ => ({ c with resampler := c.resampler.map env.rsReset } : Chan α σ ρ)) n2⟩
        · exact kin_of_waiting ⟨y, hy⟩
  | setExpectedInputDuration n =>
    obtain ⟨t, e1, e2⟩ := Option.map_eq_some_iff.mp e
    cases e2
    refine ⟨?_, nil⟩
    unfold setExpectedInputDuration at e1
    split at e1
    · cases e1; exact less h
    · exact kin_of_waiting (again (u := { s with expected := n }) rfl rfl e1).2
  | setMaxProcessSize n =>
    obtain ⟨t, e1, e2⟩ := Option.map_eq_some_iff.mp e
    cases e2
    refine ⟨?_, nil⟩
    unfold setMaxProcessSize at e1
    split at e1
    · cases e1; exact less h
    · exact kin_of_waiting (again (u := { s with maxProcessSize := n }) rfl rfl e1).2
  | setKeyFrameMap m =>
    cases e
    refine ⟨?_, nil⟩
    show Kin env fed _
    unfold setKeyFrameMap
    split
    · exact h
    · split
      · exact h
      · exact h
  | study input final =>
    obtain ⟨t, e1, e2⟩ := Option.map_eq_some_iff.mp e
    cases e2
    exact ⟨study_kin hforget hp hz h e1, nil⟩
  | process input final =>
    obtain ⟨t, e1, e2⟩ := Option.map_eq_some_iff.mp e
    cases e2
    refine ⟨process_kin hap hp hch hi ?_ hk hz h e1, nil⟩
    intro hf hnil
    subst hf hnil
    exact hc
  | available =>
    obtain ⟨⟨t, n⟩, e1, e2⟩ := Option.map_eq_some_iff.mp e
    cases e2
    obtain ⟨u, e3, e4⟩ := Option.map_eq_some_iff.mp e1
    cases e4
    exact ⟨finish_kin hp h e3, nil⟩
  | retrieve n =>
    cases e
    exact retrieve_kin hap h n
  | reset =>
    obtain ⟨t, e1, e2⟩ := Option.map_eq_some_iff.mp e
    cases e2
    refine ⟨?_, nil⟩
    unfold reset at e1
    refine kin_of_waiting (reconfigure_kin hp hch (x := (Chan.reset env x).core) ?_ ?_ ?_ e1).2
    · show (s.chans.map (Chan.reset env)).length = _
      rw [List.length_map]; exact hk.length
    · intro cd hcd
      obtain ⟨c, hc, rfl⟩ := List.mem_map.mp hcd
      exact ⟨(hk.roomy c hc).inbuf, (hk.roomy c hc).outbuf⟩
    · intro cd hcd
      obtain ⟨c, hc, rfl⟩ := List.mem_map.mp hcd
      exact (hx c hc).reset

theorem run_kin (hforget : ∀ k s l, env.specReset (env.studyCurve k s l).2.1 = env.specReset s) (hap : Apart p) (hp : p.realTime = false) (hch : 1 ≤ p.channels) (h1 : 8000 ≤ p.rate) (h2 : p.rate ≤ 192000) :
    ∀ (cs : List (Call α)) {fed : Bool} {s s' : State α σ ρ κ} {outs : List (List (List α))}, (∀ c ∈ cs, ∀ f ∈ c.input, EvenFrame f) → Heard fed cs = true → Kept p s → Kin env fed s →
      run p env s cs = some (s', outs) → ∀ o ∈ outs, ∀ a ∈ o, ∀ b ∈ o, a = b := by
  intro cs
  induction cs with
  | nil => intro fed s s' outs _ _ _ _ e; cases e; intro o ho; cases ho
  | cons c cs ih =>
    intro fed s s' outs hi hh hk h e
    unfold run at e
    obtain ⟨⟨t, o⟩, e1, e⟩ := Option.bind_eq_some_iff.mp e
    obtain ⟨⟨u, os⟩, e2, e⟩ := Option.bind_eq_some_iff.mp e
    cases e
    unfold Heard at hh
    obtain ⟨hh1, hh2⟩ := Bool.and_eq_true_iff.mp hh
    obtain ⟨k1, k2⟩ := call_kin hforget hap hp hch h1 h2 (hi c (List.mem_cons_self ..)) hh1 hk h e1
    intro o' ho'
    rcases List.mem_cons.mp ho' with rfl | ho'
    · exact k2
    · exact ih (fun c hc => hi c (List.mem_cons_of_mem _ hc)) hh2 (call_kept hp hk e1) k1 e2 o' ho'

theorem run_twins_realTime (hap : Apart p) (hp : p.realTime = true) : ∀ (cs : List (Call α)) {s s' : State α σ ρ κ} {outs : List (List (List α))}, (∀ c ∈ cs, ∀ f ∈ c.input, EvenFrame f) → Twins s →
    run p env s cs = some (s', outs) → ∀ o ∈ outs, ∀ a ∈ o, ∀ b ∈ o, a = b := by
  intro cs
  induction cs with
  | nil => intro s s' outs _ _ e; cases e; intro o ho; cases ho
  | cons c cs ih =>
    intro s s' outs hi h e
    unfold run at e
    obtain ⟨⟨t, o⟩, e1, e⟩ := Option.bind_eq_some_iff.mp e
    obtain ⟨⟨u, os⟩, e2, e⟩ := Option.bind_eq_some_iff.mp e
    cases e
    have hcall : Twins t ∧ ∀ a ∈ o, ∀ b ∈ o, a = b := by
      cases hc : c.plain with
      | true => exact call_twins hap (hi c (List.mem_cons_self ..)) hc h e1
      | false =>
        cases c with
        | study input final =>
          obtain ⟨t', e3, e4⟩ := Option.map_eq_some_iff.mp e1
          cases e4
          unfold study at e3
          rw [if_pos hp] at e3
          cases e3
          exact ⟨h, fun a ha => absurd ha (by simp)⟩
        | _ => cases hc
    intro o' ho'
    rcases List.mem_cons.mp ho' with rfl | ho'
    · exact hcall.2
    · exact ih (fun c hc => hi c (List.mem_cons_of_mem _ hc)) hcall.1 e2 o' ho'

/-- **C114**, with studies: channels processed apart that are given the same audio, to `study` as to `process`, come out the same in any history of calls, unless offline the input is ended by an empty block with nothing
given since the engine was made, reset or configured anew.  (That is the case in which it fails, see `C114_violated`.)  It is granted that a reset forgets what a study did to the spectral state. -/
theorem C114_studied_partial (hforget : ∀ k x l, env.specReset (env.studyCurve k x l).2.1 = env.specReset x) (hap : Apart p) (hch : 1 ≤ p.channels) (h1 : 8000 ≤ p.rate) (h2 : p.rate ≤ 192000)
    {timeRatio pitchScale : R3.Dbl} {s₀ s : State α σ ρ κ} {cs : List (Call α)} {outs : List (List (List α))} (h0 : create p env timeRatio pitchScale = some s₀)
    (hi : ∀ c ∈ cs, ∀ f ∈ c.input, ∀ i, f i = f 0) (hheard : p.realTime = false → Heard false cs = true) (hrun : run p env s₀ cs = some (s, outs)) : ∀ o ∈ outs, ∀ a ∈ o, ∀ b ∈ o, a = b := by
  cases hp : p.realTime with
  | true => exact run_twins_realTime hap hp cs hi (create_twins h0) hrun
  | false =>
    refine run_kin hforget hap hp hch h1 h2 cs hi (hheard hp) (create_kept hp h0) ?_ hrun
    have hk := create_kept hp h0
    obtain ⟨y, hy⟩ := configure_kin (env := env) hp (x := (Chan.core { inbuf := ⟨0, []⟩, outbuf := ⟨0, []⟩, fltbuf := fun _ => 0, spec := env.specInit } : Chan α σ ρ)) (fun cd hcd => absurd hcd (by simp)) h0
    have hm : s₀.mode = .justCreated := (configure_clean hp (fun h => by cases h) h0).2.1
    refine kin_of_waiting ⟨y, waiting_of_clean ?_ hy (hk.clean hm)⟩
    intro hnil
    have := hk.length
    rw [hnil] at this
    simp only [List.length_nil] at this
    omega

end

/-- A case to which `C114_studied_partial` applies, in which something is heard: 300 samples are studied, and then processed in two blocks. -/
example : ∃ s₀ s outs, create Ex.two Ex.summing (.fin 1) (.fin 1) = some s₀ ∧
    run Ex.two Ex.summing s₀ [.study (Ex.level 300) true, .process (Ex.level 100) false, .process (Ex.level 200) true, .available, .retrieve 30] = some (s, outs) ∧
      (∃ o ∈ outs, o.map List.length = [30, 30] ∧ ∃ a ∈ o, ∃ x ∈ a, x ≠ 0) ∧ ∀ o ∈ outs, ∀ a ∈ o, ∀ b ∈ o, a = b := by
  have hrun : (create Ex.two Ex.summing (.fin 1) (.fin 1)).bind (fun s₀ => (run Ex.two Ex.summing s₀ [.study (Ex.level 300) true, .process (Ex.level 100) false, .process (Ex.level 200) true, .available,
      .retrieve 30]).map fun y => y.2.any fun o => decide (o.map List.length = [30, 30]) && o.any fun a => a.any fun x => decide (x ≠ 0)) = some true := by decide +kernel
  obtain ⟨s₀, h1, h2⟩ := Option.bind_eq_some_iff.mp hrun
  obtain ⟨⟨s, outs⟩, h3, h4⟩ := Option.map_eq_some_iff.mp h2
  simp only [List.any_eq_true, Bool.and_eq_true, decide_eq_true_eq] at h4
  refine ⟨s₀, s, outs, h1, h3, h4, C114_studied_partial (fun _ _ _ => rfl) (Or.inl rfl) (by decide) (by decide) (by decide) h1 ?_ (fun _ => by decide) h3⟩
  intro c hc
  simp only [List.mem_cons, List.not_mem_nil, or_false] at hc
  rcases hc with rfl | rfl | rfl | rfl | rfl
  · exact Ex.level_level 300
  · exact Ex.level_level 100
  · exact Ex.level_level 200
  · intro f hf; cases hf
  · intro f hf; cases hf

end Verif.R2
