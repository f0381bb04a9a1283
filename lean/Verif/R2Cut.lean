import Verif.R2Grown
import Verif.R2OfflineProps
/-!
# The faster engine in real time: what comes out does not depend on how the input is cut into blocks (for C116)

A channel is looked at as if its buffers had no limits: `bare`.  A chunk of it is then a function of it, `quietOne`, and more input at the end of
the input buffer (`feed`) makes no difference to a chunk for which there was enough.
-/
namespace Verif.R2
open Verif.StretchCalc Verif.Round

variable {α σ ρ κ : Type}

/-- StretcherProcess.cpp:483-487: the room that is made sure of for `si` samples. -/
def needs (z : Sizes) (si : Nat) : Nat := if z.pitchScale ≠ 1 then ((si : Rat) / z.pitchScale).floor.toNat + 1 else si

/-- The resampler, if it is used after stretching, never gives more than is made room for. -/
def Confined (p : Params) (env : Env α σ ρ κ) (z : Sizes) : Prop :=
  (decide (z.pitchScale ≠ 1) || p.highConsistency) = true → ∀ r room xs, (env.resample r room xs (1 / z.pitchScale) false).2.length ≤ needs z xs.length

/-- A channel with buffers without limits, to which `d` was written before. -/
def bare (d : List α) (cd : Chan α σ ρ) : Chan α σ ρ :=
  { cd with inbuf := ⟨0, cd.inbuf.data⟩, outbuf := ⟨0, d ++ cd.outbuf.data⟩, inCount := 0, outCount := 0 }

/-- A chunk of a channel with buffers without limits, when it is not being drained: as `processChunk`, StretcherProcess.cpp:421-519. -/
def quietChunk (p : Params) (env : Env α σ ρ κ) (z : Sizes) (i : Incs) (cd : Chan α σ ρ) : Option (Chan α σ ρ) :=
  let cd := spectral env z i cd
  if i.shift > cd.accumulatorFill then none
  else
    let y := resampled p env z cd ((List.range i.shift).map (env.emit cd.spec)) false
    let cd := { y.1 with outbuf := ⟨0, y.1.outbuf.data ++ y.2⟩ }
    let cd := lessFill i.shift { cd with spec := env.shift cd.spec cd.accumulatorFill i.shift }
    some { cd with chunkCount := cd.chunkCount + 1 }

/-- As `eachChunk`, StretcherProcess.cpp:367-371. -/
def quietEach (p : Params) (env : Env α σ ρ κ) (z : Sizes) (i : Incs) : List (Chan α σ ρ) → Option (List (Chan α σ ρ))
  | [] => some []
  | cd :: cds => do
    let cd ← quietChunk p env z i cd
    let cds ← quietEach p env z i cds
    pure (cd :: cds)

/-- As `takeFrames`, StretcherProcess.cpp:345-359. -/
def framed (env : Env α σ ρ κ) (s : State α σ ρ κ) : State α σ ρ κ := { s with chans := s.chans.map fun cd => analyseChunk env s.sizes (takeFrame s.sizes cd) }

/-- As `processOneChunk`, StretcherProcess.cpp:330-373, when there is a frame in each channel. -/
def quietOne (p : Params) (env : Env α σ ρ κ) (s : State α σ ρ κ) : Option (State α σ ρ κ) :=
  let y := calculateIncrements env (framed env s)
  (quietEach p env s.sizes y.2 y.1.chans).map fun chans => { y.1 with chans := chans }

/-- All channels with buffers without limits. -/
def bares (ds : List (List α)) (s : State α σ ρ κ) : State α σ ρ κ := { s with mode := .processing, chans := List.zipWith bare ds s.chans }

section
variable {p : Params} {env : Env α σ ρ κ} {z : Sizes}

/-- There is room in the output buffer, once made longer, for what a chunk may give. -/
structure Spare (z : Sizes) (cd : Chan α σ ρ) : Prop where
  within : cd.outbuf.data.length ≤ cd.outbuf.cap
  wide : ∀ si, si ≤ max cd.accumulatorFill z.window → needs z si ≤ cd.outbuf.cap

theorem ensure_spare {cd : Chan α σ ρ} (hw : cd.outbuf.data.length ≤ cd.outbuf.cap) {si : Nat} (hn : needs z si ≤ cd.outbuf.cap) :
    ∃ q, ensureOutbuf z si cd = { cd with outbuf := q } ∧ q.data = cd.outbuf.data ∧ needs z si ≤ q.writeSpace := by
  have e : ensureOutbuf z si cd = if cd.outbuf.writeSpace < needs z si then { cd with outbuf := cd.outbuf.resized (cd.outbuf.cap * 2) } else cd := rfl
  rw [e]
  split
  · refine ⟨_, rfl, List.take_of_length_le (by omega), ?_⟩
    unfold Fifo.writeSpace Fifo.resized
    simp only [List.length_take]
    omega
  · exact ⟨_, rfl, rfl, by omega⟩

theorem write_room (T : Nat) (hT : T = 0) (cd : Chan α σ ρ) (out : List α) (h : out.length ≤ cd.outbuf.writeSpace) :
    ∃ n, writeOutput 0 T cd out = { cd with outbuf := { cd.outbuf with data := cd.outbuf.data ++ out }, outCount := n } := by
  subst hT
  have e : cd.outbuf.write out = { cd.outbuf with data := cd.outbuf.data ++ out } := by
    unfold Fifo.write; rw [List.take_of_length_le h]
  unfold writeOutput
  split
  · simp only [gt_iff_lt, Nat.lt_irrefl, false_and, if_false, List.take_length]
    rw [e]
    exact ⟨_, rfl⟩
  · split
    · rename_i h1
      have : out = [] := List.eq_nil_of_length_eq_zero (by omega)
      subst this
      rw [List.append_nil]
      exact ⟨_, rfl⟩
    · rw [Nat.zero_sub, List.drop_zero, e]
      exact ⟨_, rfl⟩

theorem bare_resampled (d : List α) (cd : Chan α σ ρ) (mix : List α) (last : Bool) :
    resampled p env z (bare d cd) mix last = (bare d (resampled p env z cd mix last).1, (resampled p env z cd mix last).2) := by
  unfold resampled
  have : (bare d cd).resampler = cd.resampler := rfl
  rw [this]
  cases cd.resampler with
  | none => rfl
  | some r =>
    cases (!resampleBefore p z.pitchScale && (decide (z.pitchScale ≠ 1) || p.highConsistency)) <;> rfl

theorem resampled_outbuf (cd : Chan α σ ρ) (q : Fifo α) (mix : List α) (last : Bool) :
    resampled p env z { cd with outbuf := q } mix last = ({ (resampled p env z cd mix last).1 with outbuf := q }, (resampled p env z cd mix last).2) := by
  obtain ⟨a, b, c, d, e, f, g, h, i, j, k, l, m, n⟩ := cd
  unfold resampled
  cases e with
  | none => rfl
  | some r => cases (!resampleBefore p z.pitchScale && (decide (z.pitchScale ≠ 1) || p.highConsistency)) <;> rfl

theorem resampled_keeps (cd : Chan α σ ρ) (mix : List α) (last : Bool) : (resampled p env z cd mix last).1.outbuf = cd.outbuf ∧ (resampled p env z cd mix last).1.inbuf = cd.inbuf ∧
    (resampled p env z cd mix last).1.inputSize = cd.inputSize := by
  unfold resampled
  split <;> exact ⟨rfl, rfl, rfl⟩

theorem needs_self (hn : (decide (z.pitchScale ≠ 1) || p.highConsistency) = false) (n : Nat) : needs z n = n := by
  unfold needs
  have := (Bool.or_eq_false_iff.mp hn).1
  rw [if_neg (of_decide_eq_false this)]

theorem resampled_fits (hb : resampleBefore p z.pitchScale = false) (hf : Confined p env z) {cd : Chan α σ ρ} (hr : cd.resampler.isSome = true) (mix : List α) :
    (resampled p env z cd mix false).2.length ≤ needs z mix.length := by
  unfold resampled
  rw [hb]
  cases hx : (decide (z.pitchScale ≠ 1) || p.highConsistency) with
  | true =>
    obtain ⟨r, e⟩ := Option.isSome_iff_exists.mp hr
    rw [e]
    simp only [Bool.not_false, Bool.and_self]
    exact le_trans (List.length_take_le' _ _) (hf hx _ _ _)
  | false =>
    rw [needs_self hx]
    cases cd.resampler <;> exact le_refl _

theorem bare_lessFill (d : List α) (si : Nat) (cd : Chan α σ ρ) : lessFill si (bare d cd) = bare d (lessFill si cd) := by
  unfold lessFill
  have : (bare d cd).accumulatorFill = cd.accumulatorFill := rfl
  rw [this]
  split <;> rfl

theorem bare_spectral (d : List α) (i : Incs) (cd : Chan α σ ρ) : spectral env z i (bare d cd) = bare d (spectral env z i cd) := by
  unfold spectral
  have : (bare d cd).draining = cd.draining := rfl
  rw [this]
  split <;> rfl

/-- A chunk of a channel whose input has not ended, and whose output buffer has room, is one with buffers without limits. -/
theorem quiet_chunk (hrt : p.realTime = true) (hb : resampleBefore p z.pitchScale = false) (hf : Confined p env z) {i : Incs} {cd : Chan α σ ρ} (hu : cd.unended) (hs : Spare z cd)
    (hr : cd.resampler.isSome = true) {r : Chan α σ ρ × Bool} (h : processChunk p env z i cd = some r) (d : List α) :
    quietChunk p env z i (bare d cd) = some (bare d { r.1 with chunkCount := r.1.chunkCount + 1 }) := by
  unfold processChunk at h
  unfold quietChunk
  rw [bare_spectral]
  have s : (spectral env z i cd).draining = false ∧ (spectral env z i cd).inputSize = none ∧ (spectral env z i cd).outbuf = cd.outbuf ∧
      (spectral env z i cd).accumulatorFill = max cd.accumulatorFill z.window ∧ (spectral env z i cd).resampler.isSome = true := by
    unfold spectral
    rw [if_neg (by rw [hu.2]; exact Bool.false_ne_true)]
    exact ⟨hu.2, hu.1, rfl, rfl, hr⟩
  obtain ⟨s1, s2, s3, s4, s5⟩ := s
  simp only at h ⊢
  generalize spectral env z i cd = x at *
  rw [if_neg (by rw [s1]; exact Bool.false_ne_true)] at h
  obtain ⟨y, hy, rfl⟩ := Option.map_eq_some_iff.mp h
  unfold writeChunk at hy
  have fill : ∀ q : Fifo α, ({ x with outbuf := q } : Chan α σ ρ).accumulatorFill = x.accumulatorFill := fun _ => rfl
  by_cases hsi : i.shift > x.accumulatorFill
  · exfalso
    have : (ensureOutbuf z i.shift x).accumulatorFill = x.accumulatorFill := by
      unfold ensureOutbuf; simp only; split <;> split <;> rfl
    rw [this, if_pos hsi] at hy
    cases hy
  · obtain ⟨q, q1, q2, q3⟩ := ensure_spare (z := z) (cd := x) (si := i.shift) (by rw [s3]; exact hs.within) (by rw [s3]; exact hs.wide _ (by omega))
    rw [q1, fill, if_neg hsi] at hy
    have b1 : (bare d x).accumulatorFill = x.accumulatorFill := rfl
    rw [b1, if_neg hsi]
    simp only [Option.some.injEq] at hy ⊢
    have b2 : (bare d x).spec = x.spec := rfl
    rw [b2, bare_resampled]
    generalize hm : (List.range i.shift).map (env.emit x.spec) = mix at *
    rw [resampled_outbuf] at hy
    have l1 := resampled_fits hb hf s5 mix
    obtain ⟨k1, _, k3⟩ := resampled_keeps (p := p) (env := env) (z := z) x mix false
    have hmix : mix.length = i.shift := by rw [← hm, List.length_map, List.length_range]
    rw [hmix] at l1
    generalize resampled p env z x mix false = y at *
    have t0 : theoreticalOut z { y.1 with outbuf := q } = 0 := by
      unfold theoreticalOut
      have : ({ y.1 with outbuf := q } : Chan α σ ρ).inputSize = none := k3.trans s2
      rw [this]
    have t1 : startSkip p z = 0 := by unfold startSkip; rw [if_pos hrt]
    obtain ⟨n, w⟩ := write_room _ t0 { y.1 with outbuf := q } y.2 (le_trans l1 q3)
    simp only at hy
    rw [t1, w] at hy
    simp only at hy
    rw [← hy, q2, ← k1]
    by_cases hfill : y.1.accumulatorFill > i.shift
    · simp only [bare, lessFill, hfill, if_true, List.append_assoc]
    · simp only [bare, lessFill, hfill, if_false, List.append_assoc]

/-! ## All channels -/

theorem bare_frame (d : List α) (cd : Chan α σ ρ) : analyseChunk env z (takeFrame z (bare d cd)) = bare d (analyseChunk env z (takeFrame z cd)) := by
  unfold takeFrame
  have : (bare d cd).draining = cd.draining := rfl
  rw [this]
  cases cd.draining <;> rfl

theorem bare_frames : ∀ (ds : List (List α)) (l : List (Chan α σ ρ)), (List.zipWith bare ds l).map (fun cd => analyseChunk env z (takeFrame z cd)) =
    List.zipWith bare ds (l.map fun cd => analyseChunk env z (takeFrame z cd)) := by
  intro ds
  induction ds with
  | nil => intro l; rfl
  | cons d ds ih =>
    intro l
    cases l with
    | nil => rfl
    | cons cd l =>
      simp only [List.zipWith_cons_cons, List.map_cons, ih]
      rw [bare_frame]

theorem bare_specs : ∀ (ds : List (List α)) (l : List (Chan α σ ρ)), ds.length = l.length → (List.zipWith bare ds l).map (fun cd => cd.spec) = l.map (fun cd => cd.spec) := by
  intro ds
  induction ds with
  | nil =>
    intro l h
    cases l with
    | nil => rfl
    | cons cd l => cases h
  | cons d ds ih =>
    intro l h
    cases l with
    | nil => rfl
    | cons cd l =>
      simp only [List.zipWith_cons_cons, List.map_cons, ih l (Nat.succ.inj h)]
      rfl

theorem bare_counts (n : Nat) : ∀ (ds : List (List α)) (l : List (Chan α σ ρ)), ds.length = l.length → ((List.zipWith bare ds l).all fun cd => cd.chunkCount == n) = l.all fun cd => cd.chunkCount == n := by
  intro ds
  induction ds with
  | nil =>
    intro l h
    cases l with
    | nil => rfl
    | cons cd l => cases h
  | cons d ds ih =>
    intro l h
    cases l with
    | nil => rfl
    | cons cd l =>
      simp only [List.zipWith_cons_cons, List.all_cons, ih l (Nat.succ.inj h)]
      rfl

/-- StretcherProcess.cpp:568-648, from what there is in the channels: the curves, the calculator, how much silence there was, and the increments. -/
def reckoned (env : Env α σ ρ κ) (z : Sizes) (curves : κ) (calculator : Calc) (silent : Nat) (specs : List σ) (r : Option ρ) (prev : Nat) : κ × Calc × Nat × Incs :=
  let c := env.curve curves specs
  let y := single env z calculator r c.2.1
  let history := if c.2.2 then silent + 1 else 0
  (c.1, y.1, history, ⟨if prev = 0 then y.2.natAbs else prev, y.2.natAbs, decide (y.2 < 0) || decide (history ≥ z.window / z.increment)⟩)

theorem calculate_cons {s : State α σ ρ κ} {cd : Chan α σ ρ} {cds : List (Chan α σ ρ)} (h : s.chans = cd :: cds) : calculateIncrements env s =
    if cds.all (fun d => d.chunkCount == cd.chunkCount) = true then
      let y := reckoned env s.sizes s.curves s.calculator s.silentHistory (cd.spec :: cds.map fun d => d.spec) cd.resampler cd.prevIncrement
      ({ s with curves := y.1, calculator := y.2.1, silentHistory := y.2.2.1, chans := { cd with prevIncrement := y.2.2.2.shift } :: cds }, y.2.2.2)
    else (s, ⟨s.sizes.increment, s.sizes.increment, false⟩) := by
  obtain ⟨z, o, m, e, du, md, chans, ca, cu, oi, df, si, sh⟩ := s
  simp only at h
  subst h
  rfl

theorem bare_calculate {ds : List (List α)} {s : State α σ ρ κ} (hl : ds.length = s.chans.length) :
    calculateIncrements env (bares ds s) = (bares ds (calculateIncrements env s).1, (calculateIncrements env s).2) := by
  obtain ⟨z, o, m, e, du, md, chans, ca, cu, oi, df, si, sh⟩ := s
  cases chans with
  | nil =>
    cases ds with
    | nil => rfl
    | cons d ds => cases hl
  | cons cd cds =>
    cases ds with
    | nil => cases hl
    | cons d ds =>
      have hl : ds.length = cds.length := Nat.succ.inj hl
      rw [calculate_cons (s := bares (d :: ds) _) (cd := bare d cd) (cds := List.zipWith bare ds cds) rfl, calculate_cons (s := State.mk z o m e du md (cd :: cds) ca cu oi df si sh) rfl, bare_counts _ _ _ hl,
        bare_specs _ _ hl]
      by_cases h : (cds.all fun d => d.chunkCount == cd.chunkCount) = true
      · have h' : (cds.all fun x => x.chunkCount == (bare d cd).chunkCount) = true := h
        rw [if_pos h', if_pos h]
        rfl
      · have h' : ¬ (cds.all fun x => x.chunkCount == (bare d cd).chunkCount) = true := h
        rw [if_neg h', if_neg h]
        rfl

theorem quiet_each (hrt : p.realTime = true) (hb : resampleBefore p z.pitchScale = false) (hf : Confined p env z) (i : Incs) : ∀ (l : List (Chan α σ ρ)) (ds : List (List α)) (last : Bool)
    (r : List (Chan α σ ρ) × Bool), ds.length = l.length → (∀ cd ∈ l, cd.unended ∧ Spare z cd ∧ cd.resampler.isSome = true) → eachChunk p env z i l last = some r →
    quietEach p env z i (List.zipWith bare ds l) = some (List.zipWith bare ds r.1) := by
  intro l
  induction l with
  | nil =>
    intro ds last r _ _ h
    cases h
    simp only [List.zipWith_nil_right]
    rfl
  | cons cd l ih =>
    intro ds last r hl hc h
    cases ds with
    | nil => cases hl
    | cons d ds =>
      unfold eachChunk at h
      obtain ⟨y, hy, h⟩ := Option.bind_eq_some_iff.mp h
      obtain ⟨ys, hys, h⟩ := Option.bind_eq_some_iff.mp h
      cases h
      obtain ⟨a1, a2, a3⟩ := hc cd (List.mem_cons_self ..)
      have e := quiet_chunk hrt hb hf a1 a2 a3 hy d
      have es := ih ds _ _ (Nat.succ.inj hl) (fun x hx => hc x (List.mem_cons_of_mem _ hx)) hys
      simp only [List.zipWith_cons_cons]
      unfold quietEach
      rw [e, es]
      rfl

theorem taken_frame {cd : Chan α σ ρ} (hu : cd.unended) (hw : z.window ≤ cd.inbuf.readSpace) : testInbuf z cd = (cd, true) ∧ taken env z cd = analyseChunk env z (takeFrame z cd) := by
  have e : testInbuf z cd = (cd, true) := by
    unfold testInbuf
    simp only
    rw [if_neg (by omega)]
  refine ⟨e, ?_⟩
  unfold taken
  rw [e]
  simp only
  rw [if_neg (by rw [hu.2]; exact Bool.false_ne_true)]

/-- A chunk when there is a frame in each channel. -/
theorem quiet_one (hrt : p.realTime = true) {s : State α σ ρ κ} {r : State α σ ρ κ × Bool} (hb : resampleBefore p s.sizes.pitchScale = false) (hf : Confined p env s.sizes) {ds : List (List α)}
    (hl : ds.length = s.chans.length) (hi : s.outputIncrements = []) (hc : ∀ cd ∈ s.chans, cd.unended ∧ Spare s.sizes cd ∧ cd.resampler.isSome = true)
    (hw : ∀ cd ∈ s.chans, s.sizes.window ≤ cd.inbuf.readSpace) (h : processOneChunk p env s = some r) : quietOne p env (bares ds s) = some (bares ds r.1) := by
  unfold processOneChunk at h
  rw [takeFrames_ready s.sizes s.chans fun cd hcd => by rw [(taken_frame (env := env) (hc cd hcd).1 (hw cd hcd)).1]] at h
  have e : s.chans.map (taken env s.sizes) = s.chans.map fun cd => analyseChunk env s.sizes (takeFrame s.sizes cd) :=
    List.map_congr_left fun cd hcd => (taken_frame (hc cd hcd).1 (hw cd hcd)).2
  rw [e] at h
  simp only [if_true] at h
  rw [choose_eq (s := { s with chans := s.chans.map fun cd => analyseChunk env s.sizes (takeFrame s.sizes cd) }) hi] at h
  have hc1 : ∀ cd ∈ s.chans.map (fun cd => analyseChunk env s.sizes (takeFrame s.sizes cd)), cd.unended ∧ Spare s.sizes cd ∧ cd.resampler.isSome = true := by
    intro cd hcd
    obtain ⟨x, hx, rfl⟩ := List.mem_map.mp hcd
    obtain ⟨b1, b2, b3⟩ := hc x hx
    unfold takeFrame
    rw [if_neg (by rw [b1.2]; exact Bool.false_ne_true)]
    exact ⟨b1, ⟨b2.within, b2.wide⟩, b3⟩
  have key : framed env (bares ds s) = bares ds (framed env s) := by
    unfold framed bares
    simp only
    rw [bare_frames]
  unfold quietOne
  have hz : (bares ds s).sizes = s.sizes := rfl
  simp only
  rw [hz, key, bare_calculate (by unfold framed; simp only [List.length_map]; exact hl)]
  unfold framed
  have hl1 : ds.length = (s.chans.map fun cd => analyseChunk env s.sizes (takeFrame s.sizes cd)).length := by rw [List.length_map]; exact hl
  generalize (s.chans.map fun cd => analyseChunk env s.sizes (takeFrame s.sizes cd)) = l at *
  have hc2 : (∀ cd ∈ (calculateIncrements env { s with chans := l }).1.chans, cd.unended ∧ Spare s.sizes cd ∧ cd.resampler.isSome = true) ∧
      (calculateIncrements env { s with chans := l }).1.chans.length = l.length := by
    unfold calculateIncrements
    split
    · exact ⟨hc1, rfl⟩
    · rename_i cd cds heq
      simp only at heq
      subst heq
      split
      · refine ⟨?_, rfl⟩
        intro x hx
        rcases List.mem_cons.mp hx with rfl | hx
        · obtain ⟨b1, b2, b3⟩ := hc1 cd (List.mem_cons_self ..)
          exact ⟨b1, ⟨b2.within, b2.wide⟩, b3⟩
        · exact hc1 x (List.mem_cons_of_mem _ hx)
      · exact ⟨hc1, rfl⟩
  obtain ⟨k1, _, _⟩ := calculate_keeps (env := env) { s with chans := l }
  generalize calculateIncrements env { s with chans := l } = y at *
  obtain ⟨x, hx, h⟩ := Option.bind_eq_some_iff.mp h
  cases h
  have hx := quiet_each hrt (by rw [k1]; exact hb) (by rw [k1]; exact hf) _ _ ds _ _ (hl1.trans hc2.2.symm) (by rw [k1]; exact hc2.1) hx
  simp only [bares]
  rw [k1] at hx
  simp only at hx
  rw [hx]
  rfl

end
end Verif.R2
