import Verif.LiveAudioProps
/-!
# The live shifter: channels of the same audio (C121), resets (C122)
-/
namespace Verif.LiveAudio
open Verif.R3 (Frame Spectral Open spectralRound builtinResample PitchOk Split)
open Verif.Live (blockSize)

variable {κ : Type}

/-! ## C121 -/

/-- Without mid/side: equal channels. -/
theorem keeps_same {c : Conf} (hm : c.engine.useMidSide = false) (o : Open κ) (w : Nat → Rat → Nat → ℝ) {i j : Nat} (hi : i < c.channels) (hj : j < c.channels) :
    Keeps c o (builtin (resamplerCfg c w)) (fun f => f i = f j) (fun f => f i = f j) (fun f => f i = f j)
      (fun d => R3.Fits c.engine d ∧ d.chans[i]? = d.chans[j]? ∧ ∀ n ∈ c.engine.scales, (d.guided n)[i]? = (d.guided n)[j]?) RatioOk (fun _ => Whole (resamplerCfg c w) fun m => m i = m j) where
  zero := rfl
  zeroOut := rfl
  enc := by intro f hf; unfold encode; rw [hm]; exact hf
  dec := by intro f hf; unfold decode; rw [hm]; exact hf
  quieter := by intro f hf; show f i * _ = f j * _; rw [hf]
  resetDsp := fun h => ⟨R3.reset_fits o h.1, R3.reset_same c.engine o h.2.1 h.2.2⟩
  round := by
    intro d on hop n b hd hb
    obtain ⟨r, h1, h2, _, h4, h5, h6⟩ := R3.spectralRound_same (p := c.engine) (Nat.lt_of_le_of_lt (Nat.zero_le _) hi) hm { o with preserved := on } hd.1 hi hj hd.2.1 hd.2.2 hop
      (sources := (List.range c.channels).map fun k => (List.range n).map fun i => ((b[i]?).getD silence) k) (by rw [List.length_map, List.length_range]; rfl) (by
        rw [List.getElem?_map, List.getElem?_map, List.getElem?_range hi, List.getElem?_range hj]
        simp only [Option.map_some, Option.some.injEq]
        refine List.map_congr_left fun a _ => ?_
        cases e : b[a]? with
        | none => rfl
        | some f => exact hb f (List.mem_of_getElem? e))
    exact ⟨r, h1, ⟨h2, h4, h5⟩, fun a => by simp only [h6]⟩
  resetRs := fun h _ => reset_whole (fun m hm => by simp only [hm]) h
  resample := by
    intro r n b q hq hr hb
    obtain ⟨x', m, m', out, k, e1, e2, e3, e4, e5, e6, e7⟩ := whole_call (cfg := resamplerCfg c w) (Nat.lt_of_le_of_lt (Nat.zero_le _) hi) hr n b hq
    have g1 := e7 i hi
    have g2 := e7 j hj
    rw [e3, show b.map (fun f => f i) = b.map fun f => f j from List.map_congr_left hb, g2] at g1
    obtain ⟨g3, g4, _⟩ : m' j = m' i ∧ out j = out i ∧ k = k := by simpa using g1
    show (builtinResample _ _ _ _ _ _).2.length ≤ n ∧ Whole _ _ (builtinResample _ _ _ _ _ _).1 ∧ ∀ f ∈ (builtinResample _ _ _ _ _ _).2, _
    refine ⟨e6, ?_, ?_⟩
    · rw [e1]
      refine ⟨by simp, fun y hy => ?_⟩
      cases hy
      exact ⟨m', e4, e5, g3.symm⟩
    · rw [e2]
      intro f hf
      obtain ⟨a, _, rfl⟩ := List.mem_map.mp hf
      show (if i < (resamplerCfg c w).channels then _ else _) = (if j < (resamplerCfg c w).channels then _ else _)
      rw [if_pos (show i < (resamplerCfg c w).channels from hi), if_pos (show j < (resamplerCfg c w).channels from hj), g4]

/-- With mid/side: the side is silent. -/
theorem keeps_side {c : Conf} (hm : c.engine.useMidSide = true) (o : Open κ) (w : Nat → Rat → Nat → ℝ) :
    Keeps c o (builtin (resamplerCfg c w)) (fun f => f 0 = f 1) (fun f => f 1 = 0) (fun f => f 0 = f 1)
      (fun d => R3.Fits c.engine d ∧ ∀ x, d.chans[1]? = some x → R3.Hush c.engine x) RatioOk (fun _ => Whole (resamplerCfg c w) fun m => (m 1).Silent) where
  zero := rfl
  zeroOut := rfl
  enc := by
    intro f hf
    unfold encode
    rw [hm, if_pos rfl]
    show (f 0 - f 1) / 2 = 0
    rw [hf, sub_self, zero_div]
  dec := by
    intro f hf
    unfold decode
    rw [hm, if_pos rfl]
    show f 0 + f 1 = f 0 - f 1
    rw [hf, add_zero, sub_zero]
  quieter := by intro f hf; show f 0 * _ = f 1 * _; rw [hf]
  resetDsp := fun h => ⟨R3.reset_fits o h.1, fun x hx => R3.reset_hush _ o _ x (List.mem_of_getElem? hx)⟩
  round := by
    intro d on hop n b hd hb
    have h2 : c.channels = 2 := by
      simp only [R3.Params.useMidSide, Bool.and_eq_true, beq_iff_eq] at hm
      exact hm.1
    obtain ⟨r, h1, h3, _, h4, h5⟩ := R3.spectralRound_mute_at (p := c.engine) (show 0 < c.channels by omega) { o with preserved := on } hd.1 (k := 1) (show 1 < c.channels by omega) hd.2 hop
      (sources := (List.range c.channels).map fun k => (List.range n).map fun i => ((b[i]?).getD silence) k) (by rw [List.length_map, List.length_range]; rfl) (by
        intro x hx a ha
        rw [List.getElem?_map, List.getElem?_range (show 1 < c.channels by omega)] at hx
        cases hx
        obtain ⟨i, _, rfl⟩ := List.mem_map.mp ha
        cases e : b[i]? with
        | none => rfl
        | some f => exact hb f (List.mem_of_getElem? e))
    refine ⟨r, h1, ⟨h3, h4⟩, fun i => ?_⟩
    show ((r.2[1]?).getD fun _ => 0) i = 0
    cases e : r.2[1]? with
    | none => rfl
    | some m => exact h5 m e i
  resetRs := fun h _ => reset_whole (fun m hm => hm) h
  resample := by
    intro r n b q hq hr hb
    have h2 : c.channels = 2 := by
      simp only [R3.Params.useMidSide, Bool.and_eq_true, beq_iff_eq] at hm
      exact hm.1
    have hi : 1 < (resamplerCfg c w).channels := by show 1 < c.channels; omega
    obtain ⟨x', m, m', out, k, e1, e2, e3, e4, e5, e6, e7⟩ := whole_call (cfg := resamplerCfg c w) (by omega) hr n b hq
    obtain ⟨s1, s2⟩ := BQ.resample_silent (w := w) (cfg := BQ.monoCfg (resamplerCfg c w)) (by rw [BQ.C22_same_sum (by rfl)]; rfl) e3 (fun a ha => List.eq_of_mem_replicate ha) (by
      intro a ha
      obtain ⟨x, hx, rfl⟩ := List.mem_map.mp ha
      exact hb x hx) (e7 1 hi)
    show (builtinResample _ _ _ _ _ _).2.length ≤ n ∧ Whole _ _ (builtinResample _ _ _ _ _ _).1 ∧ ∀ f ∈ (builtinResample _ _ _ _ _ _).2, _
    refine ⟨e6, ?_, ?_⟩
    · rw [e1]
      refine ⟨by simp, fun y hy => ?_⟩
      cases hy
      exact ⟨m', e4, e5, s1⟩
    · rw [e2]
      intro f hf
      obtain ⟨a, _, rfl⟩ := List.mem_map.mp hf
      show (if 1 < (resamplerCfg c w).channels then _ else _) = (0 : ℝ)
      rw [if_pos hi]
      cases hl : (out 1)[a]? with
      | none => rfl
      | some v => exact s2 v (List.mem_of_getElem? hl)

theorem gives_all {O : Frame ℝ → Prop} {xs : List Call} {outs : List (List (Frame ℝ))} (h : List.Forall₂ (fun x out => x.gives O out) xs outs) : ∀ out ∈ outs, ∀ f ∈ out, O f := by
  intro out hout f hf
  obtain ⟨x, _, hx⟩ : ∃ x, x ∈ xs ∧ x.gives O out := by
    obtain ⟨i, hi, rfl⟩ := List.mem_iff_getElem.mp hout
    have hi' : i < xs.length := by rw [h.length_eq]; exact hi
    exact ⟨xs[i], List.getElem_mem hi', h.get hi' hi⟩
  cases x with
  | setPitchScale q => rw [show out = [] from hx] at hf; cases hf
  | shift input => exact hx.2 f hf
  | reset => rw [show out = [] from hx] at hf; cases hf
  | setFormantScale _ => rw [show out = [] from hx] at hf; cases hf
  | setFormantOption _ => rw [show out = [] from hx] at hf; cases hf

/-- **C121**: with the built-in resampler, two channels given the same audio come out the same, in any history of calls from creation on, with any changes of the pitch scale and any resets, whatever the other channels hold,
and whether or not channels are to be kept together. -/
theorem C121 {c : Conf} (o : Open κ) (w : Nat → Rat → Nat → ℝ) {i j : Nat} (hi : i < c.channels) (hj : j < c.channels) (xs : List Call) (hx : ∀ x ∈ xs, x.ok fun f => f i = f j) :
    ∃ r, run c o (builtin (resamplerCfg c w)) (create c o (builtin (resamplerCfg c w))) xs = some r ∧ ∀ out ∈ r.2, ∀ f ∈ out, f i = f j := by
  by_cases hm : c.engine.useMidSide = true
  · have h2 : c.channels = 2 := by
      simp only [R3.Params.useMidSide, Bool.and_eq_true, beq_iff_eq] at hm
      exact hm.1
    by_cases e : i = j
    · subst e
      have hk := keeps_any (c := c) (by omega) o w
      obtain ⟨r, h1, _⟩ := hk.run xs (hk.create (fun _ => init_whole _ trivial) (begun_fits c o) ratioOk_one) (by
        intro x hm
        have := hx x hm
        cases x with
        | setPitchScale q => exact ⟨ratioOk_in c this, ratioOk_out c this⟩
        | shift input => exact fun _ _ => trivial
        | _ => trivial) (Or.inl fun _ _ _ h => h)
      exact ⟨r, h1, fun _ _ _ _ => rfl⟩
    · have hij : ∀ f : Frame ℝ, f i = f j ↔ f 0 = f 1 := by
        intro f
        obtain ⟨rfl, rfl⟩ | ⟨rfl, rfl⟩ : i = 0 ∧ j = 1 ∨ i = 1 ∧ j = 0 := by omega
        · exact Iff.rfl
        · exact eq_comm
      have hk := keeps_side (c := c) hm o w
      obtain ⟨r, h1, _, h3⟩ := hk.run xs (hk.create (fun _ => init_whole _ ⟨fun a ha => (by cases ha), fun a ha => (by cases ha)⟩)
        ⟨begun_fits c o, fun x hx => begun_hush c o x (List.mem_of_getElem? hx)⟩ ratioOk_one) (by
        intro x hm
        have := hx x hm
        cases x with
        | setPitchScale q => exact ⟨ratioOk_in c this, ratioOk_out c this⟩
        | shift input => exact fun a ha => (hij _).mp (this a ha)
        | _ => trivial) (Or.inl fun _ _ _ h => h)
      exact ⟨r, h1, fun out hout f hf => (hij f).mpr (gives_all h3 out hout f hf)⟩
  · have hk := keeps_same (by simpa using hm) o w hi hj
    obtain ⟨r, h1, _, h3⟩ := hk.run xs (hk.create (fun _ => init_whole _ rfl) ⟨begun_fits c o, begun_same c o hi hj⟩ ratioOk_one) (fun x hm => Call.ok_brings (hx x hm)) (Or.inl fun _ _ _ h => h)
    exact ⟨r, h1, gives_all h3⟩

/-- Two channels of the same audio and a third of other audio, a change of the pitch scale and a reset. -/
example (x : Nat → ℝ) (together : Bool) : ∀ a ∈ [Call.setPitchScale 2, .shift fun i c => if c = 1 then 7 else x i, .setPitchScale (1 / 2), .shift fun i c => if c = 1 then 7 else x (512 + i), .reset, .shift fun i c => if c = 1 then 8 else x i],
    a.ok (fun f => f 0 = f 2) ∧ 2 < ({ sampleRate := 44100, channels := 3, together := together } : Conf).channels := by
  intro a ha
  refine ⟨?_, by show 2 < 3; decide⟩
  simp only [List.mem_cons, List.not_mem_nil, or_false] at ha
  rcases ha with rfl | rfl | rfl | rfl | rfl | rfl
  · exact ⟨by norm_num, by norm_num⟩
  · exact fun i _ => rfl
  · exact ⟨by norm_num, by norm_num⟩
  · exact fun i _ => rfl
  · trivial
  · exact fun i _ => rfl

/-! ## C122 -/

/-- The resampler has not changed its ratio since it was made or reset. -/
def Calm (cfg : BQ.Cfg ℝ) (q : Rat) (r : Option (BQ.Res ℝ)) : Prop := ∃ x, r = some x ∧ BQ.Calm cfg (some q) x

theorem calm_resample {cfg : BQ.Cfg ℝ} {q : Rat} {x : BQ.Res ℝ} (h : BQ.Calm cfg (some q) x) (hq : BQ.ValidRatio q) {out inp : List ℝ} {space count : Nat} {final : Bool} {r : BQ.Res ℝ × List ℝ × Nat}
    (e : BQ.resample cfg x out space inp count q final = some r) (hs : ∃ m, BQ.SimRes cfg.channels r.1 m ∧ ∀ j, j < cfg.channels → BQ.GoodRes (BQ.monoCfg cfg) (m j)) : BQ.Calm cfg (some q) r.1 := by
  unfold BQ.resample at e
  simp only [Option.bind_eq_bind, Option.bind_eq_some_iff] at e
  obtain ⟨r1, c1, ⟨s1, o1, out1⟩, c2, ⟨f1, n1, out2⟩, c3, c4⟩ := e
  obtain ⟨p1, p2, p3, p4⟩ := BQ.prepare_calm h hq (fun y hy => (by cases hy; rfl)) c1
  have k := BQ.mainLoop_keep _ _ _ _ _ c2
  simp only at c3
  have hf : BQ.fadeLoop cfg inp (count * cfg.channels) (BQ.fadeLengthFor cfg space count q) o1 0 0 r1.fade 0 out1 = some (r1.fade, 0, out1) := by cases o1 <;> simp [BQ.fadeLoop]
  rw [p1, hf] at c3
  simp only [Option.some.injEq, Prod.mk.injEq] at c3
  have c4' := congrArg Prod.fst (Option.some.inj c4)
  refine ⟨hs, ?_, ?_, ?_, ?_⟩
  · rw [← c4']; exact c3.2.1.symm
  · rw [← c4']; simp only; rw [← c3.1]; exact p2
  · intro hm
    rw [← c4']; simp only; rw [k.1]; exact p3 hm
  · right
    rw [← c4']; simp only; rw [k.2, p4]

theorem calm_planar {cfg : BQ.Cfg ℝ} {q : Rat} {x : BQ.Res ℝ} (h : BQ.Calm cfg (some q) x) (hq : BQ.ValidRatio q) {iin iout : List ℝ} {out inp : List (List ℝ)} {space count : Nat} {final : Bool} {r : BQ.Res ℝ × List (List ℝ) × Nat}
    (e : BQ.resamplePlanar cfg x iin iout out space inp count q final = some r) (hs : ∃ m, BQ.SimRes cfg.channels r.1 m ∧ ∀ j, j < cfg.channels → BQ.GoodRes (BQ.monoCfg cfg) (m j)) : BQ.Calm cfg (some q) r.1 := by
  unfold BQ.resamplePlanar at e
  split at e
  · obtain ⟨o, _, e⟩ := Option.bind_eq_some_iff.mp e
    obtain ⟨i, _, e⟩ := Option.bind_eq_some_iff.mp e
    obtain ⟨⟨r', o', n⟩, h3, e⟩ := Option.bind_eq_some_iff.mp e
    obtain ⟨out', _, e⟩ := Option.bind_eq_some_iff.mp e
    cases e
    exact calm_resample h hq h3 hs
  · obtain ⟨i, _, e⟩ := Option.bind_eq_some_iff.mp e
    obtain ⟨⟨r', o', n⟩, h3, e⟩ := Option.bind_eq_some_iff.mp e
    obtain ⟨out', _, e⟩ := Option.bind_eq_some_iff.mp e
    cases e
    exact calm_resample h hq h3 hs

theorem calm_whole {cfg : BQ.Cfg ℝ} {q : Rat} {r : Option (BQ.Res ℝ)} (h : Calm cfg q r) : Whole cfg (fun _ => True) r := by
  obtain ⟨x, rfl, h⟩ := h
  refine ⟨by simp, fun y hy => ?_⟩
  cases hy
  obtain ⟨m, h1, h2⟩ := h.sim
  exact ⟨m, h1, h2, trivial⟩

theorem keeps_calm {c : Conf} (hc : 0 < c.channels) (o : Open κ) (w : Nat → Rat → Nat → ℝ) :
    Keeps c o (builtin (resamplerCfg c w)) (fun _ => True) (fun _ => True) (fun _ => True) (R3.Fits c.engine) RatioOk (Calm (resamplerCfg c w)) where
  zero := trivial
  zeroOut := trivial
  enc := fun _ => trivial
  dec := fun _ => trivial
  quieter := fun _ => trivial
  resetDsp := fun h => R3.reset_fits o h
  round := (keeps_any hc o w).round
  resetRs := by
    rintro q _ ⟨x, rfl, h⟩ q'
    obtain ⟨m, h1, h2⟩ := h.sim
    exact ⟨BQ.reset x, rfl, ⟨_, BQ.reset_sim h1, fun j hj => BQ.reset_good (h2 j hj)⟩, rfl, h.fade, h.sorted, Or.inl rfl⟩
  resample := by
    rintro r n b q hq hr _
    have hw := calm_whole hr
    obtain ⟨x, rfl, h⟩ := hr
    obtain ⟨x', m, m', out, k, e1, e2, _, e4, e5, e6, _⟩ := whole_call (cfg := resamplerCfg c w) hc hw n b hq
    refine ⟨e6, ?_, fun _ _ => trivial⟩
    show Calm _ q (builtinResample _ _ _ _ _ _).1
    rw [e1]
    refine ⟨x', rfl, ?_⟩
    unfold builtinResample at e1
    rw [Option.bind_some] at e1
    split at e1
    · cases e1
    · rename_i r' out' k' hp
      cases e1
      obtain ⟨v, hv, rfl⟩ := hq
      exact calm_planar h (one_div_le_one_div_of_le hv.1 hv.2) hp ⟨m', e4, e5⟩

/-- **C122**, as documented (RubberBandLiveShifter.h, `reset`: the shifter then behaves as if just constructed), of silence: with the built-in resampler, after a reset silence in gives silence out, whatever came before. -/
def C122_statement : Prop := ∀ (κ : Type) (c : Conf) (o : Open κ) (w : Nat → Rat → Nat → ℝ) (pre xs : List Call) (a : State κ (Option (BQ.Res ℝ)) × List (List (Frame ℝ))), 0 < c.channels → (∀ x ∈ pre, x.ok fun _ => True) →
  (∀ x ∈ xs, x.ok fun f => ∀ k < c.channels, f k = 0) → run c o (builtin (resamplerCfg c w)) (create c o (builtin (resamplerCfg c w))) pre = some a →
  ∃ r, run c o (builtin (resamplerCfg c w)) a.1 (.reset :: xs) = some r ∧ ∀ out ∈ r.2, ∀ f ∈ out, ∀ k < c.channels, f k = 0

/-- **C122 (partial)**: if before the reset the pitch scale was changed only before the first block after creation or an earlier reset.  Missing: changes of the pitch scale between blocks.  There the claim is false of the
resampler by itself (`BQ.C23_violated`): if its ratio was changed while running, `reset` keeps what is in the buffer of the ratio before. -/
theorem C122_partial {c : Conf} (hc : 0 < c.channels) (o : Open κ) (w : Nat → Rat → Nat → ℝ) (pre xs : List Call) (hp : ∀ x ∈ pre, x.ok fun _ => True) (hs : steady true 1 pre)
    (hx : ∀ x ∈ xs, x.ok fun f => ∀ k < c.channels, f k = 0) :
    ∃ a, run c o (builtin (resamplerCfg c w)) (create c o (builtin (resamplerCfg c w))) pre = some a ∧
      ∃ r, run c o (builtin (resamplerCfg c w)) a.1 (.reset :: xs) = some r ∧ ∀ out ∈ r.2, ∀ f ∈ out, ∀ k < c.channels, f k = 0 := by
  have hk := keeps_calm hc o w
  obtain ⟨a, a1, a2, _⟩ := hk.run pre (hk.create (fun q => ⟨BQ.init, rfl, ⟨_, BQ.init_sim _, fun _ _ => BQ.init_good _⟩, rfl, rfl, fun _ => rfl, Or.inl rfl⟩) (begun_fits c o) ratioOk_one)
    (fun x hm => Call.ok_brings (hp x hm)) (Or.inr hs)
  refine ⟨a, a1, ?_⟩
  have hq := keeps_quiet hc o w
  have forget : ∀ {q : Rat} {r : Option (BQ.Res ℝ)}, Calm (resamplerCfg c w) q r → Whole (resamplerCfg c w) (fun _ => True) (r.map BQ.reset) ∧ Hollow (resamplerCfg c w) (r.map BQ.reset) := by
    intro q r h
    refine ⟨reset_whole (fun _ _ => trivial) (calm_whole h), ?_⟩
    obtain ⟨x, rfl, h⟩ := h
    intro y hy
    cases hy
    obtain ⟨m, h1, _⟩ := h.sim
    exact Or.inr ⟨rfl, rfl, h.fade, h1.s.ch, h.sorted⟩
  have hinv : Inv c (Quiet c) (fun d => R3.Fits c.engine d ∧ ∀ x ∈ d.chans, R3.Hush c.engine x) RatioOk
      (fun _ r => Whole (resamplerCfg c w) (fun _ => True) r ∧ Hollow (resamplerCfg c w) r) (reset c o (builtin (resamplerCfg c w)) a.1) :=
    hq.measured ⟨fun f hf => (by cases hf), fun f hf => (by cases hf), forget a2.ins, forget a2.outs, ⟨R3.reset_fits o a2.dsp, R3.reset_hush _ o _⟩, a2.inRatio, a2.outRatio, fun _ _ => ⟨forget a2.ins, forget a2.outs⟩⟩
  obtain ⟨r, r1, _, r3⟩ := hq.run xs hinv (fun x hm => Call.ok_brings (hx x hm)) (Or.inl fun _ _ _ h => h)
  refine ⟨(r.1, [] :: r.2), ?_, ?_⟩
  · unfold run
    simp only [step, r1, Option.bind_eq_bind, Option.bind_some]
    rfl
  · intro out hout
    rcases List.mem_cons.mp hout with rfl | hout
    · intro f hf; cases hf
    · exact gives_all r3 out hout

/-- Audio at pitch 2, a reset, then silence at other pitches. -/
example (x : Nat → Frame ℝ) : (∀ a ∈ [Call.setPitchScale 2, .shift x, .shift x, .reset, .setPitchScale 3, .shift x], a.ok fun _ => True) ∧ steady true 1 [Call.setPitchScale 2, .shift x, .shift x, .reset, .setPitchScale 3, .shift x] ∧
    ∀ a ∈ [Call.shift fun _ _ => 0, .setPitchScale (1 / 2), .shift fun _ _ => 0], a.ok fun f => ∀ k < 2, f k = 0 := by
  refine ⟨?_, ?_, ?_⟩
  · intro a ha
    simp only [List.mem_cons, List.not_mem_nil, or_false] at ha
    rcases ha with rfl | rfl | rfl | rfl | rfl | rfl
    · exact ⟨by norm_num, by norm_num⟩
    · exact fun _ _ => trivial
    · exact fun _ _ => trivial
    · trivial
    · exact ⟨by norm_num, by norm_num⟩
    · exact fun _ _ => trivial
  · simp [steady]
  · intro a ha
    simp only [List.mem_cons, List.not_mem_nil, or_false] at ha
    rcases ha with rfl | rfl | rfl
    · exact fun _ _ _ _ => rfl
    · exact ⟨by norm_num, by norm_num⟩
    · exact fun _ _ _ _ => rfl

end Verif.LiveAudio
