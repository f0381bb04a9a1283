import Verif.LiveAudioLemmas
import Verif.R3SameProps
import Verif.BQProps3
/-!
# The live shifter: a block for every block (C119), silence (C120), channels of the same audio (C121), resets (C122)
-/
namespace Verif.LiveAudio
open Verif.R3 (Frame Spectral Open spectralRound builtinResample PitchOk Split)
open Verif.Live (blockSize)

variable {κ : Type}

/-! ### The built-in resampler -/

/-- R3LiveShifter.cpp:204-215: the settings with which the resamplers are made. -/
noncomputable def resamplerCfg (c : Conf) (w : Nat → Rat → Nat → ℝ) : BQ.Cfg ℝ where
  ar := BQ.reals w
  quality := .fastestTolerable
  mostlyFixed := false
  smooth := false
  rate := c.engine.rate
  channels := c.channels

/-- The resampler made when the library is built without others (Resampler.cpp:827-1005 `D_BQResampler`). -/
noncomputable def builtin (cfg : BQ.Cfg ℝ) : Resampling (Option (BQ.Res ℝ)) := ⟨some BQ.init, Option.map BQ.reset, fun r n b q => builtinResample cfg r n b q false⟩

/-- The ratios of the resamplers at the pitch scales for which they have been proved sound. -/
def RatioOk (q : Rat) : Prop := ∃ v, PitchOk v ∧ q = 1 / v

theorem ratioOk_in (c : Conf) {q : Rat} (h : PitchOk q) : RatioOk (c.sizes q).inRatio := by
  unfold Live.Params.inRatio
  split
  · exact ⟨q, h, rfl⟩
  · exact ⟨1, ⟨by norm_num, by norm_num⟩, by norm_num⟩

theorem ratioOk_out (c : Conf) {q : Rat} (h : PitchOk q) : RatioOk (c.sizes q).outRatio := by
  unfold Live.Params.outRatio
  split
  · exact ⟨q, h, rfl⟩
  · exact ⟨1, ⟨by norm_num, by norm_num⟩, by norm_num⟩

theorem ratioOk_one : RatioOk 1 := ⟨1, ⟨by norm_num, by norm_num⟩, by norm_num⟩

/-- The resampler has left no array. -/
def Whole (cfg : BQ.Cfg ℝ) (H : (Nat → BQ.Res ℝ) → Prop) (r : Option (BQ.Res ℝ)) : Prop := r ≠ none ∧ Split cfg H r

theorem init_whole (cfg : BQ.Cfg ℝ) {H : (Nat → BQ.Res ℝ) → Prop} (h : H fun _ => BQ.init) : Whole cfg H (some BQ.init) := by
  refine ⟨by simp, ?_⟩
  intro x hx
  cases hx
  exact ⟨fun _ => BQ.init, BQ.init_sim _, fun _ _ => BQ.init_good _, h⟩

theorem reset_whole {cfg : BQ.Cfg ℝ} {H : (Nat → BQ.Res ℝ) → Prop} (hH : ∀ m, H m → H fun k => BQ.reset (m k)) {r : Option (BQ.Res ℝ)} (h : Whole cfg H r) : Whole cfg H (r.map BQ.reset) := by
  refine ⟨by simpa using h.1, ?_⟩
  intro x hx
  obtain ⟨x', h', rfl⟩ := Option.map_eq_some_iff.mp hx
  obtain ⟨m, h1, h2, h3⟩ := h.2 x' h'
  exact ⟨fun k => BQ.reset (m k), BQ.reset_sim h1, fun k hk => BQ.reset_good (h2 k hk), hH m h3⟩

/-- A call of the resampler, channel by channel. -/
theorem whole_call {cfg : BQ.Cfg ℝ} (hpos : 0 < cfg.channels) {H : (Nat → BQ.Res ℝ) → Prop} {r : Option (BQ.Res ℝ)} (hr : Whole cfg H r) (n : Nat) (b : List (Frame ℝ)) {q : Rat} (hq : RatioOk q) :
    ∃ (x' : BQ.Res ℝ) (m m' : Nat → BQ.Res ℝ) (o : Nat → List ℝ) (k : Nat), (builtinResample cfg r n b q false).1 = some x' ∧
      (builtinResample cfg r n b q false).2 = (List.range k).map (fun i c => if c < cfg.channels then ((o c)[i]?).getD 0 else 0) ∧ H m ∧ BQ.SimRes cfg.channels x' m' ∧
      (∀ c, c < cfg.channels → BQ.GoodRes (BQ.monoCfg cfg) (m' c)) ∧ (builtinResample cfg r n b q false).2.length ≤ n ∧
      ∀ c, c < cfg.channels → BQ.resample (BQ.monoCfg cfg) (m c) (List.replicate n 0) n (b.map fun f => f c) b.length q false = some (m' c, o c, k) := by
  obtain ⟨v, hv, rfl⟩ := hq
  rcases R3.builtin_split hpos hr.2 n b hv false with ⟨e1, _⟩ | ⟨x, x', m, m', o, k, e1, e2, e3, e4, e5, e6, e7⟩
  · exact absurd e1 hr.1
  · exact ⟨x', m, m', o, k, e1, e2, e3, e4, e5, by rw [e2, List.length_map, List.length_range]; exact e6, e7⟩

/-! ### The spectral part at first -/

theorem begun_fits (c : Conf) (o : Open κ) : R3.Fits c.engine (begun c o) := by
  have h := R3.create_fits c.engine o
  refine ⟨by rw [← h.channels]; simp [begun], ?_, h.guided, h.fit⟩
  intro d hd
  obtain ⟨x, hx, rfl⟩ := List.mem_map.mp hd
  have hs := h.sized x hx
  refine ⟨hs.mag, hs.phase, hs.advanced, hs.prevMag, hs.pending, hs.raMag, hs.raPhase, Or.inr (Or.inr ⟨rfl, ?_⟩)⟩
  rw [List.eq_of_mem_replicate hx]
  rfl

theorem begun_hush (c : Conf) (o : Open κ) : ∀ d ∈ (begun c o).chans, R3.Hush c.engine d := by
  intro d hd
  obtain ⟨x, hx, rfl⟩ := List.mem_map.mp hd
  have h := R3.create_hush c.engine o x hx
  exact ⟨h.acc, h.pending, h.prev, h.ahead⟩

theorem begun_same (c : Conf) (o : Open κ) {i j : Nat} (hi : i < c.channels) (hj : j < c.channels) :
    (begun c o).chans[i]? = (begun c o).chans[j]? ∧ ∀ n ∈ c.engine.scales, ((begun c o).guided n)[i]? = ((begun c o).guided n)[j]? := by
  obtain ⟨h1, h2⟩ := R3.create_same c.engine o hi hj
  refine ⟨?_, h2⟩
  unfold begun
  simp only [List.getElem?_map, h1]

/-! ## C119 -/

/-- The calls: pitch scales above 0 and up to 40000, blocks of frames that meet `P`. -/
def Call.ok (P : Frame ℝ → Prop) : Call → Prop
  | .setPitchScale q => PitchOk q
  | .shift input => ∀ i < blockSize, P (input i)
  | _ => True

theorem Call.ok_brings {c : Conf} {P : Frame ℝ → Prop} {x : Call} (h : x.ok P) : x.brings c P RatioOk := by
  cases x with
  | setPitchScale q => exact ⟨ratioOk_in c h, ratioOk_out c h⟩
  | shift input => exact h
  | _ => trivial

/-- Anything: nothing is asked of the frames. -/
theorem keeps_any {c : Conf} (hc : 0 < c.channels) (o : Open κ) (w : Nat → Rat → Nat → ℝ) :
    Keeps c o (builtin (resamplerCfg c w)) (fun _ => True) (fun _ => True) (fun _ => True) (R3.Fits c.engine) RatioOk (fun _ => Whole (resamplerCfg c w) fun _ => True) where
  zero := trivial
  zeroOut := trivial
  enc := fun _ => trivial
  dec := fun _ => trivial
  quieter := fun _ => trivial
  resetDsp := fun h => R3.reset_fits o h
  round := by
    intro d on hop n b hd _
    obtain ⟨r, h1, h2, _⟩ := R3.spectralRound_some (p := c.engine) hc { o with preserved := on } hd hop (sources := (List.range c.channels).map fun k => (List.range n).map fun i => ((b[i]?).getD silence) k) (by
      rw [List.length_map, List.length_range]; rfl)
    exact ⟨r, h1, h2, fun _ => trivial⟩
  resetRs := fun h _ => reset_whole (fun _ _ => trivial) h
  resample := by
    intro r n b q hq hr _
    obtain ⟨x', m, m', out, k, e1, _, _, e4, e5, e6, _⟩ := whole_call (cfg := resamplerCfg c w) hc hr n b hq
    refine ⟨e6, ⟨?_, ?_⟩, fun _ _ => trivial⟩
    · show (builtinResample _ _ _ _ _ _).1 ≠ none
      rw [e1]; simp
    · show Split _ _ (builtinResample _ _ _ _ _ _).1
      rw [e1]
      intro y hy
      cases hy
      exact ⟨m', e4, e5, trivial⟩

/-- **C119**: with the built-in resampler, any history of calls from creation on, with any audio, changes of the pitch scale and resets, stays within all arrays and ends, and each `shift` gives exactly one block. -/
theorem C119 {c : Conf} (hc : 0 < c.channels) (o : Open κ) (w : Nat → Rat → Nat → ℝ) (xs : List Call) (hx : ∀ q, .setPitchScale q ∈ xs → PitchOk q) :
    ∃ r, run c o (builtin (resamplerCfg c w)) (create c o (builtin (resamplerCfg c w))) xs = some r ∧ r.2.length = xs.length ∧
      ∀ (i : Nat) (input : Nat → Frame ℝ), xs[i]? = some (.shift input) → ∃ out, r.2[i]? = some out ∧ out.length = 512 := by
  have hk := keeps_any hc o w
  obtain ⟨r, h1, _, h3⟩ := hk.run xs (hk.create (fun _ => init_whole _ trivial) (begun_fits c o) ratioOk_one) (by
    intro x hm
    cases x with
    | setPitchScale q => exact ⟨ratioOk_in c (hx q hm), ratioOk_out c (hx q hm)⟩
    | shift input => exact fun _ _ => trivial
    | _ => trivial) (Or.inl fun _ _ _ h => h)
  refine ⟨r, h1, h3.length_eq.symm, ?_⟩
  intro i input hi
  obtain ⟨hl, e⟩ := List.getElem?_eq_some_iff.mp hi
  have hl2 : i < r.2.length := by rw [← h3.length_eq]; exact hl
  refine ⟨r.2[i], List.getElem?_eq_getElem hl2, ?_⟩
  have := h3.get hl hl2
  simp only [List.get_eq_getElem, e] at this
  exact this.1

/-- Any audio, with the pitch scale changed between blocks and a reset. -/
example (x y z : Nat → Frame ℝ) : ∀ q, Call.setPitchScale q ∈ [Call.setPitchScale 2, .setFormantOption true, .shift x, .setFormantScale (.fin 2), .setPitchScale (1 / 3), .shift y, .reset, .shift z] → PitchOk q := by
  intro q hq
  simp only [List.mem_cons, Call.setPitchScale.injEq, reduceCtorEq, List.not_mem_nil, or_false, false_or] at hq
  rcases hq with rfl | rfl <;> exact ⟨by norm_num, by norm_num⟩

/-! ## C120 -/

/-- All channels are silent. -/
def Quiet (c : Conf) (f : Frame ℝ) : Prop := ∀ k < c.channels, f k = 0

theorem quiet_encode {c : Conf} {f : Frame ℝ} (h : Quiet c f) : Quiet c (encode c f) := by
  intro k hk
  unfold encode
  split
  · rename_i hm
    have h2 : c.channels = 2 := by
      simp only [R3.Params.useMidSide, Bool.and_eq_true, beq_iff_eq] at hm
      exact hm.1
    have h0 := h 0 (by omega)
    have h1 := h 1 (by omega)
    simp only [h0, h1]
    split <;> norm_num
  · exact h k hk

theorem quiet_decode {c : Conf} {f : Frame ℝ} (h : Quiet c f) : Quiet c (decode c f) := by
  intro k hk
  unfold decode
  split
  · rename_i hm
    have h2 : c.channels = 2 := by
      simp only [R3.Params.useMidSide, Bool.and_eq_true, beq_iff_eq] at hm
      exact hm.1
    have h0 := h 0 (by omega)
    have h1 := h 1 (by omega)
    simp only [h0, h1]
    split <;> norm_num
  · exact h k hk

/-- The resampler holds nothing, or will forget what it holds. -/
def Hollow (cfg : BQ.Cfg ℝ) (r : Option (BQ.Res ℝ)) : Prop := ∀ x, r = some x → x.Silent ∨ BQ.Idle cfg x

theorem planar_idle {cfg : BQ.Cfg ℝ} {x : BQ.Res ℝ} (h : BQ.Idle cfg x) (iin iout : List ℝ) (out : List (List ℝ)) (n : Nat) (inp : List (List ℝ)) (m : Nat) (ratio : Rat) (final : Bool) :
    BQ.resamplePlanar cfg x iin iout out n inp m ratio final = BQ.resamplePlanar cfg BQ.init iin iout out n inp m ratio final := by
  have e : ∀ (o : List ℝ) (i : List ℝ), BQ.resample cfg x o n i m ratio final = BQ.resample cfg BQ.init o n i m ratio final := by
    intro o i
    unfold BQ.resample
    simp only [BQ.idle_prepare h]
  unfold BQ.resamplePlanar
  simp only [e]

theorem hollow_call {cfg : BQ.Cfg ℝ} {w : Nat → Rat → Nat → ℝ} (hw : cfg.ar = BQ.reals w) {r : Option (BQ.Res ℝ)} (hr : Hollow cfg r) (n : Nat) {b : List (Frame ℝ)} (hb : ∀ f ∈ b, ∀ k < cfg.channels, f k = 0) (q : Rat) (final : Bool) :
    Hollow cfg (builtinResample cfg r n b q final).1 ∧ ∀ f ∈ (builtinResample cfg r n b q final).2, ∀ k, f k = 0 := by
  obtain ⟨r', e, hs⟩ : ∃ r', builtinResample cfg r n b q final = builtinResample cfg r' n b q final ∧ ∀ x, r' = some x → x.Silent := by
    cases r with
    | none => exact ⟨none, rfl, fun x hx => (by cases hx)⟩
    | some x =>
      rcases hr x rfl with h | h
      · exact ⟨some x, rfl, fun y hy => (by cases hy; exact h)⟩
      · refine ⟨some BQ.init, ?_, fun y hy => (by cases hy; exact ⟨fun a ha => (by cases ha), fun a ha => (by cases ha)⟩)⟩
        unfold builtinResample
        rw [Option.bind_some, Option.bind_some, planar_idle h]
  rw [e]
  obtain ⟨h1, h2⟩ := R3.builtin_silent hw hs n hb q final
  exact ⟨fun x hx => Or.inl (h1 x hx), h2⟩

theorem keeps_quiet {c : Conf} (hc : 0 < c.channels) (o : Open κ) (w : Nat → Rat → Nat → ℝ) :
    Keeps c o (builtin (resamplerCfg c w)) (Quiet c) (Quiet c) (Quiet c) (fun d => R3.Fits c.engine d ∧ ∀ x ∈ d.chans, R3.Hush c.engine x) RatioOk
      (fun _ r => Whole (resamplerCfg c w) (fun _ => True) r ∧ Hollow (resamplerCfg c w) r) where
  zero := fun _ _ => rfl
  zeroOut := fun _ _ => rfl
  enc := quiet_encode
  dec := quiet_decode
  quieter := fun h k hk => by simp only [h k hk, zero_mul]
  resetDsp := fun h => ⟨R3.reset_fits o h.1, R3.reset_hush _ o _⟩
  round := by
    intro d on hop n b hd hb
    obtain ⟨r, h1, h2, _, h4, h5⟩ := R3.spectralRound_mute (p := c.engine) hc { o with preserved := on } hd.1 hd.2 hop (sources := (List.range c.channels).map fun k => (List.range n).map fun i => ((b[i]?).getD silence) k) (by
      rw [List.length_map, List.length_range]; rfl) (by
      intro x hx a ha
      obtain ⟨k, hk, rfl⟩ := List.mem_map.mp hx
      obtain ⟨i, _, rfl⟩ := List.mem_map.mp ha
      cases e : b[i]? with
      | none => rfl
      | some f => exact hb f (List.mem_of_getElem? e) k (List.mem_range.mp hk))
    refine ⟨r, h1, ⟨h2, h4⟩, fun i k _ => ?_⟩
    show ((r.2[k]?).getD fun _ => 0) i = 0
    cases e : r.2[k]? with
    | none => rfl
    | some m => exact h5 m (List.mem_of_getElem? e) i
  resetRs := by
    rintro q r ⟨h1, h2⟩ _
    refine ⟨reset_whole (fun _ _ => trivial) h1, ?_⟩
    intro x hx
    obtain ⟨y, hy, rfl⟩ := Option.map_eq_some_iff.mp hx
    rcases h2 y hy with h | h
    · exact Or.inl h
    · exact Or.inr ⟨rfl, rfl, h.fade, h.ch, h.sorted⟩
  resample := by
    rintro r n b q hq ⟨h1, h2⟩ hb
    obtain ⟨_, hr, _⟩ := (keeps_any hc o w).resample n hq h1 (fun f _ => trivial) (b := b)
    obtain ⟨hl, _⟩ := (keeps_any hc o w).resample n hq h1 (fun f _ => trivial) (b := b)
    obtain ⟨h3, h4⟩ := hollow_call (cfg := resamplerCfg c w) (w := w) rfl h2 n hb q false
    exact ⟨hl, ⟨hr, h3⟩, fun f hf k _ => h4 f hf k⟩

/-- **C120**: with the built-in resampler, from creation on, a live shifter that is given nothing but silence gives nothing but silence, with any changes of the pitch scale and any resets. -/
theorem C120 {c : Conf} (hc : 0 < c.channels) (o : Open κ) (w : Nat → Rat → Nat → ℝ) (xs : List Call) (hx : ∀ x ∈ xs, x.ok fun f => ∀ k < c.channels, f k = 0) :
    ∃ r, run c o (builtin (resamplerCfg c w)) (create c o (builtin (resamplerCfg c w))) xs = some r ∧ ∀ out ∈ r.2, ∀ f ∈ out, ∀ k < c.channels, f k = 0 := by
  have hk := keeps_quiet hc o w
  obtain ⟨r, h1, _, h3⟩ := hk.run xs (hk.create (fun _ => ⟨init_whole _ trivial, fun x hx => (by cases hx; exact Or.inl ⟨fun a ha => (by cases ha), fun a ha => (by cases ha)⟩)⟩)
    ⟨begun_fits c o, begun_hush c o⟩ ratioOk_one) (fun x hm => Call.ok_brings (hx x hm)) (Or.inl fun _ _ _ h => h)
  refine ⟨r, h1, ?_⟩
  intro out hout f hf
  obtain ⟨x, _, hx⟩ : ∃ x, x ∈ xs ∧ x.gives (Quiet c) out := by
    obtain ⟨i, hi, rfl⟩ := List.mem_iff_getElem.mp hout
    have hi' : i < xs.length := by rw [h3.length_eq]; exact hi
    exact ⟨xs[i], List.getElem_mem hi', h3.get hi' hi⟩
  cases x with
  | setPitchScale q => rw [show out = [] from hx] at hf; cases hf
  | shift input => exact hx.2 f hf
  | reset => rw [show out = [] from hx] at hf; cases hf
  | setFormantScale _ => rw [show out = [] from hx] at hf; cases hf
  | setFormantOption _ => rw [show out = [] from hx] at hf; cases hf

/-- Silence in stereo, with the pitch scale changed between blocks and a reset. -/
example : 0 < ({ sampleRate := 44100, channels := 2 } : Conf).channels ∧ ∀ a ∈ [Call.setPitchScale 2, .shift fun _ _ => 0, .setPitchScale (1 / 3), .shift fun _ _ => 0, .setFormantOption true, .shift fun _ _ => 0], a.ok fun f => ∀ k < 2, f k = 0 := by
  refine ⟨by show 0 < 2; decide, fun a ha => ?_⟩
  simp only [List.mem_cons, List.not_mem_nil, or_false] at ha
  rcases ha with rfl | rfl | rfl | rfl | rfl | rfl
  · exact ⟨by norm_num, by norm_num⟩
  · exact fun _ _ _ _ => rfl
  · exact ⟨by norm_num, by norm_num⟩
  · exact fun _ _ _ _ => rfl
  · trivial
  · exact fun _ _ _ _ => rfl

end Verif.LiveAudio
