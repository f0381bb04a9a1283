import Verif.R3Tied
import Verif.R3Same
import Verif.R3SilenceProps
import Verif.R3LiveUnityProps
import Verif.BQPlanar
import Verif.BQProps
/-!
# The finer engine: channels given the same audio come out the same (C108)
-/
namespace Verif.R3

variable {κ τ ρ : Type}

/-- A resampler that keeps the tie between two channels while its state meets `R`, for pitch scales that meet `Q`. -/
structure RsTies (base : Env ℝ τ ρ) (i j : Nat) (E : ℝ → ℝ) (Q : Rat → Prop) (R : ρ → Prop) : Prop where
  init : R base.rsInit
  reset : ∀ {r}, R r → R (base.rsReset r)
  keeps : ∀ {r} (n : Nat) {b : List (Frame ℝ)} {q : Rat} (f : Bool), Q q → R r → (∀ x ∈ b, x i = E (x j)) →
    R (base.resample r n b (1 / q) f).1 ∧ ∀ x ∈ (base.resample r n b (1 / q) f).2, x i = E (x j)

theorem spectralEnv_dsp {p : Params} {o : Open κ} {base : Env ℝ τ ρ} {s : Spectral κ} {hop : Hop} {w : List (List ℝ)} {r : Spectral κ × List (Nat → ℝ)} (h1 : spectralRound p o s hop w = some r) :
    (spectralEnv p o base).dsp (some s) hop w = (some r.1, fun c i => ((r.2[c]?).getD fun _ => 0) i) := by
  show (match (some s).bind fun s => spectralRound p o s hop w with | some (s, mix) => _ | none => _) = _
  rw [Option.bind_some, h1]

/-- Without mid/side: equal channels. -/
theorem same_ties {p : Params} (hc : 0 < p.channels) (hm : p.useMidSide = false) (o : Open κ) {base : Env ℝ τ ρ} {i j : Nat} (hi : i < p.channels) (hj : j < p.channels) {Q : Rat → Prop} (hQ : Q 1) {R : ρ → Prop}
    (hR : RsTies base i j id Q R) :
    Ties p (spectralEnv p o base) i j id (fun f => f i = f j) Q
      (fun d => ∃ s, d = some s ∧ Fits p s ∧ s.chans[i]? = s.chans[j]? ∧ ∀ n ∈ p.scales, (s.guided n)[i]? = (s.guided n)[j]?) R where
  zero := rfl
  one := hQ
  coded := by intro f hf; rw [hm]; exact hf
  init := ⟨_, rfl, create_fits p o, create_same p o hi hj⟩
  reset := by rintro _ ⟨s, rfl, h, h1, h2⟩; exact ⟨_, rfl, reset_fits o h, reset_same p o h1 h2⟩
  dsp := by
    rintro _ hop w ⟨s, rfl, h, h1, h2⟩ hl hw
    have hw' : w[i]? = w[j]? := by rw [hw]; simp
    obtain ⟨r, e1, e2, _, e4, e5, e6⟩ := spectralRound_same hc hm o h hi hj h1 h2 hop hl hw'
    rw [spectralEnv_dsp e1]
    exact ⟨⟨r.1, rfl, e2, e4, e5⟩, fun k => by simp only [e6, id]⟩
  rsInit := hR.init
  rsReset := hR.reset
  resample := hR.keeps

/-- With mid/side: the side is silent. -/
theorem side_ties {p : Params} (hm : p.useMidSide = true) (o : Open κ) {base : Env ℝ τ ρ} {Q : Rat → Prop} (hQ : Q 1) {R : ρ → Prop} (hR : RsTies base 1 1 (fun _ => 0) Q R) :
    Ties p (spectralEnv p o base) 1 1 (fun _ => 0) (fun f => f 0 = f 1) Q (fun d => ∃ s, d = some s ∧ Fits p s ∧ ∀ c, s.chans[1]? = some c → Hush p c) R where
  zero := rfl
  one := hQ
  coded := by
    intro f hf
    rw [hm, if_pos rfl]
    show (f 0 - f 1) / 2 = 0
    rw [hf, sub_self, zero_div]
  init := ⟨_, rfl, create_fits p o, fun c hc => create_hush p o c (List.mem_of_getElem? hc)⟩
  reset := by rintro _ ⟨s, rfl, h, _⟩; exact ⟨_, rfl, reset_fits o h, fun c hc => reset_hush p o s c (List.mem_of_getElem? hc)⟩
  dsp := by
    rintro _ hop w ⟨s, rfl, h, hq⟩ hl hw
    have h2 : p.channels = 2 := by
      simp only [Params.useMidSide, Bool.and_eq_true, beq_iff_eq] at hm
      exact hm.1
    obtain ⟨r, e1, e2, e3, e4, e5⟩ := spectralRound_mute_at (by omega) o h (k := 1) (by omega) hq hop hl (by
      intro x hx a ha
      rw [hx] at hw
      have : x = x.map fun _ => (0 : ℝ) := Option.some.inj hw
      rw [this] at ha
      obtain ⟨_, _, rfl⟩ := List.mem_map.mp ha
      rfl)
    rw [spectralEnv_dsp e1]
    refine ⟨⟨r.1, rfl, e2, e4⟩, fun k => ?_⟩
    simp only
    cases hm : r.2[1]? with
    | none => rfl
    | some m => exact e5 m hm k
  rsInit := hR.init
  rsReset := hR.reset
  resample := hR.keeps

theorem zipWith_zero_add : ∀ m s : List ℝ, m.length = s.length → (∀ a ∈ s, a = 0) → List.zipWith (· + ·) m s = List.zipWith (· - ·) m s
  | [], _, _, _ => by simp
  | _ :: _, [], _, _ => by simp
  | x :: m, y :: s, h, hz => by
    rw [List.zipWith_cons_cons, List.zipWith_cons_cons, zipWith_zero_add m s (by simpa using h) (fun a ha => hz a (by simp [ha])), hz y (by simp), add_zero, sub_zero]

/-- Two channels are the same in all that is put out. -/
def Alike (i j : Nat) (outs : List (List (List ℝ))) : Prop := ∀ out ∈ outs, out[i]? = out[j]?

/-- The audio of a call is the same in two channels, and the pitch it asks for meets `Q`. -/
def Call.alike (i j : Nat) (Q : Rat → Prop) : Call ℝ → Prop
  | .process x _ => ∀ f ∈ x, f i = f j
  | .setPitchScale x => x.meets Q
  | _ => True

/-- **C108**, with any resampler that treats equal channels equally and a silent channel as silent: two channels given the same audio come out the same, in any history of calls, at any ratios, with and without mid/side. -/
theorem C108_same {p : Params} (o : Open κ) {base : Env ℝ τ ρ} {i j : Nat} (hi : i < p.channels) (hj : j < p.channels) {Q : Rat → Prop} (hQ : Q 1) {R S : ρ → Prop} (hR : RsTies base i j id Q R)
    (hS : RsTies base 1 1 (fun _ => 0) Q S) (t : Dbl) {q : Dbl} (hq : q.meets Q) (cs : List (Call ℝ)) (hs : ∀ c ∈ cs, c.alike i j Q)
    {r : State ℝ (Option (Spectral κ)) ρ × List (List (List ℝ))} (hr : run p (spectralEnv p o base) (create p (spectralEnv p o base) t q) cs = some r) : Alike i j r.2 := by
  have hc : 0 < p.channels := by omega
  intro out hout
  by_cases e : i = j
  · rw [e]
  cases hm : p.useMidSide with
  | false =>
    have hcl := same_ties hc hm o hi hj hQ hR
    rcases (hcl.run hc cs _ r (create_inv _ _ _ _) (hcl.create hi hj t hq) (fun c hc => by have := hs c hc; cases c <;> exact this) hr).2 out hout with rfl | ⟨raw, got, _, _, h3, rfl⟩
    · rfl
    · rw [hm, if_neg (by simp), h3]
      simp
  | true =>
    have h2 : p.channels = 2 := by
      have hm' := hm
      simp only [Params.useMidSide, Bool.and_eq_true, beq_iff_eq] at hm'
      exact hm'.1
    have hij : i = 0 ∧ j = 1 ∨ i = 1 ∧ j = 0 := by omega
    have hcl := side_ties hm o hQ hS
    have hs' : ∀ c ∈ cs, c.ties (fun f => f 0 = f 1) Q := by
      intro c hc
      have := hs c hc
      cases c <;> try exact this
      rcases hij with ⟨rfl, rfl⟩ | ⟨rfl, rfl⟩
      · exact this
      · exact fun f hf => (this f hf).symm
    have fin : out[0]? = out[1]? := by
      rcases (hcl.run hc cs _ r (create_inv _ _ _ _) (hcl.create (by omega) (by omega) t hq) hs' hr).2 out hout with rfl | ⟨raw, got, h1, h4, h3, rfl⟩
      · rfl
      · rw [h2] at h1
        match raw, h1 with
        | [m, s], _ =>
          have lm : m.length = got := h4 m (by simp)
          have ls : s.length = got := h4 s (by simp)
          have hz : ∀ a ∈ s, a = 0 := by
            have : s = s.map fun _ => (0 : ℝ) := Option.some.inj h3
            intro a ha
            rw [this] at ha
            obtain ⟨_, _, rfl⟩ := List.mem_map.mp ha
            rfl
          rw [if_pos hm]
          show some _ = some _
          rw [List.take_of_length_le (by omega), List.take_of_length_le (by omega), List.drop_of_length_le (by omega), List.drop_of_length_le (by omega), zipWith_zero_add m s (by omega) hz]
    rcases hij with ⟨rfl, rfl⟩ | ⟨rfl, rfl⟩
    · exact fin
    · exact fin.symm

/-! ### With the built-in resampler -/

/-- The pitch scales for which the built-in resampler is known to work. -/
def PitchOk (v : Rat) : Prop := 0 < v ∧ v ≤ 40000

/-- A tie between two channels of the resampler: `H` holds of the mono resamplers that it amounts to. -/
def Split (cfg : BQ.Cfg ℝ) (H : (Nat → BQ.Res ℝ) → Prop) (r : Option (BQ.Res ℝ)) : Prop :=
  ∀ x, r = some x → ∃ q, BQ.SimRes cfg.channels x q ∧ (∀ k, k < cfg.channels → BQ.GoodRes (BQ.monoCfg cfg) (q k)) ∧ H q

/-- What a call of the resampler comes to in each channel. -/
theorem builtin_split {cfg : BQ.Cfg ℝ} (hpos : 0 < cfg.channels) {H : (Nat → BQ.Res ℝ) → Prop} {r : Option (BQ.Res ℝ)} (hr : Split cfg H r) (n : Nat) (b : List (Frame ℝ)) {q : Rat} (hq : PitchOk q) (final : Bool) :
    (r = none ∧ (builtinResample cfg r n b (1 / q) final).1 = none ∧ (builtinResample cfg r n b (1 / q) final).2 = []) ∨
    ∃ (x x' : BQ.Res ℝ) (m m' : Nat → BQ.Res ℝ) (o : Nat → List ℝ) (k : Nat), (builtinResample cfg r n b (1 / q) final).1 = some x' ∧
      (builtinResample cfg r n b (1 / q) final).2 = (List.range k).map (fun i c => if c < cfg.channels then ((o c)[i]?).getD 0 else 0) ∧ H m ∧ BQ.SimRes cfg.channels x' m' ∧
      (∀ c, c < cfg.channels → BQ.GoodRes (BQ.monoCfg cfg) (m' c)) ∧ k ≤ n ∧
      ∀ c, c < cfg.channels → BQ.resample (BQ.monoCfg cfg) (m c) (List.replicate n 0) n (b.map fun f => f c) b.length (1 / q) final = some (m' c, o c, k) := by
  cases r with
  | none => left; exact ⟨rfl, rfl, rfl⟩
  | some x =>
    right
    obtain ⟨m, h1, h2, h3⟩ := hr x rfl
    have hratio : BQ.ValidRatio (1 / q) := by
      unfold BQ.ValidRatio
      exact one_div_le_one_div_of_le hq.1 hq.2
    let a : BQ.PCall ℝ := ⟨List.replicate (b.length * cfg.channels) 0, List.replicate (n * cfg.channels) 0, List.replicate cfg.channels (List.replicate n 0), n,
      (List.range cfg.channels).map fun c => b.map fun f => f c, b.length, 1 / q, final⟩
    have hv : a.Valid cfg.channels := by
      refine ⟨by simp [a], by simp [a], by simp [a], ?_, by simp [a], ?_, hratio⟩
      · intro ch hch
        rw [List.eq_of_mem_replicate hch, List.length_replicate]
      · intro ch hch
        obtain ⟨c, _, rfl⟩ := List.mem_map.mp hch
        rw [List.length_map]
    obtain ⟨x', m', k, out', e1, e2, e3, e4, e5, e6⟩ := BQ.resamplePlanar_sim rfl hpos h1 h2 hv
    have e1' : BQ.resamplePlanar cfg x (List.replicate (b.length * cfg.channels) 0) (List.replicate (n * cfg.channels) 0) (List.replicate cfg.channels (List.replicate n 0)) n
        ((List.range cfg.channels).map fun c => b.map fun f => f c) b.length (1 / q) final = some (x', out', k) := e1
    have er : builtinResample cfg (some x) n b (1 / q) final = (some x', (List.range k).map fun i c => (((out'[c]?).getD [])[i]?).getD 0) := by
      unfold builtinResample
      rw [Option.bind_some, e1']
    refine ⟨x, x', m, m', fun c => (out'[c]?).getD [], k, by rw [er], ?_, h3, e5, e6, e3, ?_⟩
    · rw [er]
      refine List.map_congr_left fun i _ => ?_
      funext c
      split
      · rfl
      · rename_i hc
        rw [show out'[c]? = none from List.getElem?_eq_none (by rw [e2]; exact Nat.le_of_not_lt hc)]
        rfl
    · intro c hc
      obtain ⟨o, f1, f2⟩ := e4 c hc
      simp only [f1, Option.getD_some]
      have g1 : (a.out[c]?).getD [] = List.replicate n 0 := by
        show ((List.replicate cfg.channels (List.replicate n (0 : ℝ)))[c]?).getD [] = _
        rw [List.getElem?_replicate, if_pos hc]
        rfl
      have g2 : (a.inp[c]?).getD [] = b.map fun f => f c := by
        show (((List.range cfg.channels).map fun c => b.map fun f => f c)[c]?).getD [] = _
        rw [List.getElem?_map, List.getElem?_range hc]
        rfl
      rw [g1, g2] at f2
      exact f2

/-- Equal channels stay equal in the built-in resampler. -/
theorem builtin_same (p : Params) (w : Nat → Rat → Nat → ℝ) (base : Env ℝ τ (Option (BQ.Res ℝ))) {i j : Nat} (hi : i < p.channels) (hj : j < p.channels) :
    RsTies (builtinEnv (resamplerCfg p w) base) i j id PitchOk (Split (resamplerCfg p w) fun m => m i = m j) where
  init := by
    intro x hx
    cases hx
    exact ⟨fun _ => BQ.init, BQ.init_sim _, fun _ _ => BQ.init_good _, rfl⟩
  reset := by
    intro r h x hx
    obtain ⟨x', h', rfl⟩ := Option.map_eq_some_iff.mp hx
    obtain ⟨m, h1, h2, h3⟩ := h x' h'
    exact ⟨fun k => BQ.reset (m k), BQ.reset_sim h1, fun k hk => BQ.reset_good (h2 k hk), by simp only [h3]⟩
  keeps := by
    intro r n b q f hq hr hb
    have hpos : 0 < (resamplerCfg p w).channels := Nat.lt_of_le_of_lt (Nat.zero_le _) hi
    show Split _ _ (builtinResample _ _ _ _ _ _).1 ∧ ∀ x ∈ (builtinResample _ _ _ _ _ _).2, _
    rcases builtin_split hpos hr n b hq f with ⟨_, e1, e2⟩ | ⟨x, x', m, m', o, k, e1, e2, e3, e4, e5, _, e6⟩
    · rw [e1, e2]
      exact ⟨fun x hx => (by cases hx), fun x hx => (by cases hx)⟩
    · have g1 := e6 i hi
      have g2 := e6 j hj
      rw [e3, show b.map (fun f => f i) = b.map fun f => f j from List.map_congr_left hb, g2] at g1
      obtain ⟨g3, g4, _⟩ : m' j = m' i ∧ o j = o i ∧ k = k := by simpa using g1
      rw [e1, e2]
      refine ⟨fun y hy => ?_, fun y hy => ?_⟩
      · cases hy
        exact ⟨m', e4, e5, g3.symm⟩
      · obtain ⟨c, _, rfl⟩ := List.mem_map.mp hy
        show (if i < (resamplerCfg p w).channels then _ else _) = id (if j < (resamplerCfg p w).channels then _ else _)
        rw [if_pos (show i < (resamplerCfg p w).channels from hi), if_pos (show j < (resamplerCfg p w).channels from hj), g4]
        rfl

/-- A silent channel stays silent in the built-in resampler, whatever is in the others. -/
theorem builtin_mute (p : Params) (w : Nat → Rat → Nat → ℝ) (base : Env ℝ τ (Option (BQ.Res ℝ))) {i : Nat} (hi : i < p.channels) :
    RsTies (builtinEnv (resamplerCfg p w) base) i i (fun _ => 0) PitchOk (Split (resamplerCfg p w) fun m => (m i).Silent) where
  init := by
    intro x hx
    cases hx
    exact ⟨fun _ => BQ.init, BQ.init_sim _, fun _ _ => BQ.init_good _, fun a ha => (by cases ha), fun a ha => (by cases ha)⟩
  reset := by
    intro r h x hx
    obtain ⟨x', h', rfl⟩ := Option.map_eq_some_iff.mp hx
    obtain ⟨m, h1, h2, h3⟩ := h x' h'
    exact ⟨fun k => BQ.reset (m k), BQ.reset_sim h1, fun k hk => BQ.reset_good (h2 k hk), h3⟩
  keeps := by
    intro r n b q f hq hr hb
    have hpos : 0 < (resamplerCfg p w).channels := Nat.lt_of_le_of_lt (Nat.zero_le _) hi
    show Split _ _ (builtinResample _ _ _ _ _ _).1 ∧ ∀ x ∈ (builtinResample _ _ _ _ _ _).2, _
    rcases builtin_split hpos hr n b hq f with ⟨_, e1, e2⟩ | ⟨x, x', m, m', o, k, e1, e2, e3, e4, e5, _, e6⟩
    · rw [e1, e2]
      exact ⟨fun x hx => (by cases hx), fun x hx => (by cases hx)⟩
    · obtain ⟨s1, s2⟩ := BQ.resample_silent (w := w) (cfg := BQ.monoCfg (resamplerCfg p w)) (by rw [BQ.C22_same_sum (by rfl)]; rfl) e3 (fun a ha => List.eq_of_mem_replicate ha) (by
        intro a ha
        obtain ⟨x, hx, rfl⟩ := List.mem_map.mp ha
        exact hb x hx) (e6 i hi)
      rw [e1, e2]
      refine ⟨fun y hy => ?_, fun y hy => ?_⟩
      · cases hy
        exact ⟨m', e4, e5, s1⟩
      · obtain ⟨c, _, rfl⟩ := List.mem_map.mp hy
        show (if i < (resamplerCfg p w).channels then _ else _) = (0 : ℝ)
        rw [if_pos (show i < (resamplerCfg p w).channels from hi)]
        cases hl : (o i)[c]? with
        | none => rfl
        | some v => exact s2 v (List.mem_of_getElem? hl)

/-- **C108**: with the built-in resampler, two channels given the same audio come out the same, in any history of calls and resets, whatever the other channels hold, at any time ratios and at pitch scales of up to 40000. -/
theorem C108 {p : Params} (o : Open κ) (w : Nat → Rat → Nat → ℝ) (base : Env ℝ τ (Option (BQ.Res ℝ))) {i j : Nat} (hi : i < p.channels) (hj : j < p.channels) (t : Dbl) {q : Dbl} (hq : q.meets PitchOk)
    (cs : List (Call ℝ)) (hs : ∀ c ∈ cs, c.alike i j PitchOk) {r : State ℝ (Option (Spectral κ)) (Option (BQ.Res ℝ)) × List (List (List ℝ))}
    (hr : run p (spectralEnv p o (builtinEnv (resamplerCfg p w) base)) (create p (spectralEnv p o (builtinEnv (resamplerCfg p w) base)) t q) cs = some r) : Alike i j r.2 := by
  by_cases h1 : 1 < p.channels
  · exact C108_same o hi hj ⟨by norm_num, by norm_num⟩ (builtin_same p w base hi hj) (builtin_mute p w base h1) t hq cs hs hr
  · intro out _
    rw [show i = j by omega]

/-- Two channels of the same audio and a third with other audio, at pitch 2, with a change of ratio and a reset: the calls return, and the two come out the same. -/
example (x : Nat → ℝ) (w : Nat → Rat → Nat → ℝ) (base : Env ℝ Unit (Option (BQ.Res ℝ))) (hk : KeepsRatio base) (together : Bool) :
    ∃ r, run { Ex.live with channels := 3, channelsTogether := together } (spectralEnv { Ex.live with channels := 3, channelsTogether := together } Ex.blind
        (builtinEnv (resamplerCfg { Ex.live with channels := 3, channelsTogether := together } w) base))
      (create { Ex.live with channels := 3, channelsTogether := together } (spectralEnv { Ex.live with channels := 3, channelsTogether := together } Ex.blind
        (builtinEnv (resamplerCfg { Ex.live with channels := 3, channelsTogether := together } w) base)) (.fin 1) (.fin 2))
      [.process ((List.range 8192).map fun i c => if c = 1 then 7 else x i) false, .retrieve 4096, .setTimeRatio (.fin (3 / 2)), .process ((List.range 8192).map fun i c => if c = 1 then 7 else x i) false, .reset,
        .process ((List.range 8192).map fun i c => if c = 1 then 7 else x i) true, .retrieve 4096] = some r ∧ Alike 0 2 r.2 := by
  have hm : (Dbl.fin 2).meets PitchOk := by intro v hv _; cases hv; exact ⟨by norm_num, by norm_num⟩
  obtain ⟨r, hr⟩ := C28_returns (p := { Ex.live with channels := 3, channelsTogether := together }) (by show 0 < 3; norm_num) (spectralEnv { Ex.live with channels := 3, channelsTogether := together } Ex.blind
      (builtinEnv (resamplerCfg { Ex.live with channels := 3, channelsTogether := together } w) base)) (fun r x hx => hk r x hx) (T := 3 / 2) (P := 2) (by norm_num) (by norm_num)
    (by cases together <;> decide +kernel) (t := .fin 1) (ps := .fin 2) (by intro q hq; cases hq; norm_num) (by intro q hq; cases hq; norm_num)
    [.process ((List.range 8192).map fun i c => if c = 1 then 7 else x i) false, .retrieve 4096, .setTimeRatio (.fin (3 / 2)), .process ((List.range 8192).map fun i c => if c = 1 then 7 else x i) false, .reset,
      .process ((List.range 8192).map fun i c => if c = 1 then 7 else x i) true, .retrieve 4096] (by
      intro c hc
      simp only [List.mem_cons, List.not_mem_nil, or_false] at hc
      rcases hc with rfl | rfl | rfl | rfl | rfl | rfl | rfl
      · trivial
      · trivial
      · intro q hq; cases hq; norm_num
      · trivial
      · trivial
      · trivial
      · trivial)
  have hx : ∀ f ∈ (List.range 8192).map (fun i (c : Nat) => if c = 1 then 7 else x i), f 0 = f 2 := by intro f hf; obtain ⟨_, _, rfl⟩ := List.mem_map.mp hf; rfl
  refine ⟨r, hr, C108 Ex.blind w base (by show 0 < 3; norm_num) (by show 2 < 3; norm_num) (.fin 1) hm _ ?_ hr⟩
  intro c hc
  simp only [List.mem_cons, List.not_mem_nil, or_false] at hc
  rcases hc with rfl | rfl | rfl | rfl | rfl | rfl | rfl
  · exact hx
  · trivial
  · trivial
  · exact hx
  · trivial
  · exact hx
  · trivial

/-- In mid/side mode, offline, stretching: the calls return, and both channels come out the same. -/
example (x : Nat → ℝ) : ∃ r, run { Ex.mono with channels := 2, channelsTogether := true } (spectralEnv { Ex.mono with channels := 2, channelsTogether := true } Ex.blind Ex.bare)
      (create { Ex.mono with channels := 2, channelsTogether := true } (spectralEnv { Ex.mono with channels := 2, channelsTogether := true } Ex.blind Ex.bare) (.fin 2) (.fin 1))
      [.process ((List.range 8192).map fun i _ => x i) true, .retrieve 4096] = some r ∧ Alike 0 1 r.2 := by
  have hk : KeepsRatio Ex.bare := by intro r x hx; show 3 / 4 * x ≤ x; linarith
  obtain ⟨r, hr⟩ := C28_returns (p := { Ex.mono with channels := 2, channelsTogether := true }) (by show 0 < 2; norm_num) (spectralEnv { Ex.mono with channels := 2, channelsTogether := true } Ex.blind Ex.bare)
    (spectral_keepsRatio _ _ hk) (T := 2) (P := 1) (by norm_num) (by norm_num) (by decide +kernel) (t := .fin 2) (ps := .fin 1) (by intro q hq; cases hq; norm_num) (by intro q hq; cases hq; norm_num)
    [.process ((List.range 8192).map fun i _ => x i) true, .retrieve 4096] (by
      intro c hc
      simp only [List.mem_cons, List.not_mem_nil, or_false] at hc
      rcases hc with rfl | rfl <;> trivial)
  refine ⟨r, hr, C108_same (Q := fun _ => True) (R := fun _ => True) (S := fun _ => True) Ex.blind (by show 0 < 2; norm_num) (by show 1 < 2; norm_num) trivial ⟨trivial, fun _ => trivial, fun _ _ _ _ _ _ h => ⟨trivial, h⟩⟩
    ⟨trivial, fun _ => trivial, fun _ _ _ _ _ _ h => ⟨trivial, h⟩⟩ (.fin 2) (fun _ _ _ => trivial) _ ?_ hr⟩
  intro c hc
  simp only [List.mem_cons, List.not_mem_nil, or_false] at hc
  rcases hc with rfl | rfl
  · intro f hf
    obtain ⟨_, _, rfl⟩ := List.mem_map.mp hf
    rfl
  · trivial

end Verif.R3
