import Verif.R3Silence
import Verif.R3UnityProps
import Verif.R3Builtin
/-!
# The finer engine stays inside its arrays (C105), and silence gives silence (C106)
-/
namespace Verif.R3

variable {κ τ ρ : Type}

/-! ## C105 -/

/-- The arrays of a spectral state have the sizes they are used with: a set for each channel, `n/2+1` bins for the scale of size `n`. -/
structure ArraysWhole (p : Params) (s : Spectral κ) : Prop where
  channels : s.chans.length = p.channels
  bins : ∀ c ∈ s.chans, ∀ n ∈ p.scales, n / 2 + 1 ≤ (c.scales n).mag.length ∧ n / 2 + 1 ≤ (c.scales n).phase.length ∧ n / 2 + 1 ≤ (c.scales n).advanced.length ∧
    n / 2 + 1 ≤ (c.scales n).prevMag.length ∧ n / 2 + 1 ≤ (c.scales n).pendingKick.length
  ahead : ∀ c ∈ s.chans, p.classificationFftSize / 2 + 1 ≤ c.raMag.length ∧ p.classificationFftSize / 2 + 1 ≤ c.raPhase.length

theorem Fits.whole {p : Params} {s : Spectral κ} (h : Fits p s) : ArraysWhole p s :=
  ⟨h.channels, fun c hc n hn => ⟨(h.sized c hc).mag n hn, (h.sized c hc).phase n hn, (h.sized c hc).advanced n hn, (h.sized c hc).prevMag n hn, (h.sized c hc).pending n hn⟩,
    fun c hc => ⟨(h.sized c hc).raMag, (h.sized c hc).raPhase⟩⟩

/-- The spectral part keeps its state whole, whatever it is given. -/
theorem fits_closed {p : Params} (hc : 0 < p.channels) (o : Open κ) (base : Env ℝ τ ρ) :
    Closed p (spectralEnv p o base) (fun _ => True) (fun d => ∃ s, d = some s ∧ Fits p s) (fun _ => True) where
  zero := trivial
  add := fun _ _ => trivial
  sub := fun _ _ => trivial
  halve := fun _ => trivial
  init := ⟨_, rfl, create_fits p o⟩
  reset := by rintro _ ⟨s, rfl, h⟩; exact ⟨_, rfl, reset_fits o h⟩
  dsp := by
    rintro _ hop w ⟨s, rfl, h⟩ hl _
    obtain ⟨r, h1, h2, _⟩ := spectralRound_some hc o h hop hl
    have e : (spectralEnv p o base).dsp (some s) hop w = (some r.1, fun c i => ((r.2[c]?).getD fun _ => 0) i) := by
      show (match (some s).bind fun s => spectralRound p o s hop w with | some (s, mix) => _ | none => _) = _
      rw [Option.bind_some, h1]
    rw [e]
    exact ⟨⟨r.1, rfl, h2⟩, fun _ _ _ _ => trivial⟩
  rsInit := trivial
  rsReset := fun _ => trivial
  resample := fun _ _ _ _ _ _ => ⟨trivial, fun _ _ _ _ => trivial⟩

/-- **C105**: in no history of calls with any audio, ratios, scales and settings does the spectral part (guide, phases, analysis and synthesis) leave an array, and its arrays keep their sizes.  (An access outside
an array is `none` there; that those of the peaks and bands are counted as such is shown by the model of the phases and of the guide.) -/
theorem C105 {p : Params} (hc : 0 < p.channels) (o : Open κ) (base : Env ℝ τ ρ) (t q : Dbl) (cs : List (Call ℝ)) {r : State ℝ (Option (Spectral κ)) ρ × List (List (List ℝ))}
    (hr : run p (spectralEnv p o base) (create p (spectralEnv p o base) t q) cs = some r) : ∃ s, r.1.dsp = some s ∧ ArraysWhole p s := by
  have hcl := fits_closed hc o base
  obtain ⟨s, h1, h2⟩ := (hcl.run cs _ r (hcl.create t q) (fun c _ => by cases c <;> first | trivial | exact fun _ _ _ _ => trivial) hr).1.dsp
  exact ⟨s, h1, h2.whole⟩

theorem scales_sizes {p : Params} {n : Nat} (h : n ∈ p.scales) : n = p.classificationFftSize ∨ p.windowShort = false ∧ (n = p.longestFftSize ∨ n = p.shortestFftSize) := scale_of_mem h

/-- **C105**, for the conversion to polar form: the bins that are set are within the arrays. -/
theorem C105_polar {p : Params} {n k : Nat} (hn : n ∈ p.scales) (h : InPolar p n k) : k ≤ n / 2 := by
  obtain ⟨f1, f2⟩ := classify_facts p
  have hr := guide_rate_pos p
  have hsup := (guide_supported p).1
  rcases scales_sizes hn with rfl | ⟨hw, hn⟩
  · unfold InPolar at h
    rw [polarRange_classify] at h
    simp only at h
    omega
  · obtain ⟨l1, l2⟩ := longest_classify p hw
    have hbl : Guide.bandLimits p.guide = [Guide.limits p.guide.longest p.guide.rate 0 p.guide.maxLower, Guide.limits p.guide.classify p.guide.rate 0 p.guide.nyquist,
        Guide.limits p.guide.shortest p.guide.rate p.guide.minHigher p.guide.nyquist] := by unfold Guide.bandLimits; rw [show p.guide.single = false from hw]; rfl
    have c1 : p.guide.maxLower = 1100 := by unfold Guide.Params.maxLower; rw [show p.guide.single = false from hw]; rfl
    have c2 : p.guide.minHigher = 4000 := by unfold Guide.Params.minHigher; rw [show p.guide.single = false from hw]; rfl
    have hny : p.guide.nyquist = p.guide.rate / 2 := rfl
    have fin : ∀ f0 f1 : Rat, 0 ≤ f0 → f0 ≤ f1 → f1 ≤ p.guide.rate / 2 → n % 2 = 0 → (Guide.bandLimits p.guide).find? (fun l => l.fftSize == n) = some (Guide.limits n p.guide.rate f0 f1) → k ≤ n / 2 := by
      intro f0 f1 h0 h1 h2 he hf
      obtain ⟨a, b, c⟩ := Guide.limits_in (fftSize := n) hr he h0 h1 h2
      unfold InPolar polarRange at h
      rw [hf] at h
      simp only at h
      omega
    rcases hn with rfl | rfl
    · refine fin 0 1100 (by norm_num) (by norm_num) (by linarith) (by omega) ?_
      rw [hbl, c1, List.find?_cons_of_pos]
      · rfl
      · simp [Guide.limits, guide_longest]
    · refine fin 4000 p.guide.nyquist (by norm_num) (by rw [hny]; linarith) (le_of_eq hny) (by omega) ?_
      rw [hbl, c2, List.find?_cons_of_neg, List.find?_cons_of_neg, List.find?_cons_of_pos]
      · rfl
      · simp [Guide.limits, guide_shortest]
      · simp only [Guide.limits, guide_classify, beq_iff_eq]; omega
      · simp only [Guide.limits, guide_longest, beq_iff_eq]; omega

/-- Audio with a change of ratio in its midst: the calls return, and the arrays are whole. -/
example : ∃ r s, run Ex.mono (spectralEnv Ex.mono Ex.blind Ex.bare) (create Ex.mono (spectralEnv Ex.mono Ex.blind Ex.bare) (.fin 1) (.fin 1))
    [.process (List.replicate 8192 fun _ => 3) false, .retrieve 100, .setTimeRatio (.fin (1 / 2)), .process (List.replicate 8192 fun _ => 2) true] = some r ∧ r.1.dsp = some s ∧ ArraysWhole Ex.mono s := by
  have hk : KeepsRatio Ex.bare := by intro r x hx; show 3 / 4 * x ≤ x; linarith
  have hw : (Dbl.fin 1).within 1 := by intro q hq; cases hq; exact le_refl _
  obtain ⟨u, hu⟩ := C28_returns (p := Ex.mono) (by decide) (spectralEnv Ex.mono Ex.blind Ex.bare) (spectral_keepsRatio _ _ hk) (le_refl _) (le_refl _) (by decide +kernel) hw hw
    [.process (List.replicate 8192 fun _ => 3) false, .retrieve 100, .setTimeRatio (.fin (1 / 2)), .process (List.replicate 8192 fun _ => 2) true] (by
      intro c hc
      simp only [List.mem_cons, List.not_mem_nil, or_false] at hc
      rcases hc with rfl | rfl | rfl | rfl
      · trivial
      · trivial
      · intro q hq; cases hq; norm_num
      · trivial)
  obtain ⟨s, h1, h2⟩ := C105 (p := Ex.mono) (by decide) Ex.blind Ex.bare (.fin 1) (.fin 1) _ hu
  exact ⟨u, s, hu, h1, h2⟩

/-- At 44100 Hz the scale of 1024 sets its bin 512, the last it has. -/
example : 1024 ∈ ({ Ex.mono with windowShort := false } : Params).scales ∧ InPolar { Ex.mono with windowShort := false } 1024 512 := by unfold InPolar; decide +kernel

/-! ## C106 -/

/-- A resampler that makes silence of silence while its state meets `R`. -/
structure RsHushed (p : Params) (base : Env ℝ τ ρ) (R : ρ → Prop) : Prop where
  init : R base.rsInit
  reset : ∀ {r}, R r → R (base.rsReset r)
  keeps : ∀ {r} (n : Nat) {b : List (Frame ℝ)} (q : Rat) (f : Bool), R r → (∀ x ∈ b, ∀ c < p.channels, x c = 0) →
    R (base.resample r n b q f).1 ∧ ∀ x ∈ (base.resample r n b q f).2, ∀ c < p.channels, x c = 0

/-- Silence is kept by everything. -/
theorem hush_closed {p : Params} (hc : 0 < p.channels) (o : Open κ) {base : Env ℝ τ ρ} {R : ρ → Prop} (hR : RsHushed p base R) :
    Closed p (spectralEnv p o base) (fun a => a = 0) (fun d => ∃ s, d = some s ∧ Fits p s ∧ ∀ c ∈ s.chans, Hush p c) R where
  zero := rfl
  add := by rintro a b rfl rfl; exact add_zero 0
  sub := by rintro a b rfl rfl; exact sub_zero 0
  halve := by rintro a rfl; exact zero_div 2
  init := ⟨_, rfl, create_fits p o, create_hush p o⟩
  reset := by rintro _ ⟨s, rfl, h, _⟩; exact ⟨_, rfl, reset_fits o h, reset_hush p o s⟩
  dsp := by
    rintro _ hop w ⟨s, rfl, h, hq⟩ hl hz
    obtain ⟨r, h1, h2, h3, h4, h5⟩ := spectralRound_mute hc o h hq hop hl hz
    have e : (spectralEnv p o base).dsp (some s) hop w = (some r.1, fun c i => ((r.2[c]?).getD fun _ => 0) i) := by
      show (match (some s).bind fun s => spectralRound p o s hop w with | some (s, mix) => _ | none => _) = _
      rw [Option.bind_some, h1]
    rw [e]
    refine ⟨⟨r.1, rfl, h2, h4⟩, fun c hcc i _ => ?_⟩
    simp only
    cases hm : r.2[c]? with
    | none => rfl
    | some m => exact h5 m (List.mem_of_getElem? hm) i
  rsInit := hR.init
  rsReset := hR.reset
  resample := fun n _ q f h1 h2 => hR.keeps n q f h1 h2

/-- The calls bring nothing but silence. -/
def Call.silent (k : Nat) : Call ℝ → Prop
  | .process x _ => ∀ f ∈ x, ∀ c < k, f c = 0
  | _ => True

theorem silent_gives {k : Nat} {c : Call ℝ} (h : c.silent k) : c.gives (fun a => a = 0) k := by cases c <;> exact h

/-- **C106**: from creation, silence in gives silence out, at any ratios and in any history. -/
theorem C106_new {p : Params} (hc : 0 < p.channels) (o : Open κ) {base : Env ℝ τ ρ} {R : ρ → Prop} (hR : RsHushed p base R) (t q : Dbl) (cs : List (Call ℝ)) (hs : ∀ c ∈ cs, c.silent p.channels)
    {r : State ℝ (Option (Spectral κ)) ρ × List (List (List ℝ))} (hr : run p (spectralEnv p o base) (create p (spectralEnv p o base) t q) cs = some r) :
    ∀ out ∈ r.2, ∀ l ∈ out, ∀ a ∈ l, a = 0 := by
  have hcl := hush_closed hc o hR
  exact (hcl.run cs _ r (hcl.create t q) (fun c h => silent_gives (hs c h)) hr).2

/-- **C106**: after a reset, whatever came before it, silence in gives silence out, at any ratios and in any history: nothing of the old audio is heard, if the resampler (where there is one) forgets it on that reset. -/
theorem C106_forgotten {p : Params} (hc : 0 < p.channels) (o : Open κ) {base : Env ℝ τ ρ} {R : ρ → Prop} (hR : RsHushed p base R) (t q : Dbl) (pre cs : List (Call ℝ)) (hs : ∀ c ∈ cs, c.silent p.channels)
    {a r : State ℝ (Option (Spectral κ)) ρ × List (List (List ℝ))} (ha : run p (spectralEnv p o base) (create p (spectralEnv p o base) t q) pre = some a)
    (hf : ∀ q, a.1.resampler = some q → R (base.rsReset q)) (hr : run p (spectralEnv p o base) a.1 (.reset :: cs) = some r) : ∀ out ∈ r.2, ∀ l ∈ out, ∀ a ∈ l, a = 0 := by
  have hcl := hush_closed hc o hR
  have hw := fits_closed hc o base
  obtain ⟨h1, h2, ⟨s, h3, h4⟩, _⟩ := (hw.run pre _ a (hw.create t q) (fun c _ => by cases c <;> first | trivial | exact fun _ _ _ _ => trivial) ha).1
  have h0 : Holds p (fun a => a = 0) (fun d => ∃ s, d = some s ∧ Fits p s ∧ ∀ c ∈ s.chans, Hush p c) R (reset p (spectralEnv p o base) a.1) := by
    unfold reset
    refine Holds.calculateHop ?_ _ _
    have hempty : ∀ (bufs : List (Fifo ℝ)), bufs.length = p.channels → AllIn (fun a => a = 0) p.channels (bufs.map Fifo.reset) := by
      intro bufs hb
      refine ⟨by rw [List.length_map, hb], ?_⟩
      intro q hq a ha
      obtain ⟨q', _, rfl⟩ := List.mem_map.mp hq
      cases ha
    refine ⟨hempty _ h1.1, hempty _ h2.1, ?_, ?_⟩
    · refine ⟨Spectral.reset p o s, ?_, reset_fits o h4, reset_hush p o s⟩
      show Option.map _ a.1.dsp = _
      rw [h3]
      rfl
    · intro r' hr'
      simp only [Option.map_eq_some_iff] at hr'
      obtain ⟨r'', h5, rfl⟩ := hr'
      exact hf r'' h5
  obtain ⟨b, d, hb, hd, rfl⟩ := run_cons hr
  cases hb
  intro out hout
  rcases List.mem_cons.mp hout with rfl | hout
  · intro l hl; cases hl
  · exact (hcl.run cs _ d h0 (fun c h => silent_gives (hs c h)) hd).2 out hout

/-! ### With the built-in resampler -/

theorem builtin_hushed (p : Params) (w : Nat → Rat → Nat → ℝ) (base : Env ℝ τ (Option (BQ.Res ℝ))) :
    RsHushed p (builtinEnv (resamplerCfg p w) base) fun r => ∀ q, r = some q → q.Silent where
  init := by
    intro q hq
    cases hq
    exact ⟨fun a ha => (by cases ha), fun a ha => (by cases ha)⟩
  reset := by
    intro r h q hq
    obtain ⟨q', h', rfl⟩ := Option.map_eq_some_iff.mp hq
    exact h q' h'
  keeps := fun n _ q f h hb => ⟨(builtin_silent rfl h n hb q f).1, fun x hx c _ => (builtin_silent rfl h n hb q f).2 x hx c⟩

/-- **C106**, as claimed: with the built-in resampler, after creation or a reset, silence in gives silence out. -/
def C106_statement : Prop := ∀ (κ τ : Type) (p : Params) (o : Open κ) (w : Nat → Rat → Nat → ℝ) (base : Env ℝ τ (Option (BQ.Res ℝ))) (t q : Dbl) (pre cs : List (Call ℝ))
  (a r : State ℝ (Option (Spectral κ)) (Option (BQ.Res ℝ)) × List (List (List ℝ))), 0 < p.channels → (∀ c ∈ cs, c.silent p.channels) →
  run p (spectralEnv p o (builtinEnv (resamplerCfg p w) base)) (create p (spectralEnv p o (builtinEnv (resamplerCfg p w) base)) t q) pre = some a →
  run p (spectralEnv p o (builtinEnv (resamplerCfg p w) base)) a.1 (.reset :: cs) = some r → ∀ out ∈ r.2, ∀ l ∈ out, ∀ a ∈ l, a = 0

/-- **C106 (partial)**: with the built-in resampler, from creation on, with any changes of ratio and pitch and any resets. -/
theorem C106_builtin {p : Params} (hc : 0 < p.channels) (o : Open κ) (w : Nat → Rat → Nat → ℝ) (base : Env ℝ τ (Option (BQ.Res ℝ))) (t q : Dbl) (cs : List (Call ℝ)) (hs : ∀ c ∈ cs, c.silent p.channels)
    {r : State ℝ (Option (Spectral κ)) (Option (BQ.Res ℝ)) × List (List (List ℝ))}
    (hr : run p (spectralEnv p o (builtinEnv (resamplerCfg p w) base)) (create p (spectralEnv p o (builtinEnv (resamplerCfg p w) base)) t q) cs = some r) :
    ∀ out ∈ r.2, ∀ l ∈ out, ∀ a ∈ l, a = 0 :=
  C106_new hc o (builtin_hushed p w base) t q cs hs hr

/-- **C106 (partial)**: with the built-in resampler, after a reset, if there is no resampler at that time (the pitch has never been other than 1).  Missing: histories in which there is one.  There the claim is false of the
resampler by itself (`C23_violated`): if its ratio was changed, `reset` keeps what is in the buffer of the ratio before. -/
theorem C106_partial {p : Params} (hc : 0 < p.channels) (o : Open κ) (w : Nat → Rat → Nat → ℝ) (base : Env ℝ τ (Option (BQ.Res ℝ))) (t q : Dbl) (pre cs : List (Call ℝ)) (hs : ∀ c ∈ cs, c.silent p.channels)
    {a r : State ℝ (Option (Spectral κ)) (Option (BQ.Res ℝ)) × List (List (List ℝ))}
    (ha : run p (spectralEnv p o (builtinEnv (resamplerCfg p w) base)) (create p (spectralEnv p o (builtinEnv (resamplerCfg p w) base)) t q) pre = some a) (hn : a.1.resampler = none)
    (hr : run p (spectralEnv p o (builtinEnv (resamplerCfg p w) base)) a.1 (.reset :: cs) = some r) : ∀ out ∈ r.2, ∀ l ∈ out, ∀ a ∈ l, a = 0 :=
  C106_forgotten hc o (builtin_hushed p w base) t q pre cs hs ha (by intro q hq; rw [hn] at hq; cases hq) hr

/-- Audio, a reset, then silence: the calls return, and the second part is silent. -/
example : ∃ a r, run Ex.mono (spectralEnv Ex.mono Ex.blind Ex.bare) (create Ex.mono (spectralEnv Ex.mono Ex.blind Ex.bare) (.fin 1) (.fin 1)) [.process (List.replicate 8192 fun _ => 3) false, .retrieve 100] = some a ∧
    run Ex.mono (spectralEnv Ex.mono Ex.blind Ex.bare) a.1 [.reset, .process (List.replicate 8192 fun _ => 0) true, .retrieve 8192] = some r ∧ ∀ out ∈ r.2, ∀ l ∈ out, ∀ x ∈ l, x = 0 := by
  have hk : KeepsRatio Ex.bare := by intro r x hx; show 3 / 4 * x ≤ x; linarith
  have hw : (Dbl.fin 1).within 1 := by intro q hq; cases hq; exact le_refl _
  obtain ⟨u, hu⟩ := C28_returns (p := Ex.mono) (by decide) (spectralEnv Ex.mono Ex.blind Ex.bare) (spectral_keepsRatio _ _ hk) (le_refl _) (le_refl _) (by decide +kernel) hw hw
    [.process (List.replicate 8192 fun _ => 3) false, .retrieve 100, .reset, .process (List.replicate 8192 fun _ => 0) true, .retrieve 8192] (by
      intro c hc
      simp only [List.mem_cons, List.not_mem_nil, or_false] at hc
      rcases hc with rfl | rfl | rfl | rfl | rfl <;> trivial)
  obtain ⟨b, d, hb, hd, rfl⟩ := run_cons hu
  obtain ⟨e, g, he, hg, rfl⟩ := run_cons hd
  refine ⟨(e.1, [b.2, e.2]), g, ?_, hg, ?_⟩
  · unfold run
    simp only [hb, Option.bind_eq_bind, Option.bind_some]
    unfold run
    simp only [he, Option.bind_eq_bind, Option.bind_some]
    rfl
  · refine C106_forgotten (p := Ex.mono) (by decide) Ex.blind (base := Ex.bare) (R := fun _ => True) ⟨trivial, fun _ => trivial, fun _ _ _ _ _ h => ⟨trivial, h⟩⟩ (.fin 1) (.fin 1)
      [.process (List.replicate 8192 fun _ => 3) false, .retrieve 100] [.process (List.replicate 8192 fun _ => 0) true, .retrieve 8192] ?_ (a := (e.1, [b.2, e.2])) ?_ (fun _ _ => trivial) hg
    · intro c hc
      simp only [List.mem_cons, List.not_mem_nil, or_false] at hc
      rcases hc with rfl | rfl
      · intro f hf c _; rw [List.eq_of_mem_replicate hf]
      · trivial
    · unfold run
      simp only [hb, Option.bind_eq_bind, Option.bind_some]
      unfold run
      simp only [he, Option.bind_eq_bind, Option.bind_some]
      rfl

end Verif.R3
