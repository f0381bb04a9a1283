import Verif.R3UnityProps
import Verif.BQProps
/-!
# With nothing changed the finer engine gives back what it gets, in real time with one window: C107

With the spectral part of `R3Spectral.lean`, that is over the reals.
-/
namespace Verif.R3
open Finset (range)

variable {α σ κ τ ρ : Type}

/-- R3Stretcher.cpp:511-526 `getPreferredStartPad`. -/
def preferredStartPad (p : Params) (s : State α σ ρ) : Nat :=
  if !p.realTime then 0
  else if resamplingBefore p s then (((p.windowSourceSize / 2 : Nat) : Rat) * s.pitchScale).ceil.toNat
  else p.windowSourceSize / 2

/-- R3Stretcher.cpp:528-543 `getStartDelay`. -/
def startDelay (p : Params) (s : State α σ ρ) : Nat :=
  if !p.realTime then 0
  else if resamplingBefore p s then p.windowSourceSize / 2
  else (((p.windowSourceSize / 2 : Nat) : Rat) / s.pitchScale).ceil.toNat

/-- **C107**, as claimed: in real time with the short window, at time ratio 1 and pitch scale 1, when the caller first gives the silence that `getPreferredStartPad` asks for and drops as many
samples as `getStartDelay` says, each sample that comes out after that is the one that went in after the silence.  Any calls that do not change the ratios may come between
(with `OptionFormantPreserved` the formant scale stays 0 or 1). -/
def C107_statement : Prop := ∀ (κ τ ρ : Type) (p : Params) (o : Open κ) (base : Env ℝ τ ρ) (cs : List (Call ℝ)) (r : State ℝ (Option (Spectral κ)) ρ × List (List (List ℝ))),
  0 < p.channels → p.realTime = true → p.windowShort = true → p.highConsistency = false → (∀ r, base.effective r 1 = 1) → (∀ c ∈ cs, c.plain) →
  (∀ x, .setFormantScale x ∈ cs → o.preserved = false ∨ x = .fin 0 ∨ x = .fin 1) →
  run p (spectralEnv p o base) (create p (spectralEnv p o base) (.fin 1) (.fin 1)) cs = some r →
  (∀ i < preferredStartPad p (create p (spectralEnv p o base) (.fin 1) (.fin 1)), ∀ c, heardAt cs c i = 0) →
  ∀ c < p.channels, ∀ i y, (channelOut r.2 c)[startDelay p (create p (spectralEnv p o base) (.fin 1) (.fin 1)) + i]? = some y →
    y = heardAt cs c (preferredStartPad p (create p (spectralEnv p o base) (.fin 1) (.fin 1)) + i)

/-- The built-in resampler says that its ratio is 1 when 1 is asked for. -/
theorem builtin_one {α : Type} (cfg : BQ.Cfg α) : BQ.effectiveRatio cfg 1 = some 1 := by
  unfold BQ.effectiveRatio BQ.pickParams BQ.maxDenom
  cases cfg.quality <;> cases cfg.mostlyFixed <;> decide +kernel

/-! ### What the engine is given -/

/-- In real time the engine is given what is heard. -/
theorem given_live {p : Params} (hrt : p.realTime = true) {halve : ℝ → ℝ} : ∀ (cs : List (Call ℝ)), (∀ c ∈ cs, c.plain) → ∀ ph, ph ≠ .ended → ∀ fed,
    (cs.foldl (feedStep p halve) (ph, fed)).2 = fed ++ (heard cs).map (coded p halve) := by
  intro cs
  induction cs with
  | nil => intro _ ph _ fed; simp [heard]
  | cons c cs ih =>
    intro hq ph hph fed
    have hc := hq c (by simp)
    have ih' := ih fun c hc => hq c (by simp [hc])
    rw [List.foldl_cons]
    cases c with
    | process x f =>
      have e : feedStep p halve (ph, fed) (.process x f) = (if f then .ended else .running, fed ++ (x.take 524288).map (coded p halve)) := by
        unfold feedStep feedFor phaseAfter
        cases ph <;> simp [hrt] <;> first | exact absurd rfl hph | skip
      rw [e]
      cases f
      · simp only [Bool.false_eq_true, if_false, heard]
        rw [ih' _ (by simp)]
        simp
      · simp only [if_true, heard]
        rw [ended_given cs (fun c hc => hq c (by simp [hc]))]
        simp
    | study n =>
      rw [show feedStep p halve (ph, fed) (.study n) = (ph, fed) by simp [feedStep, phaseAfter, feedFor, hrt]]
      exact ih' ph hph fed
    | setTimeRatio _ => exact hc.elim
    | setPitchScale _ => exact hc.elim
    | setKeyFrameMap _ => exact hc.elim
    | reset => exact hc.elim
    | setFormantScale _ => exact ih' ph hph fed
    | setExpectedInputDuration _ => exact ih' ph hph fed
    | setMaxProcessSize _ => exact ih' ph hph fed
    | retrieve _ => exact ih' ph hph fed

/-- **C107**, for all that comes out: what goes in with a gain that depends on the position alone, less what the top two bins stand for. -/
theorem C107_formula {p : Params} (hc : 0 < p.channels) (hrt : p.realTime = true) (hw : p.windowShort = true) (hh : p.highConsistency = false) (o : Open κ) (base : Env ℝ τ ρ)
    (hb : ∀ r, base.effective r 1 = 1) (cs : List (Call ℝ)) (hcs : ∀ c ∈ cs, c.plain)
    (hfs : ∀ x, .setFormantScale x ∈ cs → o.preserved = false ∨ x = .fin 0 ∨ x = .fin 1) {r : State ℝ (Option (Spectral κ)) ρ × List (List (List ℝ))}
    (h : run p (spectralEnv p o base) (create p (spectralEnv p o base) (.fin 1) (.fin 1)) cs = some r) {c i : Nat} (hcc : c < p.channels) {y : ℝ} (hy : (channelOut r.2 c)[i]? = some y) :
    y = unityGain p i * heardAt cs c i - unityLoss p (heardAt cs c) i := by
  have hm : Unresampled p (spectralEnv p o base) := Or.inr ⟨hh, hb⟩
  obtain ⟨r', g1, e1, e2⟩ := Verif.R3.observed h
  have hna : NeverAfter p (spectralEnv p o base) (create p (spectralEnv p o base) (.fin 1) (.fin 1)) cs := by
    intro l l' s hl hs
    obtain ⟨s', k1, k2, _⟩ := Verif.R3.observed hs
    rw [← k2]
    exact ((run_atUnity hm l _ s' (create_atUnity (F := o.still) (Or.inr (Or.inl rfl)) p _) (fun c hc => hcs c (by rw [hl]; simp [hc])) (fun x hx => hfs x (by rw [hl]; simp [hx])) k1).still hm).2
  have hnr : noReset cs := by
    intro c hc
    have := hcs c hc
    cases c <;> trivial
  obtain ⟨n, hout, _⟩ := C55 hc hrt (spectralEnv p o base) (.fin 1) (.fin 1) [] cs (a := (create p (spectralEnv p o base) (.fin 1) (.fin 1), [])) rfl rfl h hnr hna
  rw [hout c hcc, List.getElem?_map, Option.map_eq_some_iff] at hy
  obtain ⟨g, hg, rfl⟩ := hy
  have hg' : (produced r'.1.dsp.2)[i]? = some g := by
    have hi := (List.getElem?_eq_some_iff.mp hg).1
    rw [List.length_take] at hi
    rw [List.getElem?_take_of_lt (by omega)] at hg
    unfold synthesised at hg
    rw [List.nil_append, g1] at hg
    exact hg
  refine delivered_linear p cs (F := fun x => unityGain p i * x i - unityLoss p x i) (fun a b x y => by rw [unityLoss_linear]; ring) hcc fun c hcc => ?_
  have hgiven : given p (fun x => x / 2) cs = (heard cs).map (coded p fun x => x / 2) := given_live hrt cs hcs .fresh (by simp) []
  have hget : ∀ j : Nat, (((given p (fun x => x / 2) cs).map fun g => g c)[j]?).getD 0 = (((heard cs)[j]?).map fun g => coded p (fun x : ℝ => x / 2) g c).getD 0 := by
    intro j
    rw [hgiven, List.map_map, List.getElem?_map]
    rfl
  rw [synthesised_unity hc (Or.inr hw) o base hm hcs hfs g1 hg' hcc, unityOut_formula, hget]
  simp only [hget]

theorem pad_unity {p : Params} (hrt : p.realTime = true) (hh : p.highConsistency = false) (env : Env α σ ρ) :
    preferredStartPad p (create p env (.fin 1) (.fin 1)) = p.windowSourceSize / 2 ∧ startDelay p (create p env (.fin 1) (.fin 1)) = p.windowSourceSize / 2 := by
  have hs : (create p env (.fin 1) (.fin 1)).pitchScale = 1 := by
    have hf : fixRatios (.fin 1) (.fin 1) = (1, 1) := fixRatios_fin (by norm_num) (by norm_num)
    unfold create calculateHop
    rw [hf]
  have hb : resamplingBefore p (create p env (.fin 1) (.fin 1)) = false := by
    unfold resamplingBefore areWeResampling
    rw [hs, hrt, hh]
    cases (create p env (.fin 1) (.fin 1)).resampler.isSome <;> simp
  unfold preferredStartPad startDelay
  rw [hb, hrt, hs]
  refine ⟨rfl, ?_⟩
  simp only [Bool.not_true, Bool.false_eq_true, if_false, div_one]
  rw [show ((p.windowSourceSize / 2 : Nat) : Rat) = (((p.windowSourceSize / 2 : Nat) : Int) : Rat) by push_cast; rfl, Rat.ceil_intCast, Int.toNat_natCast]

/-- **C107**, at rates above 32768, half a transform after what follows the silence begins: what comes out is what went in, wherever the frames that cover the position have nothing in
their two highest bins.  The silence need not be given: without it the same holds of the positions that follow. -/
theorem C107_partial {p : Params} (hc : 0 < p.channels) (hrt : p.realTime = true) (hw : p.windowShort = true) (hh : p.highConsistency = false) (hr : 32768 < p.rate) (o : Open κ) (base : Env ℝ τ ρ)
    (hb : ∀ r, base.effective r 1 = 1) (cs : List (Call ℝ)) (hcs : ∀ c ∈ cs, c.plain)
    (hfs : ∀ x, .setFormantScale x ∈ cs → o.preserved = false ∨ x = .fin 0 ∨ x = .fin 1) {r : State ℝ (Option (Spectral κ)) ρ × List (List (List ℝ))}
    (h : run p (spectralEnv p o base) (create p (spectralEnv p o base) (.fin 1) (.fin 1)) cs = some r) {c i : Nat} (hcc : c < p.channels) {y : ℝ}
    (hy : (channelOut r.2 c)[startDelay p (create p (spectralEnv p o base) (.fin 1) (.fin 1)) + i]? = some y) (hi : p.classificationFftSize ≤ 2 * i)
    (htop : ∀ m, m * unityHop p + p.offset ≤ p.windowSourceSize / 2 + i → p.windowSourceSize / 2 + i < m * unityHop p + p.offset + p.classificationFftSize →
      ∀ k, p.classificationFftSize / 2 ≤ k + 1 → k ≤ p.classificationFftSize / 2 → FFT.spectrum p.classificationFftSize (frameOf p (heardAt cs c) m) k = 0) :
    y = heardAt cs c (preferredStartPad p (create p (spectralEnv p o base) (.fin 1) (.fin 1)) + i) := by
  obtain ⟨e1, e2⟩ := pad_unity hrt hh (spectralEnv p o base)
  rw [e2] at hy
  rw [e1, C107_formula hc hrt hw hh o base hb cs hcs hfs h hcc hy, unityGain_later (Or.inr ⟨hw, hr⟩) hi, unityLoss_none htop]
  ring

/-! ### That something comes out -/

/-- As many samples as went in can be had back. -/
theorem C107_whole {p : Params} (hc : 0 < p.channels) (hrt : p.realTime = true) (hh : p.highConsistency = false) {o : Open κ} (base : Env ℝ τ ρ) (hb : ∀ r, base.effective r 1 = 1) (hk : KeepsRatio base)
    (x : List (Frame ℝ)) (k : Nat) :
    ∃ r, run p (spectralEnv p o base) (create p (spectralEnv p o base) (.fin 1) (.fin 1)) [.process x true, .retrieve k] = some r ∧
      ∀ c < p.channels, min k (x.take 524288).length ≤ (channelOut r.2 c).length := by
  have hone : (1 : Rat) * 1 ≤ p.minPreferredOuthop := by
    obtain ⟨_, h2, _⟩ := sizes_eq p
    obtain ⟨_, _, _, _, u1, _⟩ := sizes p
    rw [h2]
    have : (1 : Nat) ≤ if p.windowShort = true then 2 * unit p else unit p := by split <;> omega
    have : (1 : Rat) ≤ ((if p.windowShort = true then 2 * unit p else unit p : Nat) : Rat) := by exact_mod_cast this
    linarith
  have hw : (Dbl.fin 1).within 1 := by intro q hq; cases hq; exact le_refl _
  obtain ⟨r, hr⟩ := C28_returns hc (spectralEnv p o base) (spectral_keepsRatio p o hk) (le_refl _) (le_refl _) hone hw hw [.process x true, .retrieve k] (by
    intro c hc
    simp only [List.mem_cons, List.not_mem_nil, or_false] at hc
    rcases hc with rfl | rfl <;> trivial)
  refine ⟨r, hr, ?_⟩
  obtain ⟨b, d, hb', hd, rfl⟩ := run_cons hr
  obtain ⟨e, g, hg, hz, rfl⟩ := run_cons hd
  cases hz
  have h1 : run p (spectralEnv p o base) (create p (spectralEnv p o base) (.fin 1) (.fin 1)) [.process x true] = some (b.1, [b.2]) := by
    unfold run
    simp only [hb', Option.bind_eq_bind, Option.bind_some]
    rfl
  obtain ⟨r', g1, e1, e2⟩ := Verif.R3.observed h1
  have hplain : ∀ c ∈ ([.process x true] : List (Call ℝ)), c.plain := by
    intro c hc
    rw [List.mem_singleton.mp hc]
    trivial
  have hm : Unresampled p (spectralEnv p o base) := Or.inr ⟨hh, hb⟩
  have hu := run_atUnity hm _ _ r' (create_atUnity (F := fun _ => True) trivial p _) hplain (fun _ _ => trivial) g1
  have hnb : NeverBefore p (recording (spectralEnv p o base)) (create p (recording (spectralEnv p o base)) (.fin 1) (.fin 1)) [.process x true] := by
    intro pre post s hcs hs
    exact ((run_atUnity hm pre _ s (create_atUnity (F := fun _ => True) trivial p _) (fun c hc => hplain c (by rw [hcs]; simp [hc])) (fun _ _ => trivial) hs).still hm).1
  obtain ⟨_, _, _, hall, _⟩ := C28_stream hc (spectralEnv p o base) (.fin 1) (.fin 1) _ g1 hnb
  have hall := hall rfl
  rw [show given p (spectralEnv p o base).halve [.process x true] = (heard [.process x true]).map (coded p fun x => x / 2) from given_live hrt _ hplain .fresh (by simp) [], sum_hops hu.log] at hall
  have hlen : (produced r'.1.dsp.2).length = r'.1.dsp.2.length * unityHop p := by
    unfold produced
    rw [List.length_flatten, List.map_map, ← sum_hops hu.log]
    congr 1
    refine List.map_congr_left fun e he => ?_
    obtain ⟨k, hk, rfl⟩ := List.getElem_of_mem he
    simp only [Function.comp]
    rw [hu.replays.outs k _ (List.getElem?_eq_getElem hk), List.length_map, List.length_range, (hu.log _ he).outhop, (hu.log _ he).inhop]
  have hna : NeverAfter p (spectralEnv p o base) (create p (spectralEnv p o base) (.fin 1) (.fin 1)) [.process x true] := by
    intro l l' s hl hs
    obtain ⟨s', k1, k2, _⟩ := Verif.R3.observed hs
    rw [← k2]
    exact ((run_atUnity hm l _ s' (create_atUnity (F := fun _ => True) trivial p _) (fun c hc => hplain c (by rw [hl]; simp [hc])) (fun _ _ => trivial) k1).still hm).2
  obtain ⟨n, hn1, hn2⟩ := C55 hc hrt (spectralEnv p o base) (.fin 1) (.fin 1) [] [.process x true] (a := (create p (spectralEnv p o base) (.fin 1) (.fin 1), [])) rfl rfl h1
    (by intro c hc; rw [List.mem_singleton.mp hc]; trivial) hna
  have hsyn : synthesised p (spectralEnv p o base) (.fin 1) (.fin 1) ([] ++ [.process x true]) = produced r'.1.dsp.2 := by
    unfold synthesised
    rw [List.nil_append, g1]
    rfl
  rw [hsyn] at hn1 hn2
  have hb2 : b.2 = [] := by
    simp only [call] at hb'
    rw [Option.map_eq_some_iff] at hb'
    obtain ⟨u, _, hu⟩ := hb'
    rw [← hu]
  have hn0 := congrArg List.length (hn1 0 hc)
  rw [hb2] at hn0
  simp only [channelOut, List.map_cons, List.map_nil, List.getElem?_nil, Option.getD_none, List.flatten_cons, List.flatten_nil, List.append_nil, List.length_nil, List.length_map, List.length_take] at hn0
  rw [hlen] at hn0 hn2
  simp only [List.length_map, heard, if_true, List.append_nil] at hall
  intro c hcc
  simp only [call] at hg
  cases hg
  have hi : Inv p (spectralEnv p o base) b.1 := run_inv hc _ _ _ (create_inv p (spectralEnv p o base) (.fin 1) (.fin 1)) h1
  obtain ⟨_, q2, q3, _, _⟩ := retrieve_facts hc hi k
  simp only [channelOut, List.map_cons, List.map_nil, List.flatten_cons, List.flatten_nil, List.append_nil, List.length_append]
  have hget : (retrieve p b.1 k).2.1[c]? = some ((retrieve p b.1 k).2.1[c]'(by rw [q2]; exact hcc)) := List.getElem?_eq_getElem _
  rw [hget, Option.getD_some, q3 _ (List.getElem_mem _)]
  simp only at hn2
  omega

/-! ### What is claimed does not hold -/

/-- From some way into it on, what is heard is a tone at half the sample rate: with one window, at rates above 32768, nothing comes out. -/
theorem C107_nyquist {p : Params} (hc : 0 < p.channels) (hrt : p.realTime = true) (hs : p.windowShort = true) (hh : p.highConsistency = false) (hr : 32768 < p.rate) (o : Open κ) (base : Env ℝ τ ρ)
    (hb : ∀ r, base.effective r 1 = 1) (cs : List (Call ℝ)) (hcs : ∀ c ∈ cs, c.plain)
    (hfs : ∀ x, .setFormantScale x ∈ cs → o.preserved = false ∨ x = .fin 0 ∨ x = .fin 1) {r : State ℝ (Option (Spectral κ)) ρ × List (List (List ℝ))}
    (h : run p (spectralEnv p o base) (create p (spectralEnv p o base) (.fin 1) (.fin 1)) cs = some r) {a L c i : Nat} (hcc : c < p.channels)
    (hx : ∀ j, a ≤ j → j < L → heardAt cs c j = (-1) ^ j) {y : ℝ} (hy : (channelOut r.2 c)[i]? = some y) (h1 : a + p.classificationFftSize ≤ i) (h2 : i + p.classificationFftSize ≤ L) : y = 0 := by
  have hev : Even p := Or.inr ⟨hs, hr⟩
  obtain ⟨s1, _, _, _, _, s6, s7⟩ := sizes_eq p
  obtain ⟨f1, f2⟩ := classify_facts p
  have hoff : p.offset = 0 := by
    unfold Params.offset
    rw [s6, hs, if_pos rfl, s1]
    omega
  have hin : inset p = 0 := by
    unfold inset
    rw [(windows_overlap hev).1, Nat.sub_self]
  rw [C107_formula hc hrt hs hh o base hb cs hcs hfs h hcc hy, hx i (by omega) (by omega)]
  have key : unityLoss p (heardAt cs c) i = unityGain p i * (-1) ^ i := by
    unfold unityLoss unityGain
    rw [Finset.sum_mul]
    refine Finset.sum_congr rfl fun m _ => ?_
    simp only [hoff, hin, Nat.add_zero, (windows_overlap hev).1]
    split
    · rename_i hm
      have hframe : ∀ j < p.classificationFftSize, frameOf p (heardAt cs c) m j = Window.hann p.classificationFftSize j * ((-1) ^ (m * unityHop p) * (-1) ^ j) := by
        intro j hj
        unfold frameOf analysisWindow
        rw [hs, if_pos rfl, hoff, Nat.add_zero, hx _ (by omega) (by omega), pow_add]
      have ht : top p.classificationFftSize (frameOf p (heardAt cs c) m) (i - m * unityHop p) = frameOf p (heardAt cs c) m (i - m * unityHop p) := by
        refine top_all (by omega) (fun k hk => ?_) (by omega)
        rw [spectrum_congr hframe]
        exact below_of_nyquist (by omega) (by omega) _ hk
      simp only [Nat.sub_zero]
      rw [ht]
      unfold frameOf windowPair
      rw [hoff, hin, Nat.add_zero, Nat.add_zero, show m * unityHop p + (i - m * unityHop p) = i by omega, hx i (by omega) (by omega)]
      ring
    · rw [zero_mul]
  rw [key]
  ring

namespace Ex

/-- One channel at 44100 in real time, windows of one size. -/
def live : Params := { mono with realTime := true }

theorem live_sizes : live.classificationFftSize = 2048 ∧ 32768 < live.rate ∧ live.windowSourceSize / 2 = 1280 ∧ live.offset = 0 := by
  refine ⟨?_, ?_, ?_, ?_⟩ <;> decide +kernel

/-- Silence for the padding, then something. -/
def padded (f : Nat → ℝ) : List (Frame ℝ) := (List.range 9472).map fun i _ => if i < 1280 then 0 else f i

theorem padded_heard (f : Nat → ℝ) (k c j : Nat) : heardAt [.process (padded f) true, .retrieve k] c j = if j < 9472 then (if j < 1280 then 0 else f j) else 0 := by
  unfold heardAt padded
  simp only [heard, if_true, List.append_nil]
  by_cases hj : j < 9472
  · rw [List.getElem?_take_of_lt (by omega), List.getElem?_map, List.getElem?_range hj, if_pos hj]
    rfl
  · rw [if_neg hj, List.getElem?_eq_none (by rw [List.length_take, List.length_map, List.length_range]; omega)]
    rfl

theorem live_run (f : Nat → ℝ) : ∃ r, run live (spectralEnv live blind bare) (create live (spectralEnv live blind bare) (.fin 1) (.fin 1)) [.process (padded f) true, .retrieve 9472] = some r ∧
    5376 < (channelOut r.2 0).length := by
  have hk : KeepsRatio bare := by intro r x hx; show 3 / 4 * x ≤ x; linarith
  obtain ⟨r, hr, hl⟩ := C107_whole (p := live) (by decide) rfl rfl (o := blind) bare (fun _ => rfl) hk (padded f) 9472
  refine ⟨r, hr, ?_⟩
  have := hl 0 (by decide)
  unfold padded at this
  rw [List.length_take, List.length_map, List.length_range] at this
  omega

end Ex

/-- A tone at half the sample rate is taken away. -/
theorem C107_violated : ¬ C107_statement := by
  intro h
  obtain ⟨s1, s2, s3, s4⟩ := Ex.live_sizes
  obtain ⟨r, hr, hl⟩ := Ex.live_run fun j => (-1) ^ j
  have hplain : ∀ c ∈ ([.process (Ex.padded fun j => (-1) ^ j) true, .retrieve 9472] : List (Call ℝ)), c.plain := by
    intro c hc
    simp only [List.mem_cons, List.not_mem_nil, or_false] at hc
    rcases hc with rfl | rfl <;> trivial
  have h0 := C107_nyquist (p := Ex.live) (by decide) rfl rfl rfl s2 Ex.blind Ex.bare (fun _ => rfl) _ hplain (by simp) hr (a := 1280) (L := 9472) (c := 0) (by decide)
    (by intro j j1 j2; rw [Ex.padded_heard, if_pos j2, if_neg (by omega)]) (List.getElem?_eq_getElem hl) (by rw [s1]; norm_num) (by rw [s1]; norm_num)
  obtain ⟨e1, e2⟩ := pad_unity (p := Ex.live) rfl rfl (spectralEnv Ex.live Ex.blind Ex.bare)
  rw [s3] at e1 e2
  have h1 := h Unit Unit Unit Ex.live Ex.blind Ex.bare _ r (by decide) rfl rfl rfl (fun _ => rfl) hplain (by simp) hr (by
    rw [e1]
    intro i hi c
    rw [Ex.padded_heard, if_pos (by omega), if_pos hi]) 0 (by decide) 4096 _ (by rw [e2]; exact List.getElem?_eq_getElem hl)
  rw [e1, h0, Ex.padded_heard] at h1
  norm_num at h1

/-- A constant comes out as it went in: the hypotheses of `C107_partial` are met. -/
example : ∃ r, run Ex.live (spectralEnv Ex.live Ex.blind Ex.bare) (create Ex.live (spectralEnv Ex.live Ex.blind Ex.bare) (.fin 1) (.fin 1)) [.process (Ex.padded fun _ => 3) true, .retrieve 9472] = some r ∧
    (channelOut r.2 0)[5376]? = some 3 := by
  obtain ⟨s1, s2, s3, s4⟩ := Ex.live_sizes
  obtain ⟨r, hr, hl⟩ := Ex.live_run fun _ => 3
  refine ⟨r, hr, ?_⟩
  have hplain : ∀ c ∈ ([.process (Ex.padded fun _ => 3) true, .retrieve 9472] : List (Call ℝ)), c.plain := by
    intro c hc
    simp only [List.mem_cons, List.not_mem_nil, or_false] at hc
    rcases hc with rfl | rfl <;> trivial
  obtain ⟨e1, e2⟩ := pad_unity (p := Ex.live) rfl rfl (spectralEnv Ex.live Ex.blind Ex.bare)
  rw [s3] at e1 e2
  have := C107_partial (p := Ex.live) (by decide) rfl rfl rfl s2 Ex.blind Ex.bare (fun _ => rfl) _ hplain (by simp) hr (c := 0) (i := 4096) (by decide) (by rw [e2]; exact List.getElem?_eq_getElem hl)
    (by rw [s1]; norm_num) (by
      rw [s1, s3, s4]
      intro m m1 m2 k k1 k2
      rw [spectrum_congr (y := fun j => Window.hann 2048 j * 3) (fun j hj => by
        unfold frameOf analysisWindow
        rw [if_pos (show Ex.live.windowShort = true from rfl), s4, Ex.padded_heard, if_pos (by omega), if_neg (by omega), s1])]
      exact top_of_constant (by norm_num) 3 k1 k2)
  rw [List.getElem?_eq_getElem hl, this, e1, Ex.padded_heard]
  norm_num

end Verif.R3
