import Verif.R3UnityGain
import Verif.R3Defined
import Verif.FFTProps
/-!
# With nothing changed the finer engine gives back what it gets, offline: C104

With the spectral part of `R3Spectral.lean`, that is over the reals.
-/
namespace Verif.R3
open Finset (range)
open Verif.FFT (turn)

variable {κ τ ρ : Type}

/-- **C104**, as claimed: offline, at time ratio 1 and pitch scale 1, each sample that comes out is the one that went in (silence after the end).
Any calls that change neither ratio nor map may come between (with `OptionFormantPreserved` the formant scale stays 0 or 1), and if the duration is known beforehand it is no shorter than the longest transform (see C56). -/
def C104_statement : Prop := ∀ (κ τ ρ : Type) (p : Params) (o : Open κ) (base : Env ℝ τ ρ) (pre post : List (Call ℝ)) (x : List (Frame ℝ)) (f : Bool)
  (a r : State ℝ (Option (Spectral κ)) ρ × List (List (List ℝ))), 0 < p.channels → p.realTime = false → (∀ c ∈ pre, c.quiet) → (∀ c ∈ post, c.plain) →
  (∀ x, .setFormantScale x ∈ pre ++ post → o.preserved = false ∨ x = .fin 0 ∨ x = .fin 1) →
  (knownDuration false pre = 0 ∨ p.longestFftSize ≤ knownDuration false pre) →
  run p (spectralEnv p o base) (create p (spectralEnv p o base) (.fin 1) (.fin 1)) pre = some a → run p (spectralEnv p o base) a.1 (.process x f :: post) = some r →
  ∀ c < p.channels, ∀ i y, (channelOut r.2 c)[i]? = some y → y = heardAt (pre ++ .process x f :: post) c i

/-- Nothing is lost where nothing is in the top two bins of any frame there. -/
theorem unityLoss_none {p : Params} {x : Nat → ℝ} {q : Nat} (h : ∀ m, m * unityHop p + p.offset ≤ q → q < m * unityHop p + p.offset + p.classificationFftSize →
      ∀ k, p.classificationFftSize / 2 ≤ k + 1 → k ≤ p.classificationFftSize / 2 → FFT.spectrum p.classificationFftSize (frameOf p x m) k = 0) :
    unityLoss p x q = 0 := by
  unfold unityLoss
  refine Finset.sum_eq_zero fun m _ => ?_
  split
  · rename_i hm
    have hle := synthesisSize_le p p.classificationFftSize
    rw [top_zero (h m (by omega) (by unfold inset at hm; omega)), zero_mul, mul_zero]
  · rfl

/-- **C104**, at the rates at which the hops fit the windows (up to 65536 with windows of several sizes, above 32768 with one), from half a transform after the beginning on: what comes out
is what went in, wherever the frames that cover the position have nothing in their two highest bins. -/
theorem C104_partial {p : Params} (hc : 0 < p.channels) (hrt : p.realTime = false) (o : Open κ) (base : Env ℝ τ ρ) (pre post : List (Call ℝ)) (x : List (Frame ℝ)) (f : Bool)
    (hpre : ∀ c ∈ pre, c.quiet) (hpost : ∀ c ∈ post, c.plain) (hfs : ∀ x, .setFormantScale x ∈ pre ++ post → o.preserved = false ∨ x = .fin 0 ∨ x = .fin 1)
    (hlong : knownDuration false pre = 0 ∨ p.longestFftSize ≤ knownDuration false pre)
    {a r : State ℝ (Option (Spectral κ)) ρ × List (List (List ℝ))} (h1 : run p (spectralEnv p o base) (create p (spectralEnv p o base) (.fin 1) (.fin 1)) pre = some a)
    (h2 : run p (spectralEnv p o base) a.1 (.process x f :: post) = some r) (he : Even p)
    {c i : Nat} (hcc : c < p.channels) {y : ℝ} (hy : (channelOut r.2 c)[i]? = some y) (hi : p.classificationFftSize ≤ 2 * i)
    (htop : ∀ m, m * unityHop p + p.offset ≤ p.windowSourceSize / 2 + i → p.windowSourceSize / 2 + i < m * unityHop p + p.offset + p.classificationFftSize →
      ∀ k, p.classificationFftSize / 2 ≤ k + 1 → k ≤ p.classificationFftSize / 2 →
        FFT.spectrum p.classificationFftSize (frameOf p (delayed (p.windowSourceSize / 2) (heardAt (pre ++ .process x f :: post) c)) m) k = 0) :
    y = heardAt (pre ++ .process x f :: post) c i := by
  rw [C104_formula hc hrt o base pre post x f hpre hpost hfs hlong h1 h2 hcc hy, unityGain_later he hi, unityLoss_none htop]
  ring

/-! ### That something comes out -/

theorem spectral_keepsRatio (p : Params) (o : Open κ) {base : Env ℝ τ ρ} (h : KeepsRatio base) : KeepsRatio (spectralEnv p o base) := h

/-- As many samples as went in can be had back. -/
theorem C104_whole {p : Params} (hc : 0 < p.channels) (hrt : p.realTime = false) {o : Open κ} (base : Env ℝ τ ρ) (hk : KeepsRatio base) (x : List (Frame ℝ)) (k : Nat) :
    ∃ r, run p (spectralEnv p o base) (create p (spectralEnv p o base) (.fin 1) (.fin 1)) [.process x true, .retrieve k] = some r ∧
      ∀ c < p.channels, min k (x.take 524288).length ≤ (channelOut r.2 c).length := by
  have hone : (1 : Rat) * 1 ≤ p.minPreferredOuthop := by
    obtain ⟨_, h2, _⟩ := sizes_eq p
    obtain ⟨_, _, _, _, u1, _⟩ := sizes p
    rw [h2]
    have : (1 : Nat) ≤ if p.windowShort = true then 2 * unit p else unit p := by split <;> omega
    have : (1 : Rat) ≤ ((if p.windowShort = true then 2 * unit p else unit p : Nat) : Rat) := by exact_mod_cast this
    linarith
  have hw : (Dbl.fin 1).within 1 := by intro q hq; cases hq; exact le_refl _
  obtain ⟨r, hr⟩ := C28_returns hc (spectralEnv p o base) (spectral_keepsRatio p o hk) (le_refl _) (le_refl _) hone hw hw [.process x true, .retrieve k] (by
    intro c hc
    simp only [List.mem_cons, List.not_mem_nil, or_false] at hc
    rcases hc with rfl | rfl <;> trivial)
  refine ⟨r, hr, ?_⟩
  obtain ⟨b, d, hb, hd, rfl⟩ := run_cons hr
  obtain ⟨e, g, hg, hz, rfl⟩ := run_cons hd
  cases hz
  -- after the block
  have h1 : run p (spectralEnv p o base) (create p (spectralEnv p o base) (.fin 1) (.fin 1)) [.process x true] = some (b.1, [b.2]) := by
    unfold run
    simp only [hb, Option.bind_eq_bind, Option.bind_some]
    rfl
  obtain ⟨r', g1, e1, e2⟩ := Verif.R3.observed h1
  have hplain : ∀ c ∈ ([.process x true] : List (Call ℝ)), c.plain := by
    intro c hc
    rw [List.mem_singleton.mp hc]
    trivial
  have hm : Unresampled p base := Or.inl hrt
  have hu := run_atUnity (spectral_unresampled o hm) _ _ r' (create_atUnity (F := fun _ => True) trivial p _) hplain (fun _ _ => trivial) g1
  have hnb : NeverBefore p (recording (spectralEnv p o base)) (create p (recording (spectralEnv p o base)) (.fin 1) (.fin 1)) [.process x true] := by
    intro pre post s hcs hs
    exact ((run_atUnity (spectral_unresampled o hm) pre _ s (create_atUnity (F := fun _ => True) trivial p _) (fun c hc => hplain c (by rw [hcs]; simp [hc])) (fun _ _ => trivial) hs).still (spectral_unresampled o hm)).1
  obtain ⟨_, _, _, hall, _⟩ := C28_stream hc (spectralEnv p o base) (.fin 1) (.fin 1) _ g1 hnb
  have hall := hall rfl
  rw [show given p (spectralEnv p o base).halve [.process x true] = given p (fun x => x / 2) ([] ++ .process x true :: []) from rfl, given_heard hrt (by simp) (by simp), sum_hops hu.log] at hall
  have hlen : (produced r'.1.dsp.2).length = r'.1.dsp.2.length * unityHop p := by
    unfold produced
    rw [List.length_flatten, List.map_map, ← sum_hops hu.log]
    congr 1
    refine List.map_congr_left fun e he => ?_
    obtain ⟨k, hk, rfl⟩ := List.getElem_of_mem he
    simp only [Function.comp]
    rw [hu.replays.outs k _ (List.getElem?_eq_getElem hk), List.length_map, List.length_range, (hu.log _ he).outhop, (hu.log _ he).inhop]
  have hna : NeverAfter p (spectralEnv p o base) (create p (spectralEnv p o base) (.fin 1) (.fin 1)) [.process x true] := by
    intro l l' s hl hs
    obtain ⟨s', k1, k2, _⟩ := Verif.R3.observed hs
    rw [← k2]
    exact ((run_atUnity (spectral_unresampled o hm) l _ s' (create_atUnity (F := fun _ => True) trivial p _) (fun c hc => hplain c (by rw [hl]; simp [hc])) (fun _ _ => trivial) k1).still (spectral_unresampled o hm)).2
  have hz : (Round.roundAway (((knownDuration p.realTime ([] : List (Call ℝ)) : Nat) : Rat) * (create p (spectralEnv p o base) (.fin 1) (.fin 1)).timeRatio)).toNat = 0 := by
    have : knownDuration p.realTime ([] : List (Call ℝ)) = 0 := rfl
    rw [this, Nat.cast_zero, zero_mul]
    decide +kernel
  obtain ⟨n, hn1, hn2⟩ := C56_partial hc hrt (spectralEnv p o base) (.fin 1) (.fin 1) [] [] x true (a := (create p (spectralEnv p o base) (.fin 1) (.fin 1), [])) rfl (Or.inl rfl) h1 (by intro c hc; cases hc)
    hna (Or.inl hz)
  rw [hz] at hn1 hn2
  have hsyn : synthesised p (spectralEnv p o base) (.fin 1) (.fin 1) ([] ++ .process x true :: []) = produced r'.1.dsp.2 := by
    unfold synthesised
    rw [List.nil_append, g1]
    rfl
  rw [hsyn] at hn1 hn2
  unfold cut at hn1 hn2
  rw [if_pos rfl] at hn1 hn2
  have hb2 : b.2 = [] := by
    simp only [call] at hb
    rw [Option.map_eq_some_iff] at hb
    obtain ⟨u, _, hu⟩ := hb
    rw [← hu]
  have hn0 := congrArg List.length (hn1 0 hc)
  rw [hb2] at hn0
  simp only [channelOut, List.map_cons, List.map_nil, List.getElem?_nil, Option.getD_none, List.flatten_cons, List.flatten_nil, List.append_nil, List.length_nil, List.length_map, List.length_take] at hn0
  rw [List.length_drop, hlen] at hn0 hn2
  simp only [List.length_append, List.length_replicate, List.length_map, heard, List.nil_append, if_true, List.append_nil] at hall
  intro c hcc
  -- what is taken
  simp only [call] at hg
  cases hg
  have hi : Inv p (spectralEnv p o base) b.1 := run_inv hc _ _ _ (create_inv p (spectralEnv p o base) (.fin 1) (.fin 1)) h1
  obtain ⟨_, q2, q3, _, _⟩ := retrieve_facts hc hi k
  simp only [channelOut, List.map_cons, List.map_nil, List.flatten_cons, List.flatten_nil, List.append_nil, List.length_append]
  have hget : (retrieve p b.1 k).2.1[c]? = some ((retrieve p b.1 k).2.1[c]'(by rw [q2]; exact hcc)) := List.getElem?_eq_getElem _
  rw [hget, Option.getD_some, q3 _ (List.getElem_mem _)]
  simp only at hn2
  omega

/-! ### Tones -/

theorem turn_sum {n d : Nat} (hn : 0 < n) (hd : ¬ n ∣ d) : ∑ j ∈ range n, turn 1 n (d * j) = 0 := by
  have hf : (1 : ℝ) * 1 = 1 := by norm_num
  have hne : turn 1 n d ≠ 1 := by
    intro h
    have h1 : turn (-1) n d = 1 := by
      have := congrArg (starRingEnd ℂ) h
      rw [FFT.turn_conj, map_one] at this
      exact this
    have h2 : turn (-1) n (d % n) = 1 := by
      have hf' : (-1 : ℝ) * (-1) = 1 := by norm_num
      have e : d = n * (d / n) + d % n := (Nat.div_add_mod d n).symm
      rw [e, FFT.turn_add hf', FFT.turn_wrap hf' hn, one_mul] at h1
      exact h1
    have h3 := FFT.turn_inj (Nat.mod_lt d hn) hn (h2.trans (FFT.turn_zero (-1) n).symm)
    exact hd (Nat.dvd_of_mod_eq_zero h3)
  have hg := geom_sum_mul (turn 1 n d) n
  rw [← FFT.turn_pow hf, Nat.mul_comm, FFT.turn_wrap hf hn, sub_self] at hg
  rcases mul_eq_zero.mp hg with h | h
  · rw [← h]
    exact Finset.sum_congr rfl fun j _ => FFT.turn_pow hf n d j
  · exact (hne (sub_eq_zero.mp h)).elim

theorem hann_turn {n : Nat} (hn : 0 < n) (j : Nat) : ((Window.hann n j : ℝ) : ℂ) = 1 / 2 - 1 / 4 * turn 1 n j - 1 / 4 * turn 1 n ((n - 1) * j) := by
  have hf : (1 : ℝ) * 1 = 1 := by norm_num
  rw [FFT.turn_back hf hn (by omega), one_mul]
  have e : turn 1 n j + (starRingEnd ℂ) (turn 1 n j) = ((2 * Real.cos (2 * Real.pi * j / n) : ℝ) : ℂ) := by
    rw [Complex.add_conj]
    congr 2
    simp only [turn]
    congr 1
    ring
  have : ((Window.hann n j : ℝ) : ℂ) = 1 / 2 - 1 / 4 * (turn 1 n j + (starRingEnd ℂ) (turn 1 n j)) := by
    rw [e]
    unfold Window.hann
    push_cast
    ring
  rw [this]
  ring

/-- A tone at bin `d` in a Hann window is in the bins next to it only. -/
theorem hann_tone {n d k : Nat} (hn : 0 < n) (h0 : ¬ n ∣ d + k) (h1 : ¬ n ∣ d + k + 1) (h2 : ¬ n ∣ d + k + (n - 1)) :
    ∑ j ∈ range n, ((Window.hann n j : ℝ) : ℂ) * turn 1 n (d * j) * turn 1 n (k * j) = 0 := by
  have hf : (1 : ℝ) * 1 = 1 := by norm_num
  have e : ∀ j, ((Window.hann n j : ℝ) : ℂ) * turn 1 n (d * j) * turn 1 n (k * j) =
      1 / 2 * turn 1 n ((d + k) * j) - 1 / 4 * turn 1 n ((d + k + 1) * j) - 1 / 4 * turn 1 n ((d + k + (n - 1)) * j) := by
    intro j
    rw [hann_turn hn]
    simp only [Nat.add_mul, FFT.turn_add hf, one_mul]
    ring
  simp only [e]
  rw [Finset.sum_sub_distrib, Finset.sum_sub_distrib, ← Finset.mul_sum, ← Finset.mul_sum, ← Finset.mul_sum, turn_sum hn h0, turn_sum hn h1, turn_sum hn h2]
  ring

theorem spectrum_turn (n : Nat) (x : Nat → ℝ) (k : Nat) : FFT.spectrum n x k = ∑ j ∈ range n, (x j : ℂ) * turn 1 n (k * j) := by
  unfold FFT.spectrum
  refine Finset.sum_congr rfl fun j _ => ?_
  rw [FFT.turn_exp]
  congr 2
  push_cast
  ring

/-- A constant in a Hann window has nothing in the top two bins. -/
theorem top_of_constant {n : Nat} (hn : 8 ≤ n) (a : ℝ) {k : Nat} (h1 : n / 2 ≤ k + 1) (h2 : k ≤ n / 2) : FFT.spectrum n (fun j => Window.hann n j * a) k = 0 := by
  rw [spectrum_turn]
  have := hann_tone (n := n) (d := 0) (k := k) (by omega) (fun h => by have := Nat.le_of_dvd (by omega) h; omega) (fun h => by have := Nat.le_of_dvd (by omega) h; omega) (fun h => by
    rw [show 0 + k + (n - 1) = (k - 1) + n by omega] at h
    have := Nat.le_of_dvd (by omega) ((Nat.dvd_add_left (dvd_refl n)).mp h)
    omega)
  simp only [zero_mul, FFT.turn_zero, mul_one] at this
  have e : ∀ j, (((Window.hann n j * a : ℝ)) : ℂ) * turn 1 n (k * j) = (a : ℂ) * (((Window.hann n j : ℝ) : ℂ) * turn 1 n (k * j)) := by
    intro j
    push_cast
    ring
  simp only [e]
  rw [← Finset.mul_sum, this, mul_zero]

/-- A tone at half the sample rate in a Hann window is in the top two bins only. -/
theorem below_of_nyquist {n : Nat} (hn : n % 2 = 0) (hn' : 8 ≤ n) (a : ℝ) {k : Nat} (hk : k + 1 < n / 2) : FFT.spectrum n (fun j => Window.hann n j * (a * (-1) ^ j)) k = 0 := by
  have hf : (1 : ℝ) * 1 = 1 := by norm_num
  rw [spectrum_turn]
  have := hann_tone (n := n) (d := n / 2) (k := k) (by omega) (fun h => by have := Nat.le_of_dvd (by omega) h; omega) (fun h => by have := Nat.le_of_dvd (by omega) h; omega) (fun h => by
    rw [show n / 2 + k + (n - 1) = (n / 2 + k - 1) + n by omega] at h
    have := Nat.le_of_dvd (by omega) ((Nat.dvd_add_left (dvd_refl n)).mp h)
    omega)
  have ht : ∀ j, turn 1 n (n / 2 * j) = (-1) ^ j := by
    intro j
    have := turn_halves hf (h := n / 2) (by omega) j
    rw [show 2 * (n / 2) = n by omega] at this
    rw [Nat.mul_comm]
    exact this
  simp only [ht] at this
  have e : ∀ j, (((Window.hann n j * (a * (-1) ^ j) : ℝ)) : ℂ) * turn 1 n (k * j) = (a : ℂ) * (((Window.hann n j : ℝ) : ℂ) * (-1) ^ j * turn 1 n (k * j)) := by
    intro j
    push_cast
    ring
  simp only [e]
  rw [← Finset.mul_sum, this, mul_zero]

/-- If all is in the top two bins they stand for all. -/
theorem top_all {n : Nat} {x : Nat → ℝ} (hn : 0 < n) (h : ∀ k, k + 1 < n / 2 → FFT.spectrum n x k = 0) {j : Nat} (hj : j < n) : top n x j = x j := by
  have := resum_below x hj
  have e : (fun k => if k + 1 < n / 2 then FFT.spectrum n x k else 0) = fun _ => 0 := by
    funext k
    split
    · exact h k ‹_›
    · rfl
  rw [e, resum_zero] at this
  have hn' : (n : ℝ) ≠ 0 := by exact_mod_cast (by omega : n ≠ 0)
  rcases mul_eq_zero.mp this.symm with h | h
  · exact (hn' h).elim
  · linarith

/-! ### What is claimed does not hold -/

/-- A tone at half the sample rate, put in at unity: with one window, at rates above 32768, nothing comes out but at the ends. -/
theorem C104_nyquist {p : Params} (hc : 0 < p.channels) (hrt : p.realTime = false) (hs : p.windowShort = true) (hr : 32768 < p.rate) (o : Open κ) (base : Env ℝ τ ρ) {L k : Nat} (hL : L ≤ 524288)
    {r : State ℝ (Option (Spectral κ)) ρ × List (List (List ℝ))}
    (h : run p (spectralEnv p o base) (create p (spectralEnv p o base) (.fin 1) (.fin 1)) [.process ((List.range L).map fun i _ => (-1) ^ i) true, .retrieve k] = some r)
    {c i : Nat} (hcc : c < p.channels) {y : ℝ} (hy : (channelOut r.2 c)[i]? = some y) (h1 : p.classificationFftSize ≤ i) (h2 : i + p.classificationFftSize ≤ L) : y = 0 := by
  have hev : Even p := Or.inr ⟨hs, hr⟩
  obtain ⟨s1, _, _, _, _, s6, s7⟩ := sizes_eq p
  obtain ⟨f1, f2⟩ := classify_facts p
  have hoff : p.offset = 0 := by
    unfold Params.offset
    rw [s6, hs, if_pos rfl, s1]
    omega
  have hheard : ∀ j < L, heardAt ([] ++ .process ((List.range L).map fun i _ => (-1) ^ i) true :: [.retrieve k]) c j = (-1) ^ j := by
    intro j hj
    unfold heardAt
    simp only [List.nil_append, heard, if_true, List.append_nil]
    rw [List.getElem?_take_of_lt (by omega), List.getElem?_map, List.getElem?_range hj]
    rfl
  rw [C104_formula hc hrt o base [] [.retrieve k] _ true (by simp) (by intro c hc; rw [List.mem_singleton.mp hc]; trivial) (by simp) (Or.inl rfl) (a := (create p (spectralEnv p o base) (.fin 1) (.fin 1), [])) rfl h hcc hy,
    hheard i (by omega)]
  have hp1 : p.classificationFftSize / 2 ≤ p.windowSourceSize / 2 := by
    rw [s7, hs, if_pos rfl, s1]
    omega
  set x := heardAt ([] ++ .process ((List.range L).map fun i _ => (-1) ^ i) true :: [.retrieve k]) c with hx
  set pad := p.windowSourceSize / 2 with hpad
  have hin : inset p = 0 := by
    unfold inset
    rw [(windows_overlap hev).1, Nat.sub_self]
  have key : unityLoss p (delayed pad x) (pad + i) = unityGain p (pad + i) * (-1) ^ i := by
    unfold unityLoss unityGain
    rw [Finset.sum_mul]
    refine Finset.sum_congr rfl fun m _ => ?_
    simp only [hoff, hin, Nat.add_zero, (windows_overlap hev).1]
    split
    · rename_i hm
      have hframe : ∀ j < p.classificationFftSize, frameOf p (delayed pad x) m j = Window.hann p.classificationFftSize j * ((-1) ^ (m * unityHop p + pad) * (-1) ^ j) := by
        intro j hj
        unfold frameOf delayed analysisWindow
        rw [hs, if_pos rfl, hoff, Nat.add_zero, if_neg (by omega), hheard _ (by omega)]
        congr 1
        have e : m * unityHop p + pad + j = (m * unityHop p + j - pad) + 2 * pad := by omega
        rw [← pow_add, e, pow_add, pow_mul]
        norm_num
      have ht : top p.classificationFftSize (frameOf p (delayed pad x) m) (pad + i - m * unityHop p) = frameOf p (delayed pad x) m (pad + i - m * unityHop p) := by
        refine top_all (by omega) (fun k hk => ?_) (by omega)
        rw [spectrum_congr hframe]
        exact below_of_nyquist (by omega) (by omega) _ hk
      simp only [Nat.sub_zero]
      rw [ht]
      unfold frameOf windowPair delayed
      rw [hoff, hin, Nat.add_zero, Nat.add_zero, show m * unityHop p + (pad + i - m * unityHop p) = pad + i by omega, if_neg (by omega), Nat.add_sub_cancel_left, hheard i (by omega)]
      ring
    · rw [zero_mul]
  rw [key]
  ring

namespace Ex

/-- One channel at 44100, windows of one size. -/
def mono : Params := { sampleRate := 44100, channels := 1, windowShort := true }

/-- A classifier that sees nothing. -/
def blind : Open Unit := ⟨(), id, fun _ _ _ => ((), ⟨0, ⟨0, 0, 0⟩, ⟨0, 0, 0⟩, ⟨0, 0, 0⟩⟩), fun _ => 0, true, fun _ _ => 1⟩

/-- No resampler is needed. -/
noncomputable def bare : Env ℝ Unit Unit := ⟨(), id, fun s _ _ => (s, fun _ _ => 0), (), id, fun r _ b _ _ => (r, b), fun _ x => x, fun _ => 256, fun x => x / 2⟩

theorem mono_sizes : mono.classificationFftSize = 2048 ∧ 32768 < mono.rate := by
  constructor
  · decide +kernel
  · decide +kernel

end Ex

/-- A tone at half the sample rate is taken away. -/
theorem C104_violated : ¬ C104_statement := by
  intro h
  have hk : KeepsRatio Ex.bare := by intro r x hx; show 3 / 4 * x ≤ x; linarith
  obtain ⟨r, hr, hl⟩ := C104_whole (p := Ex.mono) (by decide) rfl (o := Ex.blind) Ex.bare hk ((List.range 8192).map fun i _ => (-1) ^ i) 8192
  have hlen : 4096 < (channelOut r.2 0).length := by
    have := hl 0 (by decide)
    rw [List.length_take, List.length_map, List.length_range] at this
    omega
  have h0 := C104_nyquist (p := Ex.mono) (by decide) rfl rfl Ex.mono_sizes.2 Ex.blind Ex.bare (by norm_num) hr (c := 0) (by decide) (List.getElem?_eq_getElem hlen) (by rw [Ex.mono_sizes.1]; norm_num) (by rw [Ex.mono_sizes.1]; norm_num)
  have h1 := h Unit Unit Unit Ex.mono Ex.blind Ex.bare [] [.retrieve 8192] _ true (create Ex.mono (spectralEnv Ex.mono Ex.blind Ex.bare) (.fin 1) (.fin 1), []) r (by decide) rfl (by simp)
    (by intro c hc; rw [List.mem_singleton.mp hc]; trivial) (by simp) (Or.inl rfl) rfl hr 0 (by decide) 4096 _ (List.getElem?_eq_getElem hlen)
  rw [h0] at h1
  unfold heardAt at h1
  simp only [List.nil_append, heard, if_true, List.append_nil] at h1
  rw [List.getElem?_take_of_lt (by omega), List.getElem?_map, List.getElem?_range (by omega)] at h1
  norm_num at h1

/-- A constant comes out as it went in: the hypotheses of `C104_partial` are met. -/
example : ∃ r, run Ex.mono (spectralEnv Ex.mono Ex.blind Ex.bare) (create Ex.mono (spectralEnv Ex.mono Ex.blind Ex.bare) (.fin 1) (.fin 1)) [.process (List.replicate 8192 fun _ => 3) true, .retrieve 8192] = some r ∧
    (channelOut r.2 0)[4096]? = some 3 := by
  have hk : KeepsRatio Ex.bare := by intro r x hx; show 3 / 4 * x ≤ x; linarith
  obtain ⟨r, hr, hl⟩ := C104_whole (p := Ex.mono) (by decide) rfl (o := Ex.blind) Ex.bare hk (List.replicate 8192 fun _ => 3) 8192
  refine ⟨r, hr, ?_⟩
  have hlen : 4096 < (channelOut r.2 0).length := by
    have := hl 0 (by decide)
    rw [List.length_take, List.length_replicate] at this
    omega
  have hheard : ∀ j < 8192, heardAt ([] ++ .process (List.replicate 8192 fun _ => 3) true :: [.retrieve 8192]) 0 j = 3 := by
    intro j hj
    unfold heardAt
    simp only [List.nil_append, heard, if_true, List.append_nil]
    rw [List.getElem?_take_of_lt (by omega), List.getElem?_replicate, if_pos hj]
    rfl
  have hw : Ex.mono.windowSourceSize / 2 = 1280 := by decide +kernel
  have hoff : Ex.mono.offset = 0 := by decide +kernel
  have := C104_partial (p := Ex.mono) (by decide) rfl Ex.blind Ex.bare [] [.retrieve 8192] (List.replicate 8192 fun _ => 3) true (by simp)
    (by intro c hc; rw [List.mem_singleton.mp hc]; trivial) (by simp) (Or.inl rfl) (a := (create Ex.mono (spectralEnv Ex.mono Ex.blind Ex.bare) (.fin 1) (.fin 1), [])) rfl hr (Or.inr ⟨rfl, Ex.mono_sizes.2⟩) (c := 0) (i := 4096) (by decide)
    (List.getElem?_eq_getElem hlen) (by rw [Ex.mono_sizes.1]; norm_num) (by
      rw [Ex.mono_sizes.1, hw, hoff]
      intro m m1 m2 k k1 k2
      rw [spectrum_congr (y := fun j => Window.hann 2048 j * 3) (fun j hj => by
        unfold frameOf delayed analysisWindow
        rw [if_pos (show Ex.mono.windowShort = true from rfl), hoff, if_neg (by omega), hheard _ (by omega), Ex.mono_sizes.1])]
      exact top_of_constant (by norm_num) 3 k1 k2)
  rw [List.getElem?_eq_getElem hlen, this, hheard 4096 (by norm_num)]

end Verif.R3
