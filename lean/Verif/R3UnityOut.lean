import Verif.R3UnityLog
import Verif.R3Overlap
import Verif.R3OutStream
/-! # The finer engine at unity: what comes out in all -/
namespace Verif.R3
open Finset (range)

variable {κ τ ρ : Type}

/-! ### The frames put out, one after the other -/

theorem flatten_get {β : Type} {h : Nat} (h0 : 0 < h) : ∀ (ls : List (List β)), (∀ l ∈ ls, l.length = h) → ∀ q, ls.flatten[q]? = (ls[q / h]?).bind fun l => l[q % h]? := by
  intro ls
  induction ls with
  | nil => intro _ q; simp
  | cons l ls ih =>
    intro hl q
    have e := hl l (by simp)
    rw [List.flatten_cons]
    by_cases hq : q < h
    · rw [List.getElem?_append_left (by omega), Nat.div_eq_of_lt hq, Nat.mod_eq_of_lt hq]
      rfl
    · rw [List.getElem?_append_right (by omega), ih (fun l hl' => hl l (by simp [hl'])), e]
      have e1 : q / h = (q - h) / h + 1 := by
        rw [← Nat.add_div_right _ h0]
        congr 1
        omega
      have e2 : q % h = (q - h) % h := by rw [← Nat.mod_eq_sub_mod (by omega)]
      rw [e1, e2]
      rfl

/-- The frame that comes out at `q` is made of what all the frames so far have there. -/
noncomputable def unityOut (p : Params) (x : List ℝ) (q : Nat) : ℝ := ∑ m ∈ range (q / unityHop p + 1), contribution p (unityHop p) (unityFrame p x m) (q - m * unityHop p)

theorem unityOut_eq (p : Params) (x : List ℝ) (q : Nat) :
    gathered p x (q / unityHop p) (q % unityHop p) + contribution p (unityHop p) (unityFrame p x (q / unityHop p)) (q % unityHop p) = unityOut p x q := by
  have hd := Nat.div_add_mod q (unityHop p)
  have hm := Nat.mul_comm (unityHop p) (q / unityHop p)
  unfold unityOut gathered
  rw [Finset.sum_range_succ]
  congr 1
  · refine Finset.sum_congr rfl fun m hmm => ?_
    have hlt := Finset.mem_range.mp hmm
    congr 1
    rw [Nat.sub_mul]
    have : m * unityHop p ≤ q / unityHop p * unityHop p := Nat.mul_le_mul_right _ (by omega)
    omega
  · congr 1
    omega

theorem sum_hops {F : Dbl → Prop} {p : Params} {log : List (Entry ℝ)} (h : ∀ e ∈ log, UnityHop F p e.hop) : (log.map fun e => e.hop.inhop).sum = log.length * unityHop p := by
  induction log with
  | nil => simp
  | cons e log ih =>
    rw [List.map_cons, List.sum_cons, ih fun e he => h e (by simp [he]), (h e (by simp)).inhop, List.length_cons]
    ring

theorem spectral_unresampled {p : Params} (o : Open κ) {base : Env ℝ τ ρ} (h : Unresampled p base) : Unresampled p (spectralEnv p o base) := h

/-- All that is synthesised at unity, offline or with one window. -/
theorem synthesised_unity {p : Params} (hc : 0 < p.channels) (hrt : p.realTime = false ∨ p.windowShort = true) (o : Open κ) (base : Env ℝ τ ρ) (hm : Unresampled p base) {cs : List (Call ℝ)} (hp : ∀ c ∈ cs, c.plain)
    (hfs : ∀ x, .setFormantScale x ∈ cs → o.still x)
    {r : State ℝ (Option (Spectral κ) × List (Entry ℝ)) ρ × List (List (List ℝ))}
    (h : run p (recording (spectralEnv p o base)) (create p (recording (spectralEnv p o base)) (.fin 1) (.fin 1)) cs = some r) {q : Nat} {f : Frame ℝ}
    (hf : (produced r.1.dsp.2)[q]? = some f) {c : Nat} (hcc : c < p.channels) : f c = unityOut p ((given p (fun x => x / 2) cs).map fun g => g c) q := by
  have hu := run_atUnity (spectral_unresampled o hm) cs _ r (create_atUnity (F := o.still) (Or.inr (Or.inl rfl)) p _) hp hfs h
  have hnb : NeverBefore p (recording (spectralEnv p o base)) (create p (recording (spectralEnv p o base)) (.fin 1) (.fin 1)) cs := by
    intro pre post r' hcs hr'
    exact ((run_atUnity (spectral_unresampled o hm) pre _ r' (create_atUnity (F := o.still) (Or.inr (Or.inl rfl)) p _) (fun c hc => hp c (by rw [hcs]; simp [hc])) (fun x hx => hfs x (by rw [hcs]; simp [hx])) hr').still (spectral_unresampled o hm)).1
  obtain ⟨w, _⟩ := C28_stream hc (spectralEnv p o base) (.fin 1) (.fin 1) cs h hnb
  have wins : ∀ (k : Nat) (e : Entry ℝ), r.1.dsp.2[k]? = some e → e.windows = (List.range p.channels).map fun c => padded p.windowSourceSize (((given p (fun x => x / 2) cs).map fun g => g c).drop (k * unityHop p)) := by
    intro k e he
    have hk := (List.getElem?_eq_some_iff.mp he).1
    rw [w k e he, sum_hops (fun e he => hu.log e (List.mem_of_mem_take he)), List.length_take_of_le (by omega)]
    rfl
  have hlen : ∀ e ∈ r.1.dsp.2, e.out.length = unityHop p := by
    intro e he
    obtain ⟨k, hk, rfl⟩ := List.getElem_of_mem he
    rw [hu.replays.outs k _ (List.getElem?_eq_getElem hk), List.length_map, List.length_range]
    exact (hu.log _ he).outhop
  unfold produced at hf
  rw [flatten_get (unityHop_pos p) _ (by
    intro l hl
    obtain ⟨e, he, rfl⟩ := List.mem_map.mp hl
    exact hlen e he)] at hf
  obtain ⟨l, hl, hq⟩ := Option.bind_eq_some_iff.mp hf
  rw [List.getElem?_map, Option.map_eq_some_iff] at hl
  obtain ⟨e, he, rfl⟩ := hl
  have hk := (List.getElem?_eq_some_iff.mp he).1
  rw [hu.replays.outs _ e he, List.getElem?_map, Option.map_eq_some_iff] at hq
  obtain ⟨i, hi, rfl⟩ := hq
  have hi' : i = q % unityHop p := by
    obtain ⟨a, b⟩ := List.getElem?_eq_some_iff.mp hi
    rw [List.getElem_range] at b
    exact b.symm
  show _ = _
  simp only
  rw [hi', ((log_unity hc hrt o base (fun e he => hu.log e he) wins (q / unityHop p) (by omega)).2 e he c hcc _), unityOut_eq]

/-! ### Gain and loss -/

/-- The frame of round `m` at unity, cut from `x`. -/
noncomputable def frameOf (p : Params) (x : Nat → ℝ) (m j : Nat) : ℝ := analysisWindow p p.classificationFftSize j * x (m * unityHop p + p.offset + j)

/-- How far the synthesis window begins after the analysis window. -/
def inset (p : Params) : Nat := (p.classificationFftSize - synthesisSize p p.classificationFftSize) / 2

/-- The product of the windows. -/
noncomputable def windowPair (p : Params) (j : Nat) : ℝ := analysisWindow p p.classificationFftSize (j + inset p) * synthesisWindow p p.classificationFftSize j

/-- The gain at a position: the products of the windows of all the frames there. -/
noncomputable def unityGain (p : Params) (q : Nat) : ℝ :=
  ∑ m ∈ range (q / unityHop p + 1), if m * unityHop p + (p.offset + inset p) ≤ q ∧ q < m * unityHop p + (p.offset + inset p) + synthesisSize p p.classificationFftSize then
    unityHop p / windowScale p p.classificationFftSize * windowPair p (q - (p.offset + inset p) - m * unityHop p) else 0

/-- What is lost at a position: what the top two bins of all the frames there stand for. -/
noncomputable def unityLoss (p : Params) (x : Nat → ℝ) (q : Nat) : ℝ :=
  ∑ m ∈ range (q / unityHop p + 1), if m * unityHop p + (p.offset + inset p) ≤ q ∧ q < m * unityHop p + (p.offset + inset p) + synthesisSize p p.classificationFftSize then
    unityHop p / windowScale p p.classificationFftSize * (top p.classificationFftSize (frameOf p x m) (q - p.offset - m * unityHop p) *
      synthesisWindow p p.classificationFftSize (q - (p.offset + inset p) - m * unityHop p)) else 0

theorem synthesisSize_even (p : Params) : p.longestFftSize % 2 = 0 ∧ p.classificationFftSize % 2 = 0 ∧ synthesisSize p p.classificationFftSize % 2 = 0 := by
  obtain ⟨h1, h2⟩ := classify_facts p
  refine ⟨?_, by omega, ?_⟩
  · cases hw : p.windowShort
    · have := (longest_classify p hw).1; omega
    · obtain ⟨e1, _, _, _, _, e6, _⟩ := sizes_eq p
      rw [hw, if_pos rfl, ← e1] at e6
      omega
  · unfold synthesisSize
    split
    · omega
    · split <;> omega

theorem unityOut_formula (p : Params) (x : List ℝ) (q : Nat) :
    unityOut p x q = unityGain p q * (x[q]?).getD 0 - unityLoss p (fun j => (x[j]?).getD 0) q := by
  obtain ⟨v1, v2, v3⟩ := synthesisSize_even p
  have hle := synthesisSize_le p p.classificationFftSize
  have hL := classify_le_longest p
  have hoff : (p.longestFftSize - synthesisSize p p.classificationFftSize) / 2 = p.offset + inset p := by
    unfold Params.offset inset
    omega
  have hin : inset p + synthesisSize p p.classificationFftSize ≤ p.classificationFftSize := by unfold inset; omega
  unfold unityOut unityGain unityLoss
  rw [Finset.sum_mul, ← Finset.sum_sub_distrib]
  refine Finset.sum_congr rfl fun m hm => ?_
  have hmq : m * unityHop p ≤ q := by
    have h1 := Finset.mem_range.mp hm
    have h2 := Nat.div_add_mod q (unityHop p)
    have h3 : m * unityHop p ≤ q / unityHop p * unityHop p := Nat.mul_le_mul_right _ (by omega)
    have h4 := Nat.mul_comm (unityHop p) (q / unityHop p)
    omega
  unfold contribution
  simp only [hoff]
  rw [show (p.classificationFftSize - synthesisSize p p.classificationFftSize) / 2 = inset p from rfl]
  by_cases hr : m * unityHop p + (p.offset + inset p) ≤ q ∧ q < m * unityHop p + (p.offset + inset p) + synthesisSize p p.classificationFftSize
  · rw [if_pos hr, if_pos hr, if_pos (by omega)]
    have i1 : inset p + (q - m * unityHop p - (p.offset + inset p)) = q - p.offset - m * unityHop p := by omega
    have i2 : q - m * unityHop p - (p.offset + inset p) = q - (p.offset + inset p) - m * unityHop p := by omega
    rw [i1, i2]
    have hj : q - p.offset - m * unityHop p < p.classificationFftSize := by omega
    have ht : top p.classificationFftSize (unityFrame p x m) (q - p.offset - m * unityHop p) = top p.classificationFftSize (frameOf p (fun j => (x[j]?).getD 0) m) (q - p.offset - m * unityHop p) :=
      top_congr (fun j hj => unityFrame_get hj) _
    rw [ht, unityFrame_get hj]
    unfold windowPair
    rw [show m * unityHop p + p.offset + (q - p.offset - m * unityHop p) = q by omega, show q - (p.offset + inset p) - m * unityHop p + inset p = q - p.offset - m * unityHop p by omega]
    ring
  · rw [if_neg hr, if_neg hr, if_neg (by omega)]
    simp

/-! ### The loss is linear -/

theorem spectrum_linear {n : Nat} (a b : ℝ) (x y : Nat → ℝ) (k : Nat) : FFT.spectrum n (fun j => a * x j + b * y j) k = a * FFT.spectrum n x k + b * FFT.spectrum n y k := by
  unfold FFT.spectrum
  rw [Finset.mul_sum, Finset.mul_sum, ← Finset.sum_add_distrib]
  refine Finset.sum_congr rfl fun j _ => ?_
  push_cast
  ring

theorem top_linear {n : Nat} (a b : ℝ) (x y : Nat → ℝ) (j : Nat) : top n (fun j => a * x j + b * y j) j = a * top n x j + b * top n y j := by
  unfold top
  have e : (fun k => if k + 1 < n / 2 then 0 else FFT.spectrum n (fun j => a * x j + b * y j) k) =
      fun k => (a : ℂ) * (if k + 1 < n / 2 then 0 else FFT.spectrum n x k) + (b : ℂ) * (if k + 1 < n / 2 then 0 else FFT.spectrum n y k) := by
    funext k
    split
    · ring
    · exact spectrum_linear a b x y k
  rw [e, resum_add, resum_smul, resum_smul]
  ring

theorem unityLoss_linear (p : Params) (a b : ℝ) (x y : Nat → ℝ) (q : Nat) : unityLoss p (fun j => a * x j + b * y j) q = a * unityLoss p x q + b * unityLoss p y q := by
  unfold unityLoss
  rw [Finset.mul_sum, Finset.mul_sum, ← Finset.sum_add_distrib]
  refine Finset.sum_congr rfl fun m _ => ?_
  split
  · have e : frameOf p (fun j => a * x j + b * y j) m = fun j => a * frameOf p x m j + b * frameOf p y m j := by
      funext j
      unfold frameOf
      ring
    rw [e, top_linear]
    ring
  · ring

/-! ### What is heard -/

/-- What the calls give to the engine: the blocks up to the final one, each taken to the greatest size allowed. -/
def heard : List (Call ℝ) → List (Frame ℝ)
  | [] => []
  | .process x final :: cs => x.take 524288 ++ if final then [] else heard cs
  | _ :: cs => heard cs

/-- Calls that neither process nor reset. -/
def Call.quiet : Call ℝ → Prop
  | .process _ _ => False
  | c => c.plain

theorem Call.quiet.plain {c : Call ℝ} (h : c.quiet) : c.plain := by
  cases c <;> first | exact h | exact h.elim

theorem quiet_phase {rt : Bool} : ∀ (cs : List (Call ℝ)), (∀ c ∈ cs, c.quiet) → ∀ ph, (ph = .fresh ∨ ph = .studied) → (cs.foldl (phaseAfter rt) ph = .fresh ∨ cs.foldl (phaseAfter rt) ph = .studied) := by
  intro cs
  induction cs with
  | nil => intro _ ph h; exact h
  | cons c cs ih =>
    intro hq ph hph
    refine ih (fun c hc => hq c (by simp [hc])) _ ?_
    have := hq c (by simp)
    cases c <;> first | exact hph | exact this.elim | skip
    show (if rt = false ∧ ph = .fresh then Phase.studied else ph) = .fresh ∨ (if rt = false ∧ ph = .fresh then Phase.studied else ph) = .studied
    split
    · exact Or.inr rfl
    · exact hph

theorem quiet_heard : ∀ (cs rest : List (Call ℝ)), (∀ c ∈ cs, c.quiet) → heard (cs ++ rest) = heard rest := by
  intro cs
  induction cs with
  | nil => intro rest _; rfl
  | cons c cs ih =>
    intro rest hq
    have := hq c (by simp)
    rw [← ih rest fun c hc => hq c (by simp [hc])]
    cases c <;> first | rfl | exact this.elim

theorem quiet_given {p : Params} {halve : ℝ → ℝ} : ∀ (cs : List (Call ℝ)), (∀ c ∈ cs, c.quiet) → ∀ ph, (ph = .fresh ∨ ph = .studied) → ∃ ph', (ph' = .fresh ∨ ph' = .studied) ∧ cs.foldl (feedStep p halve) (ph, []) = (ph', []) := by
  intro cs
  induction cs with
  | nil => intro _ ph h; exact ⟨ph, h, rfl⟩
  | cons c cs ih =>
    intro hq ph hph
    have hc := hq c (by simp)
    have : ∃ ph', (ph' = .fresh ∨ ph' = .studied) ∧ feedStep p halve (ph, []) c = (ph', []) := by
      cases c <;> first | exact ⟨ph, hph, rfl⟩ | exact hc.elim | skip
      refine ⟨if p.realTime = false ∧ ph = .fresh then Phase.studied else ph, ?_, rfl⟩
      split
      · exact Or.inr rfl
      · exact hph
    obtain ⟨ph', h1, h2⟩ := this
    rw [List.foldl_cons, h2]
    exact ih (fun c hc => hq c (by simp [hc])) ph' h1

theorem ended_given {p : Params} {halve : ℝ → ℝ} : ∀ (cs : List (Call ℝ)), (∀ c ∈ cs, c.plain) → ∀ fed, cs.foldl (feedStep p halve) (.ended, fed) = (.ended, fed) := by
  intro cs
  induction cs with
  | nil => intro _ fed; rfl
  | cons c cs ih =>
    intro hq fed
    have hc := hq c (by simp)
    rw [List.foldl_cons]
    rw [show feedStep p halve (.ended, fed) c = (.ended, fed) by
      cases c <;> first | rfl | exact hc.elim | skip
      simp [feedStep, phaseAfter, feedFor]]
    exact ih (fun c hc => hq c (by simp [hc])) fed

theorem running_given {p : Params} {halve : ℝ → ℝ} : ∀ (cs : List (Call ℝ)), (∀ c ∈ cs, c.plain) → ∀ fed, (cs.foldl (feedStep p halve) (.running, fed)).2 = fed ++ (heard cs).map (coded p halve) := by
  intro cs
  induction cs with
  | nil => intro _ fed; simp [heard]
  | cons c cs ih =>
    intro hq fed
    have hc := hq c (by simp)
    have ih' := ih fun c hc => hq c (by simp [hc])
    rw [List.foldl_cons]
    cases c with
    | process x f =>
      have e : feedStep p halve (.running, fed) (.process x f) = (if f then .ended else .running, fed ++ (x.take 524288).map (coded p halve)) := by
        simp [feedStep, phaseAfter, feedFor]
      rw [e]
      cases f
      · simp only [Bool.false_eq_true, if_false, heard]
        rw [ih']
        simp
      · simp only [if_true, heard]
        rw [ended_given cs (fun c hc => hq c (by simp [hc]))]
        simp
    | study n =>
      rw [show feedStep p halve (.running, fed) (.study n) = (.running, fed) by simp [feedStep, phaseAfter, feedFor]]
      exact ih' fed
    | setTimeRatio _ => exact hc.elim
    | setPitchScale _ => exact hc.elim
    | setKeyFrameMap _ => exact hc.elim
    | reset => exact hc.elim
    | setFormantScale _ => exact ih' fed
    | setExpectedInputDuration _ => exact ih' fed
    | setMaxProcessSize _ => exact ih' fed
    | retrieve _ => exact ih' fed

/-- What the engine has been given, offline: half a window of silence and what is heard. -/
theorem given_heard {p : Params} (hrt : p.realTime = false) {halve : ℝ → ℝ} {pre post : List (Call ℝ)} {x : List (Frame ℝ)} {f : Bool} (h1 : ∀ c ∈ pre, c.quiet) (h2 : ∀ c ∈ post, c.plain) :
    given p halve (pre ++ .process x f :: post) = List.replicate (p.windowSourceSize / 2) (fun _ => 0) ++ (heard (pre ++ .process x f :: post)).map (coded p halve) := by
  obtain ⟨ph, e1, e2⟩ := quiet_given (p := p) (halve := halve) pre h1 .fresh (Or.inl rfl)
  rw [quiet_heard _ _ h1]
  unfold given
  rw [List.foldl_append, e2, List.foldl_cons]
  have e : feedStep p halve (ph, []) (.process x f) = (if f then .ended else .running, List.replicate (p.windowSourceSize / 2) (fun _ => 0) ++ (x.take 524288).map (coded p halve)) := by
    rcases e1 with rfl | rfl <;> simp [feedStep, phaseAfter, feedFor, hrt]
  rw [e]
  cases f
  · simp only [Bool.false_eq_true, if_false, heard]
    rw [running_given post h2]
    simp
  · simp only [if_true, heard]
    rw [ended_given post h2]
    simp

/-- A sample of what is heard; silence after the end. -/
noncomputable def heardAt (cs : List (Call ℝ)) (c i : Nat) : ℝ := (((heard cs)[i]?).map fun g => g c).getD 0

/-- The same with silence before it. -/
noncomputable def delayed (n : Nat) (x : Nat → ℝ) (j : Nat) : ℝ := if j < n then 0 else x (j - n)

theorem fed_get {p : Params} (n : Nat) (l : List (Frame ℝ)) (c j : Nat) :
    ((((List.replicate n (fun _ => 0 : Frame ℝ) ++ l.map (coded p fun x => x / 2)).map fun g => g c)[j]?).getD 0) =
      delayed n (fun i => ((l[i]?).map fun g => coded p (fun x => x / 2) g c).getD 0) j := by
  unfold delayed
  rw [List.getElem?_map]
  by_cases hj : j < n
  · rw [List.getElem?_append_left (by simpa using hj), if_pos hj, List.getElem?_replicate, if_pos hj]
    rfl
  · rw [List.getElem?_append_right (by simpa using hj), if_neg hj, List.length_replicate, List.getElem?_map]
    simp only
    cases l[j - n]? <;> rfl

theorem delayed_linear (n : Nat) (a b : ℝ) (x y : Nat → ℝ) : delayed n (fun i => a * x i + b * y i) = fun j => a * delayed n x j + b * delayed n y j := by
  funext j
  unfold delayed
  split
  · ring
  · rfl

/-- A sample as it is coded. -/
theorem coded_heard (p : Params) (cs : List (Call ℝ)) (c i : Nat) : (((heard cs)[i]?).map fun g => coded p (fun x => x / 2) g c).getD 0 =
    if p.useMidSide then (if c = 0 then 1 / 2 * heardAt cs 0 i + 1 / 2 * heardAt cs 1 i else if c = 1 then 1 / 2 * heardAt cs 0 i + (-(1 / 2)) * heardAt cs 1 i else heardAt cs c i) else heardAt cs c i := by
  unfold heardAt coded encode
  cases p.useMidSide
  · simp
  · cases (heard cs)[i]?
    · simp
    · simp only [if_true, Option.map_some, Option.getD_some]
      split
      · ring
      · split
        · ring
        · rfl

/-- Of what goes in, gain and loss at a position. -/
noncomputable def unityOf (p : Params) (x : Nat → ℝ) (i : Nat) : ℝ :=
  unityGain p (p.windowSourceSize / 2 + i) * x i - unityLoss p (delayed (p.windowSourceSize / 2) x) (p.windowSourceSize / 2 + i)

theorem unityOf_linear (p : Params) (a b : ℝ) (x y : Nat → ℝ) (i : Nat) : unityOf p (fun j => a * x j + b * y j) i = a * unityOf p x i + b * unityOf p y i := by
  unfold unityOf
  rw [delayed_linear, unityLoss_linear]
  ring

theorem delivered_linear (p : Params) (cs : List (Call ℝ)) {F : (Nat → ℝ) → ℝ} (hF : ∀ a b x y, F (fun j => a * x j + b * y j) = a * F x + b * F y) {g : Frame ℝ} {c : Nat} (hc : c < p.channels)
    (hg : ∀ c < p.channels, g c = F (fun i => (((heard cs)[i]?).map fun g => coded p (fun x => x / 2) g c).getD 0)) : delivered p g c = F (heardAt cs c) := by
  unfold delivered
  cases hm : p.useMidSide
  · rw [if_neg (by simp), hg c hc]
    simp only [coded_heard, hm, Bool.false_eq_true, if_false]
  · have h2 : p.channels = 2 := by
      unfold Params.useMidSide at hm
      rw [Bool.and_eq_true] at hm
      exact eq_of_beq hm.1
    have h0 := hg 0 (by omega)
    have h1 := hg 1 (by omega)
    simp only [coded_heard, hm, if_true, one_ne_zero, if_false] at h0 h1
    rw [hF] at h0 h1
    rw [if_pos rfl]
    rcases (by omega : c = 0 ∨ c = 1) with rfl | rfl
    · simp only [if_true]
      rw [h0, h1]
      ring
    · simp only [one_ne_zero, if_false, if_true]
      rw [h0, h1]
      ring

/-- **C104**, for all that comes out: what goes in with a gain that depends on the position alone, less what the top two bins stand for. -/
theorem C104_formula {p : Params} (hc : 0 < p.channels) (hrt : p.realTime = false) (o : Open κ) (base : Env ℝ τ ρ) (pre post : List (Call ℝ)) (x : List (Frame ℝ)) (f : Bool)
    (hpre : ∀ c ∈ pre, c.quiet) (hpost : ∀ c ∈ post, c.plain) (hfs : ∀ x, .setFormantScale x ∈ pre ++ post → o.preserved = false ∨ x = .fin 0 ∨ x = .fin 1)
    (hlong : knownDuration false pre = 0 ∨ p.longestFftSize ≤ knownDuration false pre)
    {a r : State ℝ (Option (Spectral κ)) ρ × List (List (List ℝ))} (h1 : run p (spectralEnv p o base) (create p (spectralEnv p o base) (.fin 1) (.fin 1)) pre = some a)
    (h2 : run p (spectralEnv p o base) a.1 (.process x f :: post) = some r)
    {c i : Nat} (hcc : c < p.channels) {y : ℝ} (hy : (channelOut r.2 c)[i]? = some y) :
    y = unityGain p (p.windowSourceSize / 2 + i) * heardAt (pre ++ .process x f :: post) c i -
      unityLoss p (delayed (p.windowSourceSize / 2) (heardAt (pre ++ .process x f :: post) c)) (p.windowSourceSize / 2 + i) := by
  have hplain : ∀ c ∈ pre ++ .process x f :: post, c.plain := by
    intro c hc
    rcases List.mem_append.mp hc with hc | hc
    · exact (hpre c hc).plain
    · rcases List.mem_cons.mp hc with rfl | hc
      · trivial
      · exact hpost c hc
  have hstill : ∀ x', .setFormantScale x' ∈ pre ++ .process x f :: post → o.still x' := by
    intro x' hx
    refine hfs x' ?_
    simpa using hx
  obtain ⟨a', r', g1, g2, e1, e2, e3, e4⟩ := observed_from h1 h2
  have hm : Unresampled p base := Or.inl hrt
  have ua := run_atUnity (spectral_unresampled o hm) pre _ a' (create_atUnity (F := o.still) (Or.inr (Or.inl rfl)) p _) (fun c hc => (hpre c hc).plain) (fun x hx => hstill x (by simp [hx])) g1
  have ht : a.1.timeRatio = 1 := by rw [← e1]; exact ua.ratio
  have hT : (Round.roundAway (knownDuration p.realTime pre * a.1.timeRatio)).toNat = knownDuration false pre := by
    rw [hrt, ht, mul_one, show ((knownDuration false pre : Nat) : Rat) = (((knownDuration false pre : Nat) : Int) : Rat) by push_cast; rfl, Round.roundAway_int, Int.toNat_natCast]
  have hna : NeverAfter p (spectralEnv p o base) a.1 (.process x f :: post) := by
    intro l l' s hl hs
    obtain ⟨a2, s', k1, k2, k3, k4, _⟩ := observed_from h1 hs
    rw [← k4]
    rw [g1] at k1
    cases k1
    exact ((run_atUnity (spectral_unresampled o hm) l _ s' ua (fun c hc => hplain c (by rw [hl]; simp [hc])) (fun x hx => hstill x (by rw [hl]; simp [hx])) k2).still (spectral_unresampled o hm)).2
  have hnr : noReset post := by
    intro c hc
    have := hpost c hc
    cases c <;> trivial
  obtain ⟨n, hout, _⟩ := C56_partial hc hrt (spectralEnv p o base) (.fin 1) (.fin 1) pre post x f h1 (quiet_phase pre hpre .fresh (Or.inl rfl)) h2 hnr hna (by rw [hT]; exact hlong)
  rw [hout c hcc, List.getElem?_map, Option.map_eq_some_iff] at hy
  obtain ⟨g, hg, rfl⟩ := hy
  have hg' : (produced r'.1.dsp.2)[p.windowSourceSize / 2 + i]? = some g := by
    rw [e4] at hg
    have hd : ((produced r'.1.dsp.2).drop (p.windowSourceSize / 2))[i]? = some g := by
      have hi := (List.getElem?_eq_some_iff.mp hg).1
      rw [List.length_take] at hi
      rw [List.getElem?_take_of_lt (by omega)] at hg
      unfold cut at hg hi
      split at hg
      · exact hg
      · rename_i hne
        rw [if_neg hne, List.length_take] at hi
        rwa [List.getElem?_take_of_lt (by omega)] at hg
    rwa [List.getElem?_drop] at hd
  have hrun : run p (recording (spectralEnv p o base)) (create p (recording (spectralEnv p o base)) (.fin 1) (.fin 1)) (pre ++ .process x f :: post) = some (r'.1, a'.2 ++ r'.2) :=
    (run_append _ _ _ _).mpr ⟨a', r', g1, g2, rfl⟩
  refine delivered_linear p _ (F := fun x => unityOf p x i) (fun a b x y => unityOf_linear p a b x y i) hcc fun c hcc => ?_
  rw [synthesised_unity hc (Or.inl hrt) o base hm hplain hstill hrun hg' hcc, unityOut_formula, given_heard hrt hpre hpost, fed_get]
  unfold unityOf
  congr 1
  · congr 1
    unfold delayed
    rw [if_neg (by omega), Nat.add_sub_cancel_left]
  · congr 1
    funext j
    exact fed_get _ _ _ _

end Verif.R3
