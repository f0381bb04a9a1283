import Verif.PluginPorts
import Mathlib.Tactic.IntervalCases
import Mathlib.Tactic.Linarith
import Mathlib.Tactic.NormNum
/-!
# The plugins: they are what they announce (C156)
-/
namespace Verif.PluginPorts

/-- What a host makes of the name of a LADSPA port. -/
def ladspaName : String → Option Field
  | "latency" => some .latency
  | "Cents" => some .cents
  | "Semitones" => some .semitones
  | "Octaves" => some .octaves
  | "Crispness" => some .crispness
  | "Formant Preserving" => some .formant
  | "Wet-Dry Mix" => some .wetDry
  | "Input" => some (.input 0)
  | "Input L" => some (.input 0)
  | "Input R" => some (.input 1)
  | "Output" => some (.output 0)
  | "Output L" => some (.output 0)
  | "Output R" => some (.output 1)
  | _ => none

/-- What a host makes of the symbol of an LV2 port. -/
def lv2Symbol : String → Option Field
  | "latency" => some .latency
  | "cents" => some .cents
  | "semitones" => some .semitones
  | "octaves" => some .octaves
  | "crispness" => some .crispness
  | "formant" => some .formant
  | "wetdry" => some .wetDry
  | "input" => some (.input 0)
  | "input_l" => some (.input 0)
  | "input_r" => some (.input 1)
  | "output" => some (.output 0)
  | "output_l" => some (.output 0)
  | "output_r" => some (.output 1)
  | _ => none

/-- The port with this index, of this plugin, as announced: by the descriptor, or in the file under the URI. -/
def announced (k : Kind) (stereo : Bool) : Format → Nat → Option Port
  | .ladspa, i => (ladspaDescriptor k stereo).port i
  | .lv2, i => (ttl.find? fun d => d.uri == uri k stereo).bind fun d => d.port i

/-- What it is for. -/
def meant (k : Kind) (stereo : Bool) (f : Format) (i : Nat) : Option Field :=
  (announced k stereo f i).bind fun x => match f with
    | .ladspa => ladspaName x.name
    | .lv2 => lv2Symbol x.name

/-- An instance of a plugin. -/
def fresh (k : Kind) (stereo : Bool) (f : Format) (rate : Int) : Instance := make k f rate (if stereo then 2 else 1)

theorem count_le (k : Kind) (stereo : Bool) : portCount k stereo ≤ 11 := by cases k <;> cases stereo <;> decide

theorem announced_none (k : Kind) (stereo : Bool) (f : Format) {i : Nat} (h : 11 ≤ i) : announced k stereo f i = none := by
  have hc : ¬ i < portCount k stereo := by have := count_le k stereo; omega
  cases f with
  | ladspa =>
    unfold announced LadspaDescriptor.port
    exact if_neg hc
  | lv2 =>
    have all : ∀ d ∈ ttl, (d.ports.all fun x => decide (x.1 < 11)) = true := by decide
    unfold announced
    cases hd : ttl.find? fun d => d.uri == uri k stereo with
    | none => simp only [Option.bind_none]
    | some d =>
      simp only [Option.bind_some, Lv2Description.port, Option.map_eq_none_iff, List.find?_eq_none]
      intro x hx hxi
      have := List.all_eq_true.mp (all d (List.mem_of_find?_eq_some hd)) x hx
      simp only [decide_eq_true_eq, beq_iff_eq] at this hxi
      omega

theorem meant_eq (k : Kind) (stereo : Bool) (f : Format) (i : Nat) : meant k stereo f i = if i < portCount k stereo then (table k)[i]? else none := by
  rcases Nat.lt_or_ge i 11 with h | h
  · interval_cases i <;> cases k <;> cases stereo <;> cases f <;> decide
  · have hc : ¬ i < portCount k stereo := by have := count_le k stereo; omega
    rw [if_neg hc, meant, announced_none k stereo f h, Option.bind_none]

theorem has_of_table (k : Kind) (stereo : Bool) {i : Nat} (hi : i < portCount k stereo) : ∃ f, (table k)[i]? = some f ∧ ∀ s : Instance, s.channels = (if stereo then 2 else 1) → s.has f = true := by
  have h : i < 11 := by cases k <;> cases stereo <;> simp only [portCount] at hi <;> omega
  cases k <;> cases stereo <;> simp only [portCount] at hi <;> interval_cases i <;> refine ⟨_, rfl, fun s hs => ?_⟩ <;> simp [Instance.has, hs]

/-- The last of the calls that are for this. -/
def latest (k : Kind) (stereo : Bool) (fmt : Format) (f : Field) (calls : List Connection) : Option Connection := (calls.filter fun c => meant k stereo fmt c.port = some f).getLast?

theorem connect_one {k : Kind} {stereo : Bool} {fmt : Format} {s : Instance} (hk : s.kind = k) (hc : s.channels = if stereo then 2 else 1) (c : Connection) (mem : Place → ℝ) :
    ∃ s' mem', connectPort c.latency c.port c.location s mem = some (s', mem') ∧ s'.kind = k ∧ s'.format = s.format ∧ s'.rate = s.rate ∧ s'.channels = s.channels ∧
      (∀ f, s'.pointer f = if meant k stereo fmt c.port = some f then c.location else s.pointer f) ∧
      mem' = if (meant k stereo fmt c.port).isSome then (match s'.pointer .latency with | some p => store mem p c.latency | none => mem) else mem := by
  have hcount : (if s.channels = 1 then portCount s.kind false else portCount s.kind true) = portCount k stereo := by
    rw [hc, hk]; cases stereo <;> rfl
  rw [meant_eq]
  unfold connectPort
  rw [hcount]
  by_cases hp : c.port < portCount k stereo
  · obtain ⟨f, h1, h2⟩ := has_of_table k stereo hp
    rw [if_neg (by omega), show (table s.kind)[c.port]? = some f by rw [hk]; exact h1, if_pos hp, h1]
    simp only [Option.bind_some, h2 s hc, if_true]
    refine ⟨_, _, rfl, hk, rfl, rfl, rfl, ?_, rfl⟩
    intro g
    by_cases e : g = f
    · subst e; simp
    · simp only [if_neg e, if_neg (show ¬ some f = some g from fun e' => e (Option.some.inj e').symm)]
  · rw [if_pos (by omega), if_neg hp]
    exact ⟨s, mem, rfl, hk, rfl, rfl, rfl, fun f => by simp, by simp⟩

/-- **C156** (1).  Ports: whatever the host connects, in whatever order and however often, also ports that do not exist, nothing is written beyond the arrays; each of the pointers is to the place that was last given for a port
announced for it (null before); the place for the latency has the latency of the last call that was for any port; and no other place of the host is written to. -/
theorem C156_ports (k : Kind) (stereo : Bool) (fmt : Format) (rate : Int) (calls : List Connection) (mem : Place → ℝ) :
    ∃ s mem', connects calls (fresh k stereo fmt rate) mem = some (s, mem') ∧ s.kind = k ∧ s.format = fmt ∧ s.rate = rate ∧ s.channels = (if stereo then 2 else 1) ∧
      (∀ f, s.pointer f = (latest k stereo fmt f calls).bind Connection.location) ∧
      (∀ p, s.pointer .latency = some p → ∃ c, (calls.filter fun c => (announced k stereo fmt c.port).isSome).getLast? = some c ∧ mem' p = c.latency) ∧
      ∀ q, (∀ c ∈ calls, meant k stereo fmt c.port = some .latency → c.location ≠ some q) → mem' q = mem q := by
  have hann : ∀ i, (announced k stereo fmt i).isSome = (meant k stereo fmt i).isSome := by
    intro i
    rcases Nat.lt_or_ge i 11 with h | h
    · interval_cases i <;> cases k <;> cases stereo <;> cases fmt <;> decide
    · rw [announced_none k stereo fmt h, meant, announced_none k stereo fmt h]
      rfl
  have key : ∀ (calls : List Connection) (s : Instance) (mem : Place → ℝ), s.kind = k → s.format = fmt → s.rate = rate → s.channels = (if stereo then 2 else 1) →
      ∃ s' mem', connects calls s mem = some (s', mem') ∧ s'.kind = k ∧ s'.format = fmt ∧ s'.rate = rate ∧ s'.channels = (if stereo then 2 else 1) ∧
        (∀ f, s'.pointer f = match latest k stereo fmt f calls with | some c => c.location | none => s.pointer f) ∧
        (∀ p, s'.pointer .latency = some p → match (calls.filter fun c => (meant k stereo fmt c.port).isSome).getLast? with | some c => mem' p = c.latency | none => mem' = mem) ∧
        ∀ q, s.pointer .latency ≠ some q → (∀ c ∈ calls, meant k stereo fmt c.port = some .latency → c.location ≠ some q) → mem' q = mem q := by
    intro calls
    induction calls with
    | nil => intro s mem h1 h2 h3 h4; exact ⟨s, mem, rfl, h1, h2, h3, h4, fun f => rfl, fun p _ => rfl, fun q _ _ => rfl⟩
    | cons c cs ih =>
      intro s mem h1 h2 h3 h4
      obtain ⟨t, m1, e1, e2, e3, e4, e5, e6, e7⟩ := connect_one (fmt := fmt) h1 h4 c mem
      obtain ⟨s', m2, f1, f2, f3, f4, f5, f6, f7, f8⟩ := ih t m1 e2 (e3.trans h2) (e4.trans h3) (e5.trans h4)
      refine ⟨s', m2, by unfold connects; rw [e1]; exact f1, f2, f3, f4, f5, ?_, ?_, ?_⟩
      · intro f
        rw [f6 f]
        have : latest k stereo fmt f (c :: cs) = match latest k stereo fmt f cs with | some d => some d | none => if meant k stereo fmt c.port = some f then some c else none := by
          unfold latest
          by_cases hm : meant k stereo fmt c.port = some f
          · rw [List.filter_cons_of_pos (by simpa using hm), List.getLast?_cons, if_pos hm]
            cases (cs.filter fun c => meant k stereo fmt c.port = some f).getLast? <;> rfl
          · rw [List.filter_cons_of_neg (by simpa using hm), if_neg hm]
            cases (cs.filter fun c => meant k stereo fmt c.port = some f).getLast? <;> rfl
        rw [this]
        cases latest k stereo fmt f cs with
        | some d => rfl
        | none =>
          simp only
          rw [e6 f]
          by_cases hm : meant k stereo fmt c.port = some f
          · rw [if_pos hm, if_pos hm]
          · rw [if_neg hm, if_neg hm]
      · intro p hp
        have h7 := f7 p hp
        by_cases hm : (meant k stereo fmt c.port).isSome = true
        · rw [List.filter_cons_of_pos (p := fun c : Connection => (meant k stereo fmt c.port).isSome) hm, List.getLast?_cons]
          cases hl : (cs.filter fun c => (meant k stereo fmt c.port).isSome).getLast? with
          | some d => rw [hl] at h7; exact h7
          | none =>
            rw [hl] at h7
            simp only at h7
            simp only [Option.getD_none]
            have hnone : latest k stereo fmt .latency cs = none := by
              unfold latest
              rw [List.getLast?_eq_none_iff] at hl ⊢
              rw [List.filter_eq_nil_iff] at hl ⊢
              intro d hd hd'
              simp only [decide_eq_true_eq] at hd'
              exact hl d hd (by rw [hd']; rfl)
            have hpt : s'.pointer .latency = t.pointer .latency := by rw [f6, hnone]
            rw [h7, e7, if_pos hm, ← hpt, hp]
            simp [store]
        · rw [List.filter_cons_of_neg (p := fun c : Connection => (meant k stereo fmt c.port).isSome) hm]
          have hm1 : m1 = mem := by rw [e7, if_neg hm]
          rw [← hm1]
          exact h7
      · intro q hq hall
        have ht : t.pointer .latency ≠ some q := by
          rw [e6]
          split
          · rename_i hm; exact hall c List.mem_cons_self hm
          · exact hq
        rw [f8 q ht fun d hd => hall d (List.mem_cons_of_mem _ hd), e7]
        split
        · split
          · rename_i p hp
            have hne : q ≠ p := fun e => ht (by rw [e]; exact hp)
            simp only [store, if_neg hne]
          · rfl
        · rfl
  obtain ⟨s', m2, f1, f2, f3, f4, f5, f6, f7, f8⟩ := key calls (fresh k stereo fmt rate) mem rfl rfl rfl rfl
  have hpt : ∀ f, s'.pointer f = (latest k stereo fmt f calls).bind Connection.location := by
    intro f
    rw [f6]
    cases latest k stereo fmt f calls <;> rfl
  refine ⟨s', m2, f1, f2, f3, f4, f5, hpt, ?_, fun q hq => f8 q (by simp [fresh, make]) hq⟩
  intro p hp
  have h7 := f7 p hp
  simp only [hann]
  cases hl : (calls.filter fun c => (meant k stereo fmt c.port).isSome).getLast? with
  | some c => rw [hl] at h7; exact ⟨c, rfl, h7⟩
  | none =>
    exfalso
    rw [hpt] at hp
    obtain ⟨c, hc, _⟩ := Option.bind_eq_some_iff.mp hp
    unfold latest at hc
    have hc' := List.mem_of_getLast? hc
    rw [List.mem_filter] at hc'
    rw [List.getLast?_eq_none_iff, List.filter_eq_nil_iff] at hl
    have := hc'.2
    simp only [decide_eq_true_eq] at this
    exact hl c hc'.1 (by rw [this]; rfl)

/-- **C156** (2).  What is announced: every port up to the number of ports is announced with a name or symbol that says what it is for, and no others; the same port for the same thing in both formats; each thing once; with the direction
and sort that it has (audio goes in and out, the latency is told, and the controls are read), and the same ranges. -/
theorem C156_announced (k : Kind) (stereo : Bool) (fmt : Format) (i : Nat) :
    ((announced k stereo fmt i).isSome = true ↔ i < portCount k stereo) ∧ (meant k stereo fmt i).isSome = (announced k stereo fmt i).isSome ∧ meant k stereo .lv2 i = meant k stereo .ladspa i ∧
    (∀ j f, meant k stereo fmt i = some f → meant k stereo fmt j = some f → i = j) ∧
    (∀ x f, announced k stereo fmt i = some x → meant k stereo fmt i = some f →
      (x.audio = true ↔ ∃ c, f = .input c ∨ f = .output c) ∧ (x.input = false ↔ f = .latency ∨ ∃ c, f = .output c) ∧
      (f = .cents → x.range = some (-100, 100)) ∧ (f = .semitones → x.range = some (-12, 12)) ∧ (f = .octaves → x.range = some (-2, 2))) ∧
    (∀ c, (∃ j, meant k stereo fmt j = some (.input c)) ↔ c < if stereo then 2 else 1) ∧ ∀ c, (∃ j, meant k stereo fmt j = some (.output c)) ↔ c < if stereo then 2 else 1 := by
  have bound : ∀ j f, meant k stereo fmt j = some f → j < 11 := by
    intro j f h
    rw [meant_eq] at h
    split at h
    · rename_i hj
      have : portCount k stereo ≤ 11 := by cases k <;> cases stereo <;> decide
      omega
    · cases h
  have inputs : ∀ c, (∃ j, meant k stereo fmt j = some (.input c)) ↔ c < if stereo then 2 else 1 := by
    intro c
    constructor
    · rintro ⟨j, hj⟩
      have hj' := bound j _ hj
      rw [meant_eq] at hj
      interval_cases j <;> cases k <;> cases stereo <;> simp [portCount, table] at hj <;> subst hj <;> decide
    · intro hc
      simp only [meant_eq]
      have : c < 2 := by split at hc <;> omega
      interval_cases c <;> cases stereo <;> cases k <;> first
        | (exfalso; revert hc; decide)
        | exact ⟨7, rfl⟩ | exact ⟨6, rfl⟩ | exact ⟨8, rfl⟩ | exact ⟨9, rfl⟩
  have outputs : ∀ c, (∃ j, meant k stereo fmt j = some (.output c)) ↔ c < if stereo then 2 else 1 := by
    intro c
    constructor
    · rintro ⟨j, hj⟩
      have hj' := bound j _ hj
      rw [meant_eq] at hj
      interval_cases j <;> cases k <;> cases stereo <;> simp [portCount, table] at hj <;> subst hj <;> decide
    · intro hc
      simp only [meant_eq]
      have : c < 2 := by split at hc <;> omega
      interval_cases c <;> cases stereo <;> cases k <;> first
        | (exfalso; revert hc; decide)
        | exact ⟨7, rfl⟩ | exact ⟨8, rfl⟩ | exact ⟨9, rfl⟩ | exact ⟨10, rfl⟩
  have same : meant k stereo .lv2 i = meant k stereo .ladspa i := by rw [meant_eq, meant_eq]
  have once : ∀ j f, meant k stereo fmt i = some f → meant k stereo fmt j = some f → i = j := by
    intro j f h1 h2
    have b1 := bound i f h1
    have b2 := bound j f h2
    have hall : ∀ k stereo, ∀ a < 11, ∀ b < 11, (if a < portCount k stereo then (table k)[a]? else none) = (if b < portCount k stereo then (table k)[b]? else none) →
        (if a < portCount k stereo then (table k)[a]? else none).isSome = true → a = b := by
      intro k stereo
      cases k <;> cases stereo <;> decide
    rw [meant_eq] at h1 h2
    exact hall k stereo i b1 j b2 (h1.trans h2.symm) (by rw [h1]; rfl)
  by_cases hi : i < 11
  · refine ⟨?_, ?_, same, once, ?_, inputs, outputs⟩
    · interval_cases i <;> cases k <;> cases stereo <;> cases fmt <;> decide
    · interval_cases i <;> cases k <;> cases stereo <;> cases fmt <;> decide
    · intro x f hx hf
      rw [meant_eq] at hf
      interval_cases i <;> cases k <;> cases stereo <;> cases fmt <;> first | (cases hf; done) | (cases hf; cases hx; simp [latencyPort, centsPort, semitonesPort, octavesPort, crispnessPort, formantPort, formantPortR3, wetDryPort, wetDryPortR3])
  · have hc : ¬ i < portCount k stereo := by
      have : portCount k stereo ≤ 11 := by cases k <;> cases stereo <;> decide
      omega
    have hm : meant k stereo fmt i = none := by rw [meant_eq, if_neg hc]
    have ha : announced k stereo fmt i = none := announced_none k stereo fmt (by omega)
    refine ⟨by rw [ha]; simp [hc], by rw [ha, hm]; rfl, same, once, fun x f hx => (by rw [ha] at hx; cases hx), inputs, outputs⟩

/-! ## The pitch -/

theorem roundC_near (x : ℝ) : |x - roundC x| ≤ 1 / 2 := by
  unfold roundC
  rw [abs_le]
  split
  · have h1 := Int.floor_le (x + 1 / 2)
    have h2 := Int.lt_floor_add_one (x + 1 / 2)
    constructor <;> linarith
  · have h1 := Int.le_ceil (x - 1 / 2)
    have h2 := Int.ceil_lt_add_one (x - 1 / 2)
    constructor <;> linarith

theorem roundC_int (n : Int) : roundC (n : ℝ) = n := by
  have h := roundC_near (n : ℝ)
  have h2 : |((n - roundC (n : ℝ) : Int) : ℝ)| < 1 := by push_cast; linarith
  rw [← Int.cast_abs] at h2
  have h3 : |n - roundC (n : ℝ)| < 1 := by exact_mod_cast h2
  rw [Int.abs_lt_one_iff] at h3
  omega

/-- A whole number in the range, and none in it is nearer. -/
def Nearest (b : Int) (x : ℝ) (n : Int) : Prop := -b ≤ n ∧ n ≤ b ∧ ∀ m : Int, -b ≤ m → m ≤ b → |x - n| ≤ |x - m|

theorem limited_near {b : Int} (hb : 0 ≤ b) (x : ℝ) : ∃ n : Int, limited b x = n ∧ Nearest b x n := by
  have h := roundC_near x
  rw [abs_le] at h
  unfold limited
  simp only
  by_cases h1 : (roundC x : ℝ) < -b
  · rw [if_pos h1]
    have hb' : (0 : ℝ) ≤ b := by exact_mod_cast hb
    rw [if_neg (by linarith)]
    refine ⟨-b, by push_cast; rfl, le_refl _, by omega, fun m hm _ => ?_⟩
    have h1' : roundC x ≤ -b - 1 := by
      have : roundC x < -b := by exact_mod_cast h1
      omega
    have h1'' : (roundC x : ℝ) ≤ -b - 1 := by exact_mod_cast h1'
    have hm' : (-b : ℝ) ≤ m := by exact_mod_cast hm
    rw [abs_of_nonpos (by push_cast; linarith), abs_of_nonpos (by linarith)]
    push_cast
    linarith
  · rw [if_neg h1]
    by_cases h2 : (roundC x : ℝ) > b
    · rw [if_pos h2]
      refine ⟨b, rfl, by omega, le_refl _, fun m _ hm => ?_⟩
      have h1' : b + 1 ≤ roundC x := by
        have : b < roundC x := by exact_mod_cast h2
        omega
      have h1'' : (b + 1 : ℝ) ≤ roundC x := by exact_mod_cast h1'
      have hm' : (m : ℝ) ≤ b := by exact_mod_cast hm
      rw [abs_of_nonneg (by linarith), abs_of_nonneg (by linarith)]
      linarith
    · rw [if_neg h2]
      refine ⟨roundC x, rfl, by rw [not_lt] at h1; exact_mod_cast h1, by rw [gt_iff_lt, not_lt] at h2; exact_mod_cast h2, fun m _ _ => ?_⟩
      by_cases hm : m = roundC x
      · rw [hm]
      · refine le_trans (roundC_near x) ?_
        have h3 : (1 : ℝ) ≤ |((m - roundC x : Int) : ℝ)| := by
          rw [← Int.cast_abs]
          exact_mod_cast Int.one_le_abs (by omega)
        push_cast at h3
        have h4 : |(m : ℝ) - roundC x| ≤ |x - roundC x| + |x - m| := by
          have := abs_sub_abs_le_abs_sub ((m : ℝ) - roundC x) (x - roundC x)
          have e : (m : ℝ) - roundC x - (x - roundC x) = -(x - m) := by ring
          rw [e, abs_neg] at this
          linarith
        have := roundC_near x
        linarith

theorem limited_int {b n : Int} (h1 : -b ≤ n) (h2 : n ≤ b) : limited b (n : ℝ) = n := by
  unfold limited
  simp only [roundC_int]
  have h1' : (-b : ℝ) ≤ n := by exact_mod_cast h1
  have h2' : (n : ℝ) ≤ b := by exact_mod_cast h2
  rw [if_neg (show ¬ (n : ℝ) < -b by linarith), if_neg (by linarith)]

/-- **C156** (3).  The pitch: 2 to the sum of octaves, twelfths and twelve-hundredths, as they are at the places connected to the ports of these names (0 if there is none): of the numbers as they are in the LADSPA plugins of the two
stretchers, of the nearest whole numbers in the announced ranges otherwise.  So all plugins in both formats agree about whole numbers in range, and the pitch scale is between 2^(-37/12) and 2^(37/12), in the first two if the host
keeps to the ranges and in the others always. -/
theorem C156_pitch (k : Kind) (stereo : Bool) (fmt : Format) (rate : Int) (calls : List Connection) (mem now : Place → ℝ) {s : Instance} {mem' : Place → ℝ} (h : connects calls (fresh k stereo fmt rate) mem = some (s, mem'))
    {o t c : ℝ} (ho : o = (((latest k stereo fmt .octaves calls).bind Connection.location).map now).getD 0) (ht : t = (((latest k stereo fmt .semitones calls).bind Connection.location).map now).getD 0)
    (hc : c = (((latest k stereo fmt .cents calls).bind Connection.location).map now).getD 0) :
    (fmt = .ladspa → k ≠ .live → ratio s now = 2 ^ (o + t / 12 + c / 1200)) ∧
    ((fmt = .lv2 ∨ k = .live) → ∃ a b d : Int, Nearest 2 o a ∧ Nearest 12 t b ∧ Nearest 100 c d ∧ ratio s now = 2 ^ ((a : ℝ) + b / 12 + d / 1200)) ∧
    (∀ a b d : Int, o = a → t = b → c = d → |a| ≤ 2 → |b| ≤ 12 → |d| ≤ 100 → ratio s now = 2 ^ ((a : ℝ) + b / 12 + d / 1200)) ∧
    ((fmt = .lv2 ∨ k = .live ∨ (|o| ≤ 2 ∧ |t| ≤ 12 ∧ |c| ≤ 100)) → (2 : ℝ) ^ (-(37 / 12) : ℝ) ≤ ratio s now ∧ ratio s now ≤ (2 : ℝ) ^ (37 / 12 : ℝ)) := by
  obtain ⟨s', m', e1, e2, e3, e4, e5, e6, -, -⟩ := C156_ports k stereo fmt rate calls mem
  rw [h] at e1
  cases e1
  have val : ∀ f, s.value now f = (((latest k stereo fmt f calls).bind Connection.location).map now).getD 0 := by
    intro f
    unfold Instance.value
    rw [e6 f]
    cases (latest k stereo fmt f calls).bind Connection.location <;> rfl
  have hr : ratio s now = if fmt = .ladspa ∧ k ≠ .live then (2 : ℝ) ^ (o + t / 12 + c / 1200) else (2 : ℝ) ^ (limited 2 o + limited 12 t / 12 + limited 100 c / 1200) := by
    unfold ratio
    rw [e2, e3, val, val, val, ← ho, ← ht, ← hc]
  have within : ∀ a b d : ℝ, |a| ≤ 2 → |b| ≤ 12 → |d| ≤ 100 → (2 : ℝ) ^ (-(37 / 12) : ℝ) ≤ (2 : ℝ) ^ (a + b / 12 + d / 1200) ∧ (2 : ℝ) ^ (a + b / 12 + d / 1200) ≤ (2 : ℝ) ^ (37 / 12 : ℝ) := by
    intro a b d h1 h2 h3
    rw [abs_le] at h1 h2 h3
    constructor
    · exact Real.rpow_le_rpow_of_exponent_le (by norm_num) (by linarith)
    · exact Real.rpow_le_rpow_of_exponent_le (by norm_num) (by linarith)
  have near : (fmt = .lv2 ∨ k = .live) → ∃ a b d : Int, Nearest 2 o a ∧ Nearest 12 t b ∧ Nearest 100 c d ∧ ratio s now = 2 ^ ((a : ℝ) + b / 12 + d / 1200) := by
    intro hf
    obtain ⟨a, a1, a2⟩ := limited_near (b := 2) (by omega) o
    obtain ⟨b, b1, b2⟩ := limited_near (b := 12) (by omega) t
    obtain ⟨d, d1, d2⟩ := limited_near (b := 100) (by omega) c
    refine ⟨a, b, d, a2, b2, d2, ?_⟩
    rw [hr, if_neg, a1, b1, d1]
    rintro ⟨x, y⟩
    rcases hf with hf | hf
    · rw [hf] at x; cases x
    · exact y hf
  have small : ∀ (n : Int) (m : Int), -m ≤ n → n ≤ m → |(n : ℝ)| ≤ m := by
    intro n m h1 h2
    rw [abs_le]
    exact ⟨by exact_mod_cast h1, by exact_mod_cast h2⟩
  refine ⟨fun h1 h2 => by rw [hr, if_pos ⟨h1, h2⟩], near, ?_, ?_⟩
  · intro a b d ha hb hd h1 h2 h3
    rw [abs_le] at h1 h2 h3
    rw [hr]
    split
    · rw [ha, hb, hd]
    · rw [ha, hb, hd, limited_int h1.1 h1.2, limited_int h2.1 h2.2, limited_int h3.1 h3.2]
  · intro hf
    by_cases hn : fmt = .lv2 ∨ k = .live
    · obtain ⟨a, b, d, a1, b1, d1, e⟩ := near hn
      rw [e]
      exact within a b d (by exact_mod_cast small a 2 a1.1 a1.2.1) (by exact_mod_cast small b 12 b1.1 b1.2.1) (by exact_mod_cast small d 100 d1.1 d1.2.1)
    · have hf' : |o| ≤ 2 ∧ |t| ≤ 12 ∧ |c| ≤ 100 := by tauto
      have hl : fmt = .ladspa ∧ k ≠ .live := by cases fmt <;> simp_all
      rw [hr, if_pos hl]
      exact within o t c hf'.1 hf'.2.1 hf'.2.2

/-- For instance, a host that connects the semitones of the R3 plugin twice, the octaves, the latency, and a port that does not exist; then it sets an octave and 4 tenths of a semitone. -/
example : ∃ (s : Instance) (mem : Place → ℝ), connects [⟨2, some 10, 7⟩, ⟨3, some 11, 7⟩, ⟨0, some 12, 7⟩, ⟨2, some 13, 8⟩, ⟨10, some 14, 9⟩] (fresh .finer true .lv2 48000) (fun _ => 0) = some (s, mem) ∧
    s.pointer .semitones = some 13 ∧ s.pointer .octaves = some 11 ∧ s.pointer .cents = none ∧ mem 12 = 8 ∧ ratio s (fun p => if p = 11 then 1 else if p = 13 then 2 / 5 else 50) = 2 := by
  refine ⟨_, _, rfl, rfl, rfl, rfl, ?_, ?_⟩
  · show store (store (fun _ => 0) 12 7) 12 8 12 = 8
    simp [store]
  · have h0 : roundC 0 = 0 := by exact_mod_cast roundC_int 0
    have h1 : roundC 1 = 1 := by exact_mod_cast roundC_int 1
    have h2 : roundC (2 / 5) = 0 := by
      unfold roundC
      rw [if_pos (by norm_num), Int.floor_eq_iff]
      norm_num
    have l0 : limited 100 0 = 0 := by unfold limited; rw [h0]; norm_num
    have l1 : limited 2 1 = 1 := by unfold limited; rw [h1]; norm_num
    have l2 : limited 12 (2 / 5) = 0 := by unfold limited; rw [h2]; norm_num
    show (2 : ℝ) ^ (limited 2 (if (11 : Nat) = 11 then 1 else if (11 : Nat) = 13 then 2 / 5 else 50) + limited 12 (if (13 : Nat) = 11 then 1 else if (13 : Nat) = 13 then 2 / 5 else 50) / 12 + limited 100 0 / 1200) = 2
    norm_num [l0, l1, l2]

/-! ## Descriptors and instances -/

/-- **C156** (4).  The plugins: there are six of them in each format, found one after another; each can be instantiated with its own descriptor (in LV2 at any rate from 1 on) and is then the plugin that was asked for, with as many channels
as it has audio inputs announced; no two have the same identification, label or URI; each is described in the file, as standing for the LADSPA plugin that is the same. -/
theorem C156_plugins :
    (∀ index, (descriptor index).isSome = true ↔ index < 6) ∧ (∀ k stereo, ∃ index, descriptor index = some (k, stereo)) ∧
    (∀ k stereo rate, instantiateLadspa k (ladspaDescriptor k stereo) rate = some (fresh k stereo .ladspa rate)) ∧
    (∀ k stereo (rate : ℝ), 1 ≤ rate → instantiateLv2 k (uri k stereo) rate = some (fresh k stereo .lv2 (roundC rate)) ∧ |rate - roundC rate| ≤ 1 / 2) ∧
    (∀ k stereo k' stereo', (ladspaDescriptor k stereo).id = (ladspaDescriptor k' stereo').id ∨ (ladspaDescriptor k stereo).label = (ladspaDescriptor k' stereo').label ∨ uri k stereo = uri k' stereo' → k = k' ∧ stereo = stereo') ∧
    ∀ k stereo, ∃ d ∈ ttl, d.uri = uri k stereo ∧ d.replaces = (ladspaDescriptor k stereo).id ∧ ∀ d' ∈ ttl, d'.uri = d.uri → d'.ports = d.ports := by
  refine ⟨?_, ?_, ?_, ?_, ?_, ?_⟩
  · intro index
    rcases Nat.lt_or_ge index 6 with h | h
    · interval_cases index <;> decide
    · have : descriptor index = none := by
        unfold descriptor getDescriptor
        rw [if_neg (by omega), if_neg (by omega), if_neg (by omega), if_neg (by omega)]
      rw [this]
      simp
      omega
  · intro k stereo
    cases k <;> cases stereo
    exacts [⟨0, rfl⟩, ⟨1, rfl⟩, ⟨2, rfl⟩, ⟨3, rfl⟩, ⟨4, rfl⟩, ⟨5, rfl⟩]
  · intro k stereo rate
    cases k <;> cases stereo <;> rfl
  · intro k stereo rate hr
    refine ⟨?_, roundC_near rate⟩
    unfold instantiateLv2
    rw [if_neg (by linarith)]
    cases stereo with
    | false => rw [if_pos rfl]; rfl
    | true =>
      rw [if_neg (by cases k <;> decide), if_pos rfl]
      rfl
  · intro k stereo k' stereo'
    cases k <;> cases stereo <;> cases k' <;> cases stereo' <;> decide
  · intro k stereo
    cases k <;> cases stereo
    · exact ⟨_, List.mem_of_getElem? (i := 0) rfl, rfl, rfl, by decide⟩
    · exact ⟨_, List.mem_of_getElem? (i := 3) rfl, rfl, rfl, by decide⟩
    · exact ⟨_, List.mem_of_getElem? (i := 1) rfl, rfl, rfl, by decide⟩
    · exact ⟨_, List.mem_of_getElem? (i := 4) rfl, rfl, rfl, by decide⟩
    · exact ⟨_, List.mem_of_getElem? (i := 2) rfl, rfl, rfl, by decide⟩
    · exact ⟨_, List.mem_of_getElem? (i := 5) rfl, rfl, rfl, by decide⟩

end Verif.PluginPorts
