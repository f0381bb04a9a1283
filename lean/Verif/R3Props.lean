import Verif.R3Inv
/-!
# Properties of the R3 engine: C26, C27, C30 to C33

`none` in a history stands for an access out of range; C28 (`R3Stream.lean`) says when there is none.
-/
namespace Verif.R3
open Verif.Round Verif.StretchCalc

variable {α σ ρ : Type}

/-! ## An environment for examples -/

namespace Ex
/-- Spectral processing that does nothing: silence comes out. -/
def env : Env Rat Unit Unit where
  dspInit := ()
  dspReset := id
  dsp := fun s _ _ => (s, fun _ _ => 0)
  rsInit := ()
  rsReset := id
  resample := fun r space block _ _ => (r, block.take space)
  effective := fun _ x => x
  curve := fun _ => 256
  halve := fun x => x / 2

/-- The smallest windows there are. -/
def small (rt : Bool) : Params := { sampleRate := 8000, channels := 2, realTime := rt, windowShort := true }

/-- A block of frames. -/
def block (n : Nat) : List (Frame Rat) := (List.range n).map fun i c => (i : Rat) + c
end Ex

/-! ## C30 -/

/-- **C30.**  Whatever has been called, with whatever arguments (negative, zero, infinite and NaN ratios included): the
ratios are positive, the input hop is between 1 and its maximum, and readahead is used only for hops it has room for. -/
theorem C30_hops [Zero α] [Add α] [Sub α] {p : Params} (hc : 0 < p.channels) (env : Env α σ ρ) (t ps : Dbl) (cs : List (Call α))
    {r : State α σ ρ × List (List (List α))} (h : run p env (create p env t ps) cs = some r) :
    0 < r.1.timeRatio ∧ 0 < r.1.pitchScale ∧ 1 ≤ r.1.inhop ∧ r.1.inhop ≤ p.maxInhop ∧
      (r.1.useReadahead = true ↔ r.1.inhop < p.maxInhopWithReadahead) := by
  have hi := (run_inv hc cs _ _ (create_inv p env t ps) h).hops
  refine ⟨hi.tpos, hi.pspos, hi.inhop_pos, ?_, ?_⟩
  · rw [hi.inhop]; exact (inhopFor_bounds p _ _).2
  · rw [hi.readahead]; simp

/-- **C30**, the size of the output hop: if the product of the ratios is neither above the least preferred output hop nor so
small that the greatest input hop does not do, the output hop is on average in the preferred range, but for the rounding of
the input hop to a whole number. -/
theorem C30_preferred [Zero α] [Add α] [Sub α] {p : Params} (hc : 0 < p.channels) (env : Env α σ ρ) (t ps : Dbl) (cs : List (Call α))
    {r : State α σ ρ × List (List (List α))} (h : run p env (create p env t ps) cs = some r)
    (h1 : r.1.timeRatio * r.1.pitchScale ≤ p.minPreferredOuthop)
    (h2 : (p.maxPreferredOuthop : Rat) ≤ r.1.timeRatio * r.1.pitchScale * p.maxInhop) :
    p.minPreferredOuthop - r.1.timeRatio * r.1.pitchScale < r.1.inhop * (r.1.timeRatio * r.1.pitchScale) ∧
      r.1.inhop * (r.1.timeRatio * r.1.pitchScale) ≤ p.maxPreferredOuthop := by
  have hi := (run_inv hc cs _ _ (create_inv p env t ps) h).hops
  rw [hi.inhop]
  exact inhopFor_preferred p _ (mul_pos hi.tpos hi.pspos) h1 h2

/-- A valid ratio pair is left as it is. -/
theorem C30_valid (p : Params) (env : Env α σ ρ) {t ps : Rat} (ht : 0 < t) (hps : 0 < ps) :
    (create p env (.fin t) (.fin ps)).timeRatio = t ∧ (create p env (.fin t) (.fin ps)).pitchScale = ps := by
  unfold create calculateHop
  rw [fixRatios_fin ht hps]
  exact ⟨rfl, rfl⟩

/-- NaN, an infinity, a negative and a tiny ratio. -/
example : let s := create (Ex.small true) Ex.env .nan (.fin 2)
    s.timeRatio = 1 ∧ s.pitchScale = 1 ∧ s.inhop = 80 := by decide +kernel

example : let s := setTimeRatio (Ex.small true) Ex.env (create (Ex.small true) Ex.env (.fin 2) (.fin 3)) (.inf true)
    s.timeRatio = 1 ∧ s.pitchScale = 3 ∧ s.inhop = 26 := by decide +kernel

example : let s := setTimeRatio (Ex.small true) Ex.env (create (Ex.small true) Ex.env (.fin 2) (.fin 3)) (.fin (1 / 10 ^ 9))
    s.inhop = 192 ∧ s.useReadahead = false := by decide +kernel

/-! ## C33 -/

/-- **C33**, as claimed. -/
def C33_statement : Prop := ∀ (p : Params) (ps : Rat), 0 < ps →
  ¬ ((areWeResampling p true ps).1 = true ∧ (areWeResampling p true ps).2 = true) ∧
    (ps ≠ 1 → (areWeResampling p true ps).1 = true ∨ (areWeResampling p true ps).2 = true)

/-- **C33.**  With a resampler, never both before and after; and one of them whenever the pitch scale is not 1. -/
theorem C33_once : C33_statement := by
  intro p ps _
  unfold areWeResampling
  rcases p.realTime with _ | _ <;> rcases p.highConsistency with _ | _ <;> rcases p.highQuality with _ | _ <;>
    simp only [Bool.not_true, Bool.false_eq_true, Bool.not_false, if_false, if_true] <;>
    (by_cases h1 : ps = 1
     · subst h1; simp
     · rcases lt_or_gt_of_ne h1 with h | h
       · simp [h1, h, not_lt.mpr h.le]
       · simp [h1, h])

/-- The resampler runs before stretching only in real time, and there in the cheap direction of each quality: when shifting up
with high speed, when shifting down with high quality; and it never changes sides with high consistency. -/
theorem C33_side (p : Params) (b : Bool) (ps : Rat) :
    ((areWeResampling p b ps).1 = true ↔ b = true ∧ p.realTime = true ∧ p.highConsistency = false ∧ (1 < ps ∧ p.highQuality = false ∨ ps < 1 ∧ p.highQuality = true)) ∧
      (p.realTime = true → p.highConsistency = true → areWeResampling p b ps = (false, b)) := by
  unfold areWeResampling
  constructor
  · rcases b with _ | _ <;> rcases p.realTime with _ | _ <;> rcases p.highConsistency with _ | _ <;> rcases p.highQuality with _ | _ <;>
      simp only [Bool.not_true, Bool.false_eq_true, Bool.not_false, if_false, if_true] <;>
      (by_cases h1 : ps = 1
       · subst h1; simp
       · rcases lt_or_gt_of_ne h1 with h | h
         · simp [h1, h, not_lt.mpr h.le]
         · simp [h1, h, not_lt.mpr h.le])
  · intro h1 h2
    rw [h1, h2]
    cases b <;> simp

/-- There is a resampler whenever one is needed: always in real time, and offline from the first block if the pitch scale is
not 1. -/
def NeedsMet (p : Params) (s : State α σ ρ) : Prop :=
  (p.realTime = true → s.resampler.isSome = true) ∧
    (p.realTime = false → s.mode = .processing → s.pitchScale ≠ 1 → s.resampler.isSome = true)

theorem fixRatios_pitch (t : Dbl) {ps : Rat} (hps : 0 < ps) : (fixRatios t (.fin ps)).2 = ps ∨ (fixRatios t (.fin ps)).2 = 1 := by
  unfold fixRatios
  simp only
  have e : (Dbl.fin ps).nonPos = false := by simp [Dbl.nonPos, hps]
  rw [e]
  simp only [Bool.false_eq_true, if_false]
  generalize (if t.nonPos = true then Dbl.fin 1 else t) = u
  split
  · right; rfl
  · left; rfl

theorem updateRatioFromMap_pitch (p : Params) (env : Env α σ ρ) {s : State α σ ρ} (h : 0 < s.pitchScale) :
    (updateRatioFromMap p env s).pitchScale = s.pitchScale ∨ (updateRatioFromMap p env s).pitchScale = 1 := by
  unfold updateRatioFromMap
  split
  · left; rfl
  · split
    · exact fixRatios_pitch _ h
    · split
      · left; rfl
      · split
        · exact fixRatios_pitch _ h
        · left; rfl

theorem ensureInbuf_kept (s : State α σ ρ) (n : Nat) : Kept s (ensureInbuf s n) := by
  unfold ensureInbuf
  split
  · exact Kept.refl s
  · exact ⟨rfl, rfl, rfl, rfl, rfl, rfl, rfl, rfl, rfl, rfl, rfl, rfl⟩

theorem ensureOutbuf_kept (s : State α σ ρ) (n : Nat) : Kept s (ensureOutbuf s n) := by
  unfold ensureOutbuf
  split
  · exact Kept.refl s
  · exact ⟨rfl, rfl, rfl, rfl, rfl, rfl, rfl, rfl, rfl, rfl, rfl, rfl⟩

section Needs
variable [Zero α] [Add α] [Sub α]

theorem process_needs {p : Params} (hc : 0 < p.channels) {env : Env α σ ρ} {s s' : State α σ ρ} {input : List (Frame α)} {final : Bool}
    (hi : Inv p env s) (hn : NeedsMet p s) (h : process p env s input final = some s') : NeedsMet p s' := by
  unfold process at h
  split at h
  · cases h; exact hn
  · rename_i hm
    obtain ⟨ic, oc, n, m, hb, h1, h2, h3⟩ := hi.bufs
    obtain ⟨q1, ⟨ic', n', q2, q3⟩, _⟩ := prologue_facts hc hi.hops hb h1 (fun hm => (h2 hm).1)
    rw [Option.map_eq_some_iff] at h
    obtain ⟨t, ht, rfl⟩ := h
    obtain ⟨k, _⟩ := processInput_bufs hc ht q2 q3
    constructor
    · intro hr
      have : prologue p env s = s := by unfold prologue; rw [if_pos hr]
      rw [this] at k
      exact k.haveResampler.trans (hn.1 hr)
    · intro hr _ hps
      have hps' : (prologue p env s).pitchScale ≠ 1 := by rw [← k.pitchScale]; exact hps
      show t.resampler.isSome = true
      rw [k.haveResampler]
      clear k ht q1 q2 q3
      unfold prologue at hps' ⊢
      rw [hr] at hps' ⊢
      simp only [Bool.false_eq_true, if_false] at hps' ⊢
      obtain ⟨_, _, _, _, u5, _, _, _, _, u10, _⟩ := updateRatioFromMap_facts p env (s := { s with totalTargetDuration := targetFor s }) (hi.hops.congr rfl rfl rfl rfl)
      have up := updateRatioFromMap_pitch p env (s := { s with totalTargetDuration := targetFor s }) hi.hops.pspos
      generalize updateRatioFromMap p env { s with totalTargetDuration := targetFor s } = u at *
      unfold padStart at hps' ⊢
      split
      · rename_i hmode
        rw [if_pos hmode] at hps'
        simp only at hps' ⊢
        have ke := ensureInbuf_kept { u with resampler := if u.pitchScale ≠ 1 ∧ u.resampler.isNone then some env.rsInit else u.resampler } (p.windowSourceSize / 2)
        rw [ke.haveResampler]
        rw [ke.pitchScale] at hps'
        simp only at hps' ⊢
        split
        · rfl
        · rename_i hx
          cases hu : u.resampler with
          | some _ => rfl
          | none => exact absurd ⟨hps', by rw [hu]; rfl⟩ hx
      · rename_i hmode
        rw [if_neg hmode] at hps'
        have hmp : s.mode = .processing := by
          rw [u5] at hmode
          simp only at hmode
          rcases hmm : s.mode <;> simp_all
        rw [u10]
        apply hn.2 hr hmp
        rcases up with e | e
        · rw [← show s.pitchScale = ({ s with totalTargetDuration := targetFor s } : State α σ ρ).pitchScale from rfl] at e
          rw [← e]; exact hps'
        · exact absurd e hps'

theorem call_needs {p : Params} (hc : 0 < p.channels) {env : Env α σ ρ} {s : State α σ ρ} (hi : Inv p env s) (hn : NeedsMet p s) {c : Call α}
    {r : State α σ ρ × List (List α)} (h : call p env s c = some r) : NeedsMet p r.1 := by
  have keep : ∀ s' : State α σ ρ, s'.resampler.isSome = s.resampler.isSome → (p.realTime = false → s'.mode = .processing → s'.pitchScale = s.pitchScale ∧ s.mode = .processing) →
      NeedsMet p s' := by
    intro s' e1 e2
    refine ⟨fun hr => e1.trans (hn.1 hr), fun hr hm hps => ?_⟩
    obtain ⟨a, b⟩ := e2 hr hm
    rw [e1]
    exact hn.2 hr b (by rw [← a]; exact hps)
  cases c with
  | setTimeRatio x =>
    cases h
    unfold setTimeRatio
    split
    · exact hn
    · rename_i hl
      split
      · exact hn
      · refine keep _ rfl ?_
        intro hr hm
        have hm' : s.mode = .processing := hm
        exact absurd (by unfold locked; rw [hr, hm']; rfl) hl
  | setPitchScale x =>
    cases h
    unfold setPitchScale
    split
    · exact hn
    · rename_i hl
      split
      · exact hn
      · refine keep _ rfl ?_
        intro hr hm
        have hm' : s.mode = .processing := hm
        exact absurd (by unfold locked; rw [hr, hm']; rfl) hl
  | setFormantScale x =>
    cases h
    unfold setFormantScale
    split
    · exact hn
    · exact keep _ rfl fun _ hm => ⟨rfl, hm⟩
  | setKeyFrameMap x =>
    cases h
    unfold setKeyFrameMap
    split
    · exact hn
    · split
      · exact hn
      · exact keep _ rfl fun _ hm => ⟨rfl, hm⟩
  | setExpectedInputDuration x => cases h; exact keep _ rfl fun _ hm => ⟨rfl, hm⟩
  | setMaxProcessSize x =>
    cases h
    unfold setMaxProcessSize
    simp only
    have k := (ensureInbuf_kept s ((if x > overallMaxProcessSize then overallMaxProcessSize else x) * 2)).trans
      (ensureOutbuf_kept _ ((if x > overallMaxProcessSize then overallMaxProcessSize else x) * 8))
    exact keep _ k.haveResampler fun _ hm => ⟨k.pitchScale, by rw [← k.mode]; exact hm⟩
  | study x =>
    cases h
    unfold study
    split
    · exact hn
    · split
      · exact hn
      · exact keep _ rfl fun _ hm => by cases hm
  | process x f =>
    unfold call at h
    rw [Option.map_eq_some_iff] at h
    obtain ⟨t, ht, rfl⟩ := h
    exact process_needs hc hi hn ht
  | retrieve k => cases h; exact keep _ rfl fun _ hm => ⟨rfl, hm⟩
  | reset =>
    cases h
    refine keep _ (by show (Option.map env.rsReset s.resampler).isSome = _; simp) fun _ hm => by cases hm

/-- **C33**, in use: after any history there is a resampler if one is needed, so that while processing (or at any time in real time)
the engine resamples on exactly one side whenever the pitch scale is not 1. -/
theorem C33_needs {p : Params} (hc : 0 < p.channels) (env : Env α σ ρ) (t ps : Dbl) (cs : List (Call α))
    {r : State α σ ρ × List (List (List α))} (h : run p env (create p env t ps) cs = some r)
    (hm : p.realTime = true ∨ r.1.mode = .processing) (hps : r.1.pitchScale ≠ 1) :
    resamplingBefore p r.1 = !resamplingAfter p r.1 := by
  have main : ∀ (cs : List (Call α)) (s : State α σ ρ) (r : State α σ ρ × List (List (List α))), Inv p env s → NeedsMet p s → run p env s cs = some r →
      NeedsMet p r.1 := by
    intro cs
    induction cs with
    | nil => intro s r _ hn h; cases h; exact hn
    | cons c cs ih =>
      intro s r hi hn h
      obtain ⟨a, b, ha, hb, rfl⟩ := run_cons h
      exact ih a.1 b (call_inv hc hi ha) (call_needs hc hi hn ha) hb
  have h0 : NeedsMet p (create p env t ps) := by
    constructor
    · intro hr
      show (if p.realTime then some env.rsInit else none : Option ρ).isSome = true
      rw [hr]; rfl
    · intro _ hm; cases hm
  have hn := main cs _ r (create_inv p env t ps) h0 h
  have hpos := (run_inv hc cs _ _ (create_inv p env t ps) h).hops.pspos
  have hs : r.1.resampler.isSome = true := by
    cases hrt : p.realTime
    · rcases hm with hm | hm
      · rw [hrt] at hm; cases hm
      · exact hn.2 hrt hm hps
    · exact hn.1 hrt
  unfold resamplingBefore resamplingAfter
  rw [hs]
  obtain ⟨c1, c2⟩ := C33_once p r.1.pitchScale hpos
  have := c2 hps
  generalize (areWeResampling p true r.1.pitchScale).1 = a at *
  generalize (areWeResampling p true r.1.pitchScale).2 = b at *
  cases a <;> cases b <;> simp_all

end Needs

example : areWeResampling { sampleRate := 44100, channels := 1, realTime := true } true (3 / 2) = (true, false) ∧
    areWeResampling { sampleRate := 44100, channels := 1, realTime := true } true (2 / 3) = (false, true) ∧
    areWeResampling { sampleRate := 44100, channels := 1 } true (2 / 3) = (false, true) := by decide +kernel

/-! ## C32 -/

/-- **C32.**  Mid and side, as made by `process` from two channels of rational samples and decoded by `retrieve`, are the
two channels again, whatever their lengths; and only the first two channels are affected. -/
theorem C32_transparent (block : List (Frame Rat)) (got : Nat) (hg : block.length ≤ got) (more : List (List Rat)) :
    decode got (((block.map (encode fun x => x / 2)).map fun f => f 0) :: ((block.map (encode fun x => x / 2)).map fun f => f 1) :: more) =
      (block.map fun f => f 0) :: (block.map fun f => f 1) :: more := by
  unfold decode
  simp only [List.map_map]
  have e1 : ∀ l : List (Frame Rat), List.zipWith (· + ·) (l.map ((fun f => f 0) ∘ encode fun x => x / 2)) (l.map ((fun f => f 1) ∘ encode fun x => x / 2)) =
      l.map fun f => f 0 := by
    intro l
    induction l with
    | nil => rfl
    | cons f l ih =>
      simp only [List.map_cons, List.zipWith_cons_cons, ih]
      congr 1
      simp only [Function.comp, encode]
      simp
      ring
  have e2 : ∀ l : List (Frame Rat), List.zipWith (· - ·) (l.map ((fun f => f 0) ∘ encode fun x => x / 2)) (l.map ((fun f => f 1) ∘ encode fun x => x / 2)) =
      l.map fun f => f 1 := by
    intro l
    induction l with
    | nil => rfl
    | cons f l ih =>
      simp only [List.map_cons, List.zipWith_cons_cons, ih]
      congr 1
      simp only [Function.comp, encode]
      simp
      ring
  rw [List.take_of_length_le (by simpa using hg), List.take_of_length_le (by simpa using hg), List.drop_eq_nil_of_le (by simpa using hg),
    List.drop_eq_nil_of_le (by simpa using hg), e1, e2, List.append_nil, List.append_nil]

/-- Mid/side coding is for two channels kept together only; otherwise input and output are as they are. -/
theorem C32_others [Zero α] [Add α] [Sub α] {p : Params} (h : ¬ (p.channels = 2 ∧ p.channelsTogether = true)) (env : Env α σ ρ) (s : State α σ ρ)
    (block : List (Frame α)) (n : Nat) :
    prepareInput p env s block = some block ∧ (retrieve p s n).2.1 = (readChannels s.outbuf n).2.1 := by
  have hm : p.useMidSide = false := by
    unfold Params.useMidSide
    cases hct : p.channelsTogether
    · simp
    · simp only [Bool.and_true, beq_eq_false_iff_ne]
      intro hc
      exact h ⟨hc, hct⟩
  unfold prepareInput retrieve
  rw [hm]
  exact ⟨rfl, rfl⟩

/-- Frames 3, 5 and 7, -1. -/
example : decode 2 [[4, 3], [-1, 4]] = [[3, 7], [5, -1]] ∧
    (([fun c => if c = 0 then 3 else 5, fun c => if c = 0 then 7 else -1] : List (Frame Rat)).map (encode fun x => x / 2)).map (fun f => (f 0, f 1)) =
      [(4, -1), (3, 4)] := by decide +kernel

/-! ## C27 -/

section C27
variable [Zero α] [Add α] [Sub α]

omit [Zero α] in
theorem decode_length {got : Nat} {l : List (List α)} {k : Nat} (h : ∀ x ∈ l, x.length = k) (hk : k ≤ got) : ∀ x ∈ decode got l, x.length = k := by
  unfold decode
  split
  · rename_i m s rest
    have hm := h m (by simp)
    have hs := h s (by simp)
    intro x hx
    simp only [List.mem_cons] at hx
    rcases hx with rfl | rfl | hx
    · simp only [List.length_append, List.length_zipWith, List.length_take, List.length_drop]
      omega
    · simp only [List.length_append, List.length_zipWith, List.length_take, List.length_drop]
      omega
    · exact h x (by simp [hx])
  · exact h

omit [Zero α] in
theorem decode_outer_length (got : Nat) (l : List (List α)) : (decode got l).length = l.length := by
  unfold decode
  split <;> rfl

omit [Zero α] in
/-- Decoding in two parts. -/
theorem decode_append {a b : Nat} {x y : List (List α)} (hx : ∀ l ∈ x, l.length = a) (hy : ∀ l ∈ y, l.length = b) (hlen : x.length = y.length) :
    List.zipWith (· ++ ·) (decode a x) (decode b y) = decode (a + b) (List.zipWith (· ++ ·) x y) := by
  match x, y, hlen with
  | [], [], _ => rfl
  | [m], [n], _ => rfl
  | m :: s :: rest, m' :: s' :: rest', _ =>
    have h1 := hx m (by simp)
    have h2 := hx s (by simp)
    have h3 := hy m' (by simp)
    have h4 := hy s' (by simp)
    simp only [decode, List.zipWith_cons_cons]
    have e : ∀ (f : α → α → α), (List.zipWith f (m.take a) (s.take a) ++ m.drop a) ++ (List.zipWith f (m'.take b) (s'.take b) ++ m'.drop b) =
        List.zipWith f ((m ++ m').take (a + b)) ((s ++ s').take (a + b)) ++ (m ++ m').drop (a + b) := by
      intro f
      rw [List.take_of_length_le (l := m) (by omega), List.take_of_length_le (l := s) (by omega), List.take_of_length_le (l := m') (by omega),
        List.take_of_length_le (l := s') (by omega), List.take_of_length_le (l := m ++ m') (by simp; omega),
        List.take_of_length_le (l := s ++ s') (by simp; omega), List.drop_eq_nil_of_le (as := m) (by omega),
        List.drop_eq_nil_of_le (as := m') (by omega), List.drop_eq_nil_of_le (as := m ++ m') (by simp; omega), List.append_nil, List.append_nil,
        List.append_nil, List.zipWith_append (by omega)]
    have e' : ∀ (f : α → α → α), (List.zipWith f (m.take a) (s.take a) ++ s.drop a) ++ (List.zipWith f (m'.take b) (s'.take b) ++ s'.drop b) =
        List.zipWith f ((m ++ m').take (a + b)) ((s ++ s').take (a + b)) ++ (s ++ s').drop (a + b) := by
      intro f
      rw [List.take_of_length_le (l := m) (by omega), List.take_of_length_le (l := s) (by omega), List.take_of_length_le (l := m') (by omega),
        List.take_of_length_le (l := s') (by omega), List.take_of_length_le (l := m ++ m') (by simp; omega),
        List.take_of_length_le (l := s ++ s') (by simp; omega), List.drop_eq_nil_of_le (as := s) (by omega),
        List.drop_eq_nil_of_le (as := s') (by omega), List.drop_eq_nil_of_le (as := s ++ s') (by simp; omega), List.append_nil, List.append_nil,
        List.append_nil, List.zipWith_append (by omega)]
    rw [e, e']

omit [Zero α] in
/-- What a retrieval does in a state that can be reached. -/
theorem retrieve_facts {p : Params} (hc : 0 < p.channels) {env : Env α σ ρ} {s : State α σ ρ} (hi : Inv p env s) (n : Nat) :
    (retrieve p s n).2.2 = min n (available s).toNat ∧ (retrieve p s n).2.1.length = p.channels ∧
      (∀ l ∈ (retrieve p s n).2.1, l.length = min n (available s).toNat) ∧
      (retrieve p s n).1 = { s with outbuf := s.outbuf.map fun q => q.skip n } ∧
      (retrieve p s n).2.1 = if p.useMidSide then decode (min n (available s).toNat) (s.outbuf.map fun q => q.peek n) else s.outbuf.map fun q => q.peek n := by
  obtain ⟨ic, oc, k, m, hb, _, _, _⟩ := hi.bufs
  obtain ⟨r1, r2, r3⟩ := readChannels_uniform hb.outU n
  have hav : (available s).toNat = m := by
    unfold available
    rw [(out0_eq hc hb.outU).2.1]
    split
    · omega
    · rfl
  have hpk : ∀ l ∈ s.outbuf.map (fun q => q.peek n), l.length = min n m := by
    intro l hl
    obtain ⟨q, hq, rfl⟩ := List.mem_map.mp hl
    simp [Fifo.peek, (hb.outU.2 q hq).2]
  have hgot := r3 hc
  have hout : (retrieve p s n).2.1 = if p.useMidSide then decode (min n m) (s.outbuf.map fun q => q.peek n) else s.outbuf.map fun q => q.peek n := by
    unfold retrieve
    rw [← r2, ← hgot]
  rw [hav]
  refine ⟨hgot, ?_, ?_, ?_, hout⟩
  · rw [hout]
    split
    · rw [decode_outer_length]; simpa using hb.outU.1
    · simpa using hb.outU.1
  · rw [hout]
    split
    · exact decode_length hpk (le_refl _)
    · exact hpk
  · unfold retrieve
    rw [← r1]

/-- **C27.**  After any history: `retrieve(n)` returns the smaller of `n` and what `available` promised (none if that is
negative), every channel gets exactly so many samples, and so many fewer are available afterwards. -/
theorem C27_count {p : Params} (hc : 0 < p.channels) (env : Env α σ ρ) (t ps : Dbl) (cs : List (Call α))
    {r : State α σ ρ × List (List (List α))} (h : run p env (create p env t ps) cs = some r) (n : Nat) :
    (retrieve p r.1 n).2.2 = min n (available r.1).toNat ∧ (retrieve p r.1 n).2.1.length = p.channels ∧
      (∀ l ∈ (retrieve p r.1 n).2.1, l.length = min n (available r.1).toNat) ∧
      (available (retrieve p r.1 n).1).toNat = (available r.1).toNat - n := by
  have hi := run_inv hc cs _ _ (create_inv p env t ps) h
  obtain ⟨f1, f2, f3, f4, _⟩ := retrieve_facts hc hi n
  refine ⟨f1, f2, f3, ?_⟩
  rw [f4]
  obtain ⟨ic, oc, k, m, hb, _, _, _⟩ := hi.bufs
  unfold available
  have e1 := (out0_eq (s := r.1) hc hb.outU).2.1
  have e2 := (out0_eq (s := { r.1 with outbuf := r.1.outbuf.map fun q => q.skip n }) hc (hb.outU.skip n)).2.1
  rw [e1, e2]
  simp only
  split <;> split <;> omega

/-- **C27**, the order: two retrievals, one after the other, deliver to every channel what one retrieval of both sizes would
have delivered; and leave the same behind. -/
theorem C27_order {p : Params} (hc : 0 < p.channels) (env : Env α σ ρ) (t ps : Dbl) (cs : List (Call α))
    {r : State α σ ρ × List (List (List α))} (h : run p env (create p env t ps) cs = some r) (a b : Nat) :
    List.zipWith (· ++ ·) (retrieve p r.1 a).2.1 (retrieve p (retrieve p r.1 a).1 b).2.1 = (retrieve p r.1 (a + b)).2.1 ∧
      (retrieve p (retrieve p r.1 a).1 b).1 = (retrieve p r.1 (a + b)).1 := by
  have hi := run_inv hc cs _ _ (create_inv p env t ps) h
  have hi' := retrieve_inv hi a
  obtain ⟨ic, oc, k, m, hb, _, _, _⟩ := hi.bufs
  obtain ⟨f1, f2, f3, f4, f5⟩ := retrieve_facts hc hi a
  obtain ⟨g1, g2, g3, g4, g5⟩ := retrieve_facts hc hi' b
  obtain ⟨k1, k2, k3, k4, k5⟩ := retrieve_facts hc hi (a + b)
  have hav : ∀ s : State α σ ρ, ∀ cap m, Uniform p.channels s.outbuf cap m → (available s).toNat = m := by
    intro s cap m hu
    unfold available
    rw [(out0_eq hc hu).2.1]
    split
    · omega
    · rfl
  have hu' : Uniform p.channels (retrieve p r.1 a).1.outbuf oc (m - a) := by rw [f4]; exact hb.outU.skip a
  rw [hav _ _ _ hb.outU] at f5 k5
  rw [hav _ _ _ hu'] at g5
  have hout : (retrieve p r.1 a).1.outbuf = r.1.outbuf.map fun q => q.skip a := by rw [f4]
  have hz : List.zipWith (· ++ ·) (r.1.outbuf.map fun q => q.peek a) (((retrieve p r.1 a).1.outbuf).map fun q => q.peek b) =
      r.1.outbuf.map fun q => q.peek (a + b) := by
    rw [hout, List.map_map]
    generalize r.1.outbuf = l
    induction l with
    | nil => rfl
    | cons q l ih =>
      simp only [List.map_cons, List.zipWith_cons_cons, ih]
      congr 1
      simp only [Fifo.peek, Fifo.skip, Function.comp]
      rw [List.take_add]
  constructor
  · rw [f5, g5, k5]
    split
    · have hx : ∀ l ∈ r.1.outbuf.map (fun q => q.peek a), l.length = min a m := by
        intro l hl
        obtain ⟨q, hq, rfl⟩ := List.mem_map.mp hl
        simp [Fifo.peek, (hb.outU.2 q hq).2]
      have hy : ∀ l ∈ (retrieve p r.1 a).1.outbuf.map (fun q => q.peek b), l.length = min b (m - a) := by
        intro l hl
        obtain ⟨q, hq, rfl⟩ := List.mem_map.mp hl
        simp [Fifo.peek, (hu'.2 q hq).2]
      rw [decode_append hx hy (by simp [hout]), hz]
      congr 1
      omega
    · exact hz
  · rw [g4, k4, hout, f4]
    simp only [List.map_map]
    congr 1
    apply List.map_congr_left
    intro q _
    simp only [Function.comp, Fifo.skip, List.drop_drop]

end C27

/-- Real time at 8000 Hz: 2000 frames make 960 available; 300 retrieved, 660 are left. -/
example : ((run (Ex.small true) Ex.env (create (Ex.small true) Ex.env (.fin 1) (.fin 1)) [.process (Ex.block 2000) false]).map fun r =>
    (available r.1, (retrieve (Ex.small true) r.1 300).2.2, available (retrieve (Ex.small true) r.1 300).1)) = some (960, 300, 660) := by
  decide +kernel

end Verif.R3
