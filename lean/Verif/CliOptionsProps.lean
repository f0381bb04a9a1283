import Verif.CliOptions
import Mathlib.Algebra.BigOperators.Group.List.Basic
import Mathlib.Data.List.Induction
import Mathlib.Data.Nat.Bitwise
import Mathlib.Data.Rat.Floor
import Mathlib.Tactic.FieldSimp
import Mathlib.Tactic.Ring
/-!
# The options of the command-line utility: C130 to C135
-/
namespace Verif.CliOptions

set_option linter.unusedSectionVars false

variable {K : Type} [Field K] [LinearOrder K]

/-! ## What becomes of a variable -/

/-- The variables before the options are looked at. -/
def start₀ : Settings K := { ratio := 1, duration := 0, pitchshift := 0, frequencyshift := 1 }

theorem settings_eq (opts : List (Opt K)) : settings opts = opts.foldl Settings.apply start₀ := rfl

theorem fold_any {g : Settings K → Bool} {P : Opt K → Bool} (h : ∀ s o, g (s.apply o) = (g s || P o)) (opts : List (Opt K)) : ∀ s, g (opts.foldl Settings.apply s) = (g s || opts.any P) := by
  induction opts with
  | nil => intro s; simp
  | cons o opts ih => intro s; rw [List.foldl_cons, ih, h, List.any_cons, Bool.or_assoc]

theorem fold_same {γ : Type} {g : Settings K → γ} {opts : List (Opt K)} (h : ∀ s, ∀ o ∈ opts, g (s.apply o) = g s) : ∀ s, g (opts.foldl Settings.apply s) = g s := by
  induction opts with
  | nil => intro s; rfl
  | cons o opts ih => intro s; rw [List.foldl_cons, ih fun s x hx => h s x (List.mem_cons_of_mem _ hx), h s o (by simp)]

theorem fold_last {γ : Type} {g : Settings K → γ} {a b : List (Opt K)} {x : Opt K} {v : γ} (hx : ∀ s : Settings K, g (s.apply x) = v) (hb : ∀ s : Settings K, ∀ o ∈ b, g (s.apply o) = g s) : g (settings (a ++ x :: b)) = v := by
  rw [settings_eq, List.foldl_append, List.foldl_cons, fold_same hb, hx]

theorem fold_inv {g : Settings K → Prop} {opts : List (Opt K)} (h : ∀ s : Settings K, ∀ o ∈ opts, g s → g (s.apply o)) : ∀ s, g s → g (opts.foldl Settings.apply s) := by
  induction opts with
  | nil => intro s hs; exact hs
  | cons o opts ih => intro s hs; exact ih (fun s x hx => h s x (List.mem_cons_of_mem _ hx)) _ (h s o (by simp) hs)

/-- A variable that two options set. -/
theorem last_two {γ : Type} {g : Settings K → γ} {x y : Opt K} {v w : γ} (hx : ∀ s : Settings K, g (s.apply x) = v) (hy : ∀ s : Settings K, g (s.apply y) = w)
    (ho : ∀ (s : Settings K) (o : Opt K), o ≠ x → o ≠ y → g (s.apply o) = g s) (opts : List (Opt K)) :
    (x ∉ opts ∧ y ∉ opts ∧ g (settings opts) = g start₀) ∨ (∃ a b, opts = a ++ x :: b ∧ y ∉ b ∧ g (settings opts) = v) ∨ ∃ a b, opts = a ++ y :: b ∧ x ∉ b ∧ g (settings opts) = w := by
  induction opts using List.reverseRecOn with
  | nil => exact Or.inl ⟨by simp, by simp, rfl⟩
  | append_singleton l o ih =>
    have e : settings (l ++ [o]) = (settings l).apply o := by rw [settings_eq, List.foldl_append]; rfl
    rw [e]
    by_cases h1 : o = x
    · exact Or.inr (Or.inl ⟨l, [], by rw [h1], by simp, by rw [h1, hx]⟩)
    · by_cases h2 : o = y
      · exact Or.inr (Or.inr ⟨l, [], by rw [h2], by simp, by rw [h2, hy]⟩)
      · rw [ho _ o h1 h2]
        rcases ih with ⟨i1, i2, i3⟩ | ⟨a, b, rfl, i2, i3⟩ | ⟨a, b, rfl, i2, i3⟩
        · exact Or.inl ⟨by simp [i1, Ne.symm h1], by simp [i2, Ne.symm h2], i3⟩
        · exact Or.inr (Or.inl ⟨a, b ++ [o], by simp, by simp [i2, Ne.symm h2], i3⟩)
        · exact Or.inr (Or.inr ⟨a, b ++ [o], by simp, by simp [i2, Ne.symm h1], i3⟩)

theorem flag {g : Settings K → Bool} {x : Opt K} (h0 : g start₀ = false) (h : ∀ s o, g (s.apply o) = (g s || decide (o = x))) (opts : List (Opt K)) : g (settings opts) = true ↔ x ∈ opts := by
  rw [settings_eq, fold_any h, h0]
  simp

theorem formant_iff (opts : List (Opt K)) : (settings opts).formant = true ↔ Opt.formant ∈ opts := flag (g := fun s => s.formant) rfl (fun s o => by cases o <;> simp [Settings.apply]) opts
theorem together_iff (opts : List (Opt K)) : (settings opts).together = true ↔ Opt.centreFocus ∈ opts := flag (g := fun s => s.together) rfl (fun s o => by cases o <;> simp [Settings.apply]) opts
theorem smoothing_iff (opts : List (Opt K)) : (settings opts).smoothing = true ↔ Opt.smoothing ∈ opts := flag (g := fun s => s.smoothing) rfl (fun s o => by cases o <;> simp [Settings.apply]) opts
theorem hqpitch_iff (opts : List (Opt K)) : (settings opts).hqpitch = true ↔ Opt.pitchHq ∈ opts := flag (g := fun s => s.hqpitch) rfl (fun s o => by cases o <;> simp [Settings.apply]) opts
theorem realtime_iff (opts : List (Opt K)) : (settings opts).realtime = true ↔ Opt.realtime ∈ opts := flag (g := fun s => s.realtime) rfl (fun s o => by cases o <;> simp [Settings.apply]) opts
theorem faster_iff (opts : List (Opt K)) : (settings opts).faster = true ↔ Opt.fast ∈ opts := flag (g := fun s => s.faster) rfl (fun s o => by cases o <;> simp [Settings.apply]) opts
theorem finer_iff (opts : List (Opt K)) : (settings opts).finer = true ↔ Opt.fine ∈ opts := flag (g := fun s => s.finer) rfl (fun s o => by cases o <;> simp [Settings.apply]) opts
theorem longwin_iff (opts : List (Opt K)) : (settings opts).longwin = true ↔ Opt.windowLong ∈ opts := flag (g := fun s => s.longwin) rfl (fun s o => by cases o <;> simp [Settings.apply]) opts
theorem shortwin_iff (opts : List (Opt K)) : (settings opts).shortwin = true ↔ Opt.windowShort ∈ opts := flag (g := fun s => s.shortwin) rfl (fun s o => by cases o <;> simp [Settings.apply]) opts
theorem ignore_iff (opts : List (Opt K)) : (settings opts).ignoreClipping = true ↔ Opt.ignoreClipping ∈ opts := flag (g := fun s => s.ignoreClipping) rfl (fun s o => by cases o <;> simp [Settings.apply]) opts
theorem lamination_iff (opts : List (Opt K)) : (!(settings opts).lamination) = true ↔ Opt.noLamination ∈ opts := flag (g := fun s => !s.lamination) rfl (fun s o => by cases o <;> simp [Settings.apply]) opts
theorem version_iff (opts : List (Opt K)) : (settings opts).version = true ↔ Opt.version ∈ opts := flag (g := fun s => s.version) rfl (fun s o => by cases o <;> simp [Settings.apply]) opts
theorem fullHelp_iff (opts : List (Opt K)) : (settings opts).fullHelp = true ↔ Opt.fullHelp ∈ opts := flag (g := fun s => s.fullHelp) rfl (fun s o => by cases o <;> simp [Settings.apply]) opts

theorem help_iff (opts : List (Opt K)) : (settings opts).help = true ↔ Opt.help ∈ opts ∨ Opt.unknown ∈ opts := by
  rw [settings_eq, fold_any (g := fun s => s.help) (P := fun o => decide (o = .help ∨ o = .unknown)) (fun s o => by cases o <;> simp [Settings.apply])]
  simp only [start₀, Bool.false_or, List.any_eq_true, decide_eq_true_eq]
  constructor
  · rintro ⟨x, hx, rfl | rfl⟩
    · exact Or.inl hx
    · exact Or.inr hx
  · rintro (h | h)
    · exact ⟨_, h, Or.inl rfl⟩
    · exact ⟨_, h, Or.inr rfl⟩

/-- Whether a frequency map or a pitch map is given. -/
def HasMap (opts : List (Opt K)) : Prop := ∃ f, Opt.freqmap f ∈ opts ∨ Opt.pitchmap f ∈ opts

theorem map_iff (opts : List (Opt K)) : (settings opts).mapSpecified = true ↔ HasMap opts := by
  rw [settings_eq, fold_any (g := fun s => s.mapSpecified) (P := fun o => match o with | .freqmap _ => true | .pitchmap _ => true | _ => false) (fun s o => by cases o <;> simp [Settings.apply])]
  simp only [start₀, Bool.false_or, List.any_eq_true, HasMap]
  constructor
  · rintro ⟨x, hx, h⟩
    cases x with
    | freqmap f => exact ⟨f, Or.inl hx⟩
    | pitchmap f => exact ⟨f, Or.inr hx⟩
    | _ => exact absurd h (by simp)
  · rintro ⟨f, h | h⟩
    · exact ⟨_, h, rfl⟩
    · exact ⟨_, h, rfl⟩

/-- Whether an option sets a ratio. -/
def Opt.ratio : Opt K → Prop
  | .time _ | .tempo _ | .tempos _ _ | .duration _ | .pitch _ | .frequency _ => True
  | _ => False

theorem haveRatio_iff (opts : List (Opt K)) : (settings opts).haveRatio = true ↔ ∃ o ∈ opts, o.ratio := by
  rw [settings_eq, fold_any (g := fun s => s.haveRatio) (P := fun o => match o with | .time _ | .tempo _ | .tempos _ _ | .duration _ | .pitch _ | .frequency _ => true | _ => false)
    (fun s o => by cases o <;> simp [Settings.apply])]
  simp only [start₀, Bool.false_or, List.any_eq_true]
  constructor
  · rintro ⟨x, hx, h⟩
    refine ⟨x, hx, ?_⟩
    cases x <;> first | trivial | exact absurd h (by simp)
  · rintro ⟨x, hx, h⟩
    refine ⟨x, hx, ?_⟩
    cases x <;> first | rfl | exact absurd h (by simp [Opt.ratio])

/-! ## The options of the stretcher -/

theorem bit_testBit (b : Bool) (n k : Nat) : (bit b n).testBit k = (b && decide (n = k)) := by
  unfold bit
  cases b
  · simp
  · simp [Nat.testBit_two_pow]

/-- main.cpp:386-401, by what is asked for. -/
theorem useFiner_iff (r3 : Bool) (s : Settings K) : useFiner r3 s = if s.faster = s.finer then r3 else s.finer := by
  unfold useFiner
  cases r3 <;> cases s.faster <;> cases s.finer <;> rfl

theorem start_run {pow : K → K} {name : List Char} {opts : List (Opt K)} {files rate frames : Nat} {r : Run K} (h : start pow name opts files rate frames = .run r) :
    (settings opts).version = false ∧ ((settings opts).help || (settings opts).fullHelp || !((settings opts).haveRatio || (settings opts).mapSpecified) || files != 2) = false ∧ 0 < (settings opts).ratio ∧ rate ≠ 0 ∧
      ¬ ((settings opts).duration ≠ 0 ∧ frames = 0) ∧
      r = {
        options := word (useFiner (isR3 name) (settings opts)) ((settings opts).realtime || (settings opts).mapSpecified) (crisped (settings opts))
        ratio := finalRatio (settings opts).ratio (settings opts).duration rate frames
        frequencyshift := if (settings opts).pitchshift ≠ 0 then (settings opts).frequencyshift * pow (settings opts).pitchshift else (settings opts).frequencyshift
        realtime := (settings opts).realtime || (settings opts).mapSpecified
        ignoreClipping := (settings opts).ignoreClipping
        timeMapFile := (settings opts).timeMapFile
        freqMapFile := (settings opts).freqMapFile
        pitchMapFile := (settings opts).pitchMapFile } := by
  unfold start at h
  simp only at h
  generalize settings opts = s at h ⊢
  split at h
  · cases h
  · rename_i h1
    split at h
    · cases h
    · split at h
      · cases h
      · rename_i h3
        split at h
        · cases h
        · rename_i h4
          split at h
          · cases h
          · rename_i h5
            split at h
            · cases h
            · rename_i h6
              refine ⟨by simpa using h1, by simpa using h3, not_le.mp h4, h5, h6, ?_⟩
              exact (Outcome.run.inj h).symm

/-- The shape of the processing that the crispness decides. -/
def Settings.shape (s : Settings K) : Bool × Bool × Bool × Transients × Detector := (s.lamination, s.longwin, s.shortwin, s.transients, s.detector)

/-- All but what the crispness decides. -/
def Settings.plain (s : Settings K) : Settings K := { s with lamination := true, longwin := false, shortwin := false, transients := .all, detector := .compound, crispchanged := false, crispness := -1 }

theorem crisped_plain (s : Settings K) : (crisped s).plain = s.plain := by
  unfold crisped
  iterate 8 (split; · rfl)
  rfl

theorem word_bits (f r : Bool) (s : Settings K) (k : Nat) : (word f r s).testBit k =
    ((f && decide (29 = k)) || (r && decide (0 = k)) || (!s.lamination && decide (13 = k)) || (s.longwin && decide (21 = k)) || (s.shortwin && decide (20 = k)) || (s.smoothing && decide (23 = k)) ||
      (s.formant && decide (24 = k)) || (s.together && decide (28 = k)) || (if s.mapSpecified then decide (26 = k) else s.hqpitch && decide (25 = k)) ||
      (if s.threading = 1 then decide (16 = k) else (s.threading == 2) && decide (17 = k)) || (decide (s.transients = .none) && decide (9 = k) || decide (s.transients = .bandLimited) && decide (8 = k)) ||
      (decide (s.detector = .percussive) && decide (10 = k) || decide (s.detector = .soft) && decide (11 = k))) := by
  unfold word
  simp only [Nat.testBit_or, bit_testBit]
  congr 1
  · congr 1
    · congr 1
      · congr 1
        by_cases h : s.mapSpecified = true
        · simp [h, bit_testBit]
        · simp [h, bit_testBit]
      · by_cases h : s.threading = 1
        · simp [h, bit_testBit]
        · simp [h, bit_testBit]
    · cases s.transients <;> simp [bit_testBit]
  · cases s.detector <;> simp [bit_testBit]

/-- What makes the finer engine the one of a name (main.cpp:291-298: "rubberband-r3"). -/
def FinerName (name : List Char) : Prop := ∃ base, base ≠ [] ∧ (name = base ++ "-r3".toList ∨ name = base ++ "-r3.exe".toList ∨ name = base ++ "-R3.EXE".toList)

theorem suffix_iff {name suffix : List Char} : (decide (name.length > suffix.length) && name.drop (name.length - suffix.length) == suffix) = true ↔ ∃ base, base ≠ [] ∧ name = base ++ suffix := by
  simp only [Bool.and_eq_true, decide_eq_true_eq, beq_iff_eq]
  constructor
  · rintro ⟨h1, h2⟩
    refine ⟨name.take (name.length - suffix.length), ?_, ?_⟩
    · intro e
      have := congrArg List.length e
      rw [List.length_take] at this
      simp at this
      omega
    · conv_lhs => rw [← List.take_append_drop (name.length - suffix.length) name, h2]
  · rintro ⟨base, h1, rfl⟩
    have : base.length ≠ 0 := by simpa using h1
    refine ⟨by rw [List.length_append]; omega, ?_⟩
    rw [List.length_append, Nat.add_sub_cancel, List.drop_left]

theorem isR3_iff (name : List Char) : isR3 name = true ↔ FinerName name := by
  have h1 := suffix_iff (name := name) (suffix := "-r3".toList)
  have h2 := suffix_iff (name := name) (suffix := "-r3.exe".toList)
  have h3 := suffix_iff (name := name) (suffix := "-R3.EXE".toList)
  unfold isR3
  rw [Bool.or_eq_true, Bool.or_eq_true]
  unfold FinerName
  constructor
  · rintro ((h | h) | h)
    · obtain ⟨b, hb, e⟩ := h1.mp h; exact ⟨b, hb, Or.inl e⟩
    · obtain ⟨b, hb, e⟩ := h2.mp h; exact ⟨b, hb, Or.inr (Or.inl e)⟩
    · obtain ⟨b, hb, e⟩ := h3.mp h; exact ⟨b, hb, Or.inr (Or.inr e)⟩
  · rintro ⟨b, hb, e | e | e⟩
    · exact Or.inl (Or.inl (h1.mpr ⟨b, hb, e⟩))
    · exact Or.inl (Or.inr (h2.mpr ⟨b, hb, e⟩))
    · exact Or.inr (h3.mpr ⟨b, hb, e⟩)

/-- **C130**: the stretcher is made with what is asked for.  The engine is the one asked for, or that of the name of the utility if neither or both are; a frequency map or pitch map makes it one for real time with consistent pitch; and
each of the other options is set exactly if it is given, or, of those that exclude each other, if it is the last given.  (For the crispness, see C133.) -/
theorem C130 {pow : K → K} {name : List Char} {opts : List (Opt K)} {files rate frames : Nat} {r : Run K} (h : start pow name opts files rate frames = .run r) :
    ((.fast ∈ opts ↔ .fine ∈ opts) → (r.options.testBit 29 = true ↔ FinerName name)) ∧ (¬ (.fast ∈ opts ↔ .fine ∈ opts) → (r.options.testBit 29 = true ↔ .fine ∈ opts)) ∧
    (r.options.testBit 0 = true ↔ .realtime ∈ opts ∨ HasMap opts) ∧ r.realtime = r.options.testBit 0 ∧
    (r.options.testBit 24 = true ↔ .formant ∈ opts) ∧ (r.options.testBit 28 = true ↔ .centreFocus ∈ opts) ∧ (r.options.testBit 23 = true ↔ .smoothing ∈ opts) ∧
    (r.options.testBit 26 = true ↔ HasMap opts) ∧ (r.options.testBit 25 = true ↔ .pitchHq ∈ opts ∧ ¬ HasMap opts) ∧
    (r.ignoreClipping = true ↔ .ignoreClipping ∈ opts) ∧
    ((.noThreads ∉ opts ∧ .threads ∉ opts ∧ r.options.testBit 16 = false ∧ r.options.testBit 17 = false) ∨
      (∃ a b, opts = a ++ .noThreads :: b ∧ .threads ∉ b ∧ r.options.testBit 16 = true ∧ r.options.testBit 17 = false) ∨
      ∃ a b, opts = a ++ .threads :: b ∧ .noThreads ∉ b ∧ r.options.testBit 16 = false ∧ r.options.testBit 17 = true) ∧
    ((∀ n, .crisp n ∉ opts) → (r.options.testBit 13 = true ↔ .noLamination ∈ opts) ∧ (r.options.testBit 21 = true ↔ .windowLong ∈ opts) ∧ (r.options.testBit 20 = true ↔ .windowShort ∈ opts) ∧
      ((.noTransients ∉ opts ∧ .blTransients ∉ opts ∧ r.options.testBit 9 = false ∧ r.options.testBit 8 = false) ∨
        (∃ a b, opts = a ++ .noTransients :: b ∧ .blTransients ∉ b ∧ r.options.testBit 9 = true ∧ r.options.testBit 8 = false) ∨
        ∃ a b, opts = a ++ .blTransients :: b ∧ .noTransients ∉ b ∧ r.options.testBit 9 = false ∧ r.options.testBit 8 = true) ∧
      ((.detectorPerc ∉ opts ∧ .detectorSoft ∉ opts ∧ r.options.testBit 10 = false ∧ r.options.testBit 11 = false) ∨
        (∃ a b, opts = a ++ .detectorPerc :: b ∧ .detectorSoft ∉ b ∧ r.options.testBit 10 = true ∧ r.options.testBit 11 = false) ∨
        ∃ a b, opts = a ++ .detectorSoft :: b ∧ .detectorPerc ∉ b ∧ r.options.testBit 10 = false ∧ r.options.testBit 11 = true)) := by
  obtain ⟨_, _, _, _, _, rfl⟩ := start_run h
  have hp := crisped_plain (settings opts)
  have p1 : (crisped (settings opts)).formant = (settings opts).formant := by have := congrArg Settings.formant hp; exact this
  have p2 : (crisped (settings opts)).together = (settings opts).together := by have := congrArg Settings.together hp; exact this
  have p3 : (crisped (settings opts)).smoothing = (settings opts).smoothing := by have := congrArg Settings.smoothing hp; exact this
  have p4 : (crisped (settings opts)).hqpitch = (settings opts).hqpitch := by have := congrArg Settings.hqpitch hp; exact this
  have p5 : (crisped (settings opts)).mapSpecified = (settings opts).mapSpecified := by have := congrArg Settings.mapSpecified hp; exact this
  have p6 : (crisped (settings opts)).threading = (settings opts).threading := by have := congrArg Settings.threading hp; exact this
  simp only [word_bits, p1, p2, p3, p4, p5, p6]
  refine ⟨?_, ?_, ?_, ?_, ?_, ?_, ?_, ?_, ?_, ?_, ?_, ?_⟩
  · rw [← faster_iff, ← finer_iff, ← isR3_iff]
    intro e
    simp [useFiner_iff, Bool.eq_iff_iff.mpr e]
  · rw [← faster_iff, ← finer_iff]
    intro e
    simp [useFiner_iff, show (settings opts).faster ≠ (settings opts).finer from fun e' => e (by rw [e'])]
  · rw [← realtime_iff, ← map_iff]; simp
  · simp
  · rw [← formant_iff]; simp
  · rw [← together_iff]; simp
  · rw [← smoothing_iff]; simp
  · rw [← map_iff]; simp
  · rw [← map_iff, ← hqpitch_iff]
    cases (settings opts).mapSpecified <;> simp
  · exact ignore_iff opts
  · rcases last_two (g := fun s => s.threading) (x := .noThreads) (y := .threads) (v := 1) (w := 2) (fun _ => rfl) (fun _ => rfl) (fun s o h1 h2 => by cases o <;> simp_all [Settings.apply]) opts with
      ⟨h1, h2, e⟩ | ⟨a, b, e1, h2, e⟩ | ⟨a, b, e1, h2, e⟩
    · exact Or.inl ⟨h1, h2, by simp [show (settings opts).threading = 0 from e], by simp [show (settings opts).threading = 0 from e]⟩
    · exact Or.inr (Or.inl ⟨a, b, e1, h2, by simp [show (settings opts).threading = 1 from e], by simp [show (settings opts).threading = 1 from e]⟩)
    · exact Or.inr (Or.inr ⟨a, b, e1, h2, by simp [show (settings opts).threading = 2 from e], by simp [show (settings opts).threading = 2 from e]⟩)
  · intro hc
    have hn : (settings opts).crispness = -1 := by
      rw [settings_eq, fold_same (g := fun s => s.crispness)]
      · rfl
      · intro s o ho
        cases o with
        | crisp n => exact absurd ho (hc n)
        | _ => rfl
    have e : crisped (settings opts) = { settings opts with crispness := 5 } := by unfold crisped; rw [if_pos hn]
    rw [e]
    refine ⟨?_, ?_, ?_, ?_, ?_⟩
    · rw [← lamination_iff]; simp
    · rw [← longwin_iff]; simp
    · rw [← shortwin_iff]; simp
    · rcases last_two (g := fun s => s.transients) (x := .noTransients) (y := .blTransients) (v := .none) (w := .bandLimited) (fun _ => rfl) (fun _ => rfl) (fun s o h1 h2 => by cases o <;> simp_all [Settings.apply]) opts with
        ⟨h1, h2, e⟩ | ⟨a, b, e1, h2, e⟩ | ⟨a, b, e1, h2, e⟩
      · exact Or.inl ⟨h1, h2, by simp [show (settings opts).transients = .all from e], by simp [show (settings opts).transients = .all from e]⟩
      · exact Or.inr (Or.inl ⟨a, b, e1, h2, by simp [show (settings opts).transients = .none from e], by simp [show (settings opts).transients = .none from e]⟩)
      · exact Or.inr (Or.inr ⟨a, b, e1, h2, by simp [show (settings opts).transients = .bandLimited from e], by simp [show (settings opts).transients = .bandLimited from e]⟩)
    · rcases last_two (g := fun s => s.detector) (x := .detectorPerc) (y := .detectorSoft) (v := .percussive) (w := .soft) (fun _ => rfl) (fun _ => rfl) (fun s o h1 h2 => by cases o <;> simp_all [Settings.apply]) opts with
        ⟨h1, h2, e⟩ | ⟨a, b, e1, h2, e⟩ | ⟨a, b, e1, h2, e⟩
      · exact Or.inl ⟨h1, h2, by simp [show (settings opts).detector = .compound from e], by simp [show (settings opts).detector = .compound from e]⟩
      · exact Or.inr (Or.inl ⟨a, b, e1, h2, by simp [show (settings opts).detector = .percussive from e], by simp [show (settings opts).detector = .percussive from e]⟩)
      · exact Or.inr (Or.inr ⟨a, b, e1, h2, by simp [show (settings opts).detector = .soft from e], by simp [show (settings opts).detector = .soft from e]⟩)

/-! ## The ratios -/

/-- What an option multiplies the time ratio by. -/
def Opt.factor : Opt K → K
  | .time x => x
  | .tempo x => tempoConvert x
  | .tempos x y => temposConvert x y
  | _ => 1

theorem ratio_eq (opts : List (Opt K)) : (settings opts).ratio = (opts.map Opt.factor).prod := by
  have : ∀ s : Settings K, (opts.foldl Settings.apply s).ratio = s.ratio * (opts.map Opt.factor).prod := by
    induction opts with
    | nil => intro s; simp
    | cons o opts ih =>
      intro s
      rw [List.foldl_cons, ih, List.map_cons, List.prod_cons, ← mul_assoc]
      congr 1
      cases o <;> simp [Settings.apply, Opt.factor]
  rw [settings_eq, this]
  simp [start₀]

/-- Whether it is an option for time (main.cpp:250-253). -/
def Opt.isTime : Opt K → Prop
  | .time _ | .tempo _ | .tempos _ _ | .duration _ => True
  | _ => False

/-- Whether it is an option for pitch (main.cpp:255-256). -/
def Opt.isPitch : Opt K → Prop
  | .pitch _ | .frequency _ => True
  | _ => False

theorem factor_one {l : List (Opt K)} (h : ∀ o ∈ l, ¬ o.isTime) : (l.map Opt.factor).prod = 1 := by
  induction l with
  | nil => rfl
  | cons o l ih =>
    rw [List.map_cons, List.prod_cons, ih fun x hx => h x (List.mem_cons_of_mem _ hx), mul_one]
    have := h o (by simp)
    cases o <;> first | rfl | exact absurd trivial this

theorem duration_same {l : List (Opt K)} (h : ∀ o ∈ l, ¬ o.isTime) : ∀ s : Settings K, (l.foldl Settings.apply s).duration = s.duration := by
  refine fold_same (g := fun s => s.duration) ?_
  intro s o ho
  have := h o ho
  cases o <;> first | rfl | exact absurd trivial this

theorem pitch_same {l : List (Opt K)} (h : ∀ o ∈ l, ¬ o.isPitch) : ∀ s : Settings K, (l.foldl Settings.apply s).pitchshift = s.pitchshift ∧ (l.foldl Settings.apply s).frequencyshift = s.frequencyshift := by
  intro s
  refine ⟨fold_same (g := fun s => s.pitchshift) ?_ s, fold_same (g := fun s => s.frequencyshift) ?_ s⟩ <;>
  · intro s o ho
    have := h o ho
    cases o <;> first | rfl | exact absurd trivial this

/-- When the utility gets as far as making a stretcher. -/
theorem start_of {pow : K → K} {name : List Char} {opts : List (Opt K)} {rate frames : Nat} (h1 : .version ∉ opts) (h2 : .help ∉ opts) (h3 : .fullHelp ∉ opts) (h4 : .unknown ∉ opts)
    (h5 : ¬ ((∃ f, f ≠ [] ∧ Opt.freqmap f ∈ opts) ∧ ∃ f, f ≠ [] ∧ Opt.pitchmap f ∈ opts)) (h6 : (∃ o ∈ opts, o.ratio) ∨ HasMap opts) (h7 : 0 < (settings opts).ratio) (h8 : rate ≠ 0)
    (h9 : (settings opts).duration ≠ 0 → frames ≠ 0) : ∃ r, start pow name opts 2 rate frames = .run r := by
  have hv : (settings opts).version = false := by rw [← Bool.not_eq_true, version_iff]; exact h1
  have hh : (settings opts).help = false := by rw [← Bool.not_eq_true, help_iff]; exact not_or.mpr ⟨h2, h4⟩
  have hf : (settings opts).fullHelp = false := by rw [← Bool.not_eq_true, fullHelp_iff]; exact h3
  have hr : ((settings opts).haveRatio || (settings opts).mapSpecified) = true := by
    rw [Bool.or_eq_true, haveRatio_iff, map_iff]; exact h6
  have hm : ((settings opts).freqMapFile != [] && (settings opts).pitchMapFile != []) = false := by
    rw [← Bool.not_eq_true, Bool.and_eq_true]
    rintro ⟨e1, e2⟩
    refine h5 ⟨?_, ?_⟩
    · by_contra hc
      have := fold_inv (g := fun s => s.freqMapFile = []) (opts := opts) (fun s o ho hs => by
        cases o with
        | freqmap f => by_contra hf; exact hc ⟨f, hf, ho⟩
        | _ => exact hs) start₀ rfl
      rw [settings_eq, this] at e1
      exact absurd e1 (by decide)
    · by_contra hc
      have := fold_inv (g := fun s => s.pitchMapFile = []) (opts := opts) (fun s o ho hs => by
        cases o with
        | pitchmap f => by_contra hf; exact hc ⟨f, hf, ho⟩
        | _ => exact hs) start₀ rfl
      rw [settings_eq, this] at e2
      exact absurd e2 (by decide)
  unfold start
  simp only [hv, hh, hf, hr, hm, Bool.and_false, Bool.or_self, Bool.not_true, bne_self_eq_false, Bool.false_eq_true, if_false, if_neg (not_le.mpr h7), if_neg h8]
  rw [if_neg fun hc => h9 hc.1 hc.2]
  exact ⟨_, rfl⟩

/-- **C131**: the ratios mean what the help says.  With one option for time, the time ratio is X, or 1/X, or X/Y, or such that the duration in the header becomes X; with none it is 1.  With one option for pitch, the pitch scale is that
of X semitones, or X; with none it is 1.  (`pow` is `pow(2.0, x / 12.0)`.) -/
theorem C131 {pow : K → K} (hpow : pow 0 = 1) {name : List Char} {opts : List (Opt K)} {files rate frames : Nat} {r : Run K} (h : start pow name opts files rate frames = .run r) [CharZero K] :
    ((∀ o ∈ opts, ¬ o.isTime) → r.ratio = 1) ∧
    (∀ a b o, opts = a ++ o :: b → (∀ o ∈ a ++ b, ¬ o.isTime) →
      (∀ x, o = .time x → r.ratio = x) ∧ (∀ x, x ≠ 0 → o = .tempo x → r.ratio = 1 / x) ∧ (∀ x y, x ≠ 0 → y ≠ 0 → o = .tempos x y → r.ratio = x / y) ∧
      ∀ x, x ≠ 0 → o = .duration x → r.ratio * (frames / rate) = x) ∧
    ((∀ o ∈ opts, ¬ o.isPitch) → r.frequencyshift = 1) ∧
    ∀ a b o, opts = a ++ o :: b → (∀ o ∈ a ++ b, ¬ o.isPitch) → (∀ x, o = .pitch x → r.frequencyshift = pow x) ∧ ∀ x, o = .frequency x → r.frequencyshift = x := by
  obtain ⟨_, _, _, h4, h5, rfl⟩ := start_run h
  have h4' : (rate : K) ≠ 0 := Nat.cast_ne_zero.mpr h4
  refine ⟨?_, ?_, ?_, ?_⟩
  · intro hn
    have e1 := factor_one hn
    have e2 : (settings opts).duration = 0 := duration_same hn _
    simp only [finalRatio, ratio_eq, e1, e2, ne_eq, not_true_eq_false, if_false]
  · rintro a b o rfl hab
    have ha : ∀ o ∈ a, ¬ o.isTime := fun x hx => hab x (List.mem_append_left _ hx)
    have hb : ∀ o ∈ b, ¬ o.isTime := fun x hx => hab x (List.mem_append_right _ hx)
    have e1 : (settings (a ++ o :: b)).ratio = o.factor := by
      rw [ratio_eq, List.map_append, List.map_cons, List.prod_append, List.prod_cons, factor_one ha, factor_one hb, one_mul, mul_one]
    have e2 : (settings (a ++ o :: b)).duration = (Settings.apply (a.foldl Settings.apply start₀) o).duration := by
      rw [settings_eq, List.foldl_append, List.foldl_cons, duration_same hb]
    have e3 : (a.foldl Settings.apply start₀ : Settings K).duration = 0 := duration_same ha _
    refine ⟨?_, ?_, ?_, ?_⟩
    · rintro x rfl
      have e2 : (settings (a ++ .time x :: b)).duration = 0 := e2.trans e3
      simp only [finalRatio, e1, e2, ne_eq, not_true_eq_false, if_false, Opt.factor]
    · rintro x hx rfl
      have e2 : (settings (a ++ .tempo x :: b)).duration = 0 := e2.trans e3
      simp only [finalRatio, e1, e2, ne_eq, not_true_eq_false, if_false, Opt.factor, tempoConvert, if_neg hx, hx, not_false_eq_true, if_true]
    · rintro x y hx hy rfl
      have e2 : (settings (a ++ .tempos x y :: b)).duration = 0 := e2.trans e3
      simp only [finalRatio, e1, e2, ne_eq, not_true_eq_false, if_false, Opt.factor, temposConvert, hx, hy, not_false_eq_true, and_self, if_true]
    · rintro x hx rfl
      have e2 : (settings (a ++ .duration x :: b)).duration = x := e2
      rw [e2] at h5
      have hf : (frames : K) ≠ 0 := Nat.cast_ne_zero.mpr fun e => h5 ⟨hx, e⟩
      have hd : (frames : K) / rate ≠ 0 := div_ne_zero hf h4'
      simp only [finalRatio, e2, if_pos hx, if_pos hd]
      exact div_mul_cancel₀ x hd
  · intro hn
    obtain ⟨e1, e2⟩ := pitch_same hn start₀
    have e1 : (settings opts).pitchshift = 0 := e1
    have e2 : (settings opts).frequencyshift = 1 := e2
    simp only [e1, e2, ne_eq, not_true_eq_false, if_false]
  · rintro a b o rfl hab
    have ha : ∀ o ∈ a, ¬ o.isPitch := fun x hx => hab x (List.mem_append_left _ hx)
    have hb : ∀ o ∈ b, ¬ o.isPitch := fun x hx => hab x (List.mem_append_right _ hx)
    obtain ⟨a1, a2⟩ := pitch_same ha (start₀ : Settings K)
    have e1 : (settings (a ++ o :: b)).pitchshift = (Settings.apply (a.foldl Settings.apply start₀) o).pitchshift := by
      rw [settings_eq, List.foldl_append, List.foldl_cons, (pitch_same hb _).1]
    have e2 : (settings (a ++ o :: b)).frequencyshift = (Settings.apply (a.foldl Settings.apply start₀) o).frequencyshift := by
      rw [settings_eq, List.foldl_append, List.foldl_cons, (pitch_same hb _).2]
    refine ⟨?_, ?_⟩
    · rintro x rfl
      have e1 : (settings (a ++ .pitch x :: b)).pitchshift = x := e1
      have e2 : (settings (a ++ .pitch x :: b)).frequencyshift = 1 := e2.trans a2
      simp only [e1, e2, one_mul]
      split
      · rfl
      · rename_i hx
        rw [not_not.mp hx, hpow]
    · rintro x rfl
      have e1 : (settings (a ++ .frequency x :: b)).pitchshift = 0 := e1.trans a1
      have e2 : (settings (a ++ .frequency x :: b)).frequencyshift = x := e2
      simp only [e1, e2, ne_eq, not_true_eq_false, if_false]

/-! ## C132 -/

/-- **C132**: ratios that are not positive are refused: the stretcher is only ever made with a positive time ratio and a positive pitch scale. -/
def C132_statement (K : Type) [Field K] [LinearOrder K] : Prop :=
  ∀ (pow : K → K), (∀ x, 0 < pow x) → ∀ (name : List Char) (opts : List (Opt K)) (files rate frames : Nat) (r : Run K), start pow name opts files rate frames = .run r → 0 < r.ratio ∧ 0 < r.frequencyshift

/-- A negative duration is not refused: the time ratio is looked at before the duration is. -/
theorem C132_violated : ¬ C132_statement ℚ := by
  intro h
  obtain ⟨r, hr⟩ := start_of (pow := fun _ : ℚ => 1) (name := "rubberband".toList) (opts := [.duration (-1)]) (rate := 44100) (frames := 44100) (by simp) (by simp) (by simp) (by simp)
    (by simp) (Or.inl ⟨.duration (-1), by simp, trivial⟩) (by simp [settings, Settings.apply]) (by decide) (fun _ => by decide)
  have := (h (fun _ => 1) (fun _ => one_pos) _ _ _ _ _ _ hr).1
  obtain ⟨_, _, _, _, _, rfl⟩ := start_run hr
  simp [settings, Settings.apply, finalRatio] at this
  norm_num at this

/-- And a frequency of 0 is not either. -/
theorem C132_violated_frequency : ∃ r, start (fun _ : ℚ => 1) "rubberband".toList [.frequency 0] 2 44100 44100 = .run r ∧ r.frequencyshift = 0 := by
  obtain ⟨r, hr⟩ := start_of (pow := fun _ : ℚ => 1) (name := "rubberband".toList) (opts := [.frequency 0]) (rate := 44100) (frames := 44100) (by simp) (by simp) (by simp) (by simp)
    (by simp) (Or.inl ⟨.frequency 0, by simp, trivial⟩) (by simp [settings, Settings.apply]) (by decide) (fun _ => by decide)
  refine ⟨r, hr, ?_⟩
  obtain ⟨_, _, _, _, _, rfl⟩ := start_run hr
  simp [settings, Settings.apply]

/-- **C132 (partial)**: it is so if no duration given is negative and no frequency given is 0 or negative, whatever numbers are given for `--time`, `--tempo` and `--pitch`.  Missing: those (`C132_violated`,
`C132_violated_frequency`). -/
theorem C132_partial [IsStrictOrderedRing K] {pow : K → K} (hpow : ∀ x, 0 < pow x) {name : List Char} {opts : List (Opt K)} {files rate frames : Nat} {r : Run K} (h : start pow name opts files rate frames = .run r)
    (hd : ∀ x, .duration x ∈ opts → 0 ≤ x) (hf : ∀ x, .frequency x ∈ opts → 0 < x) : 0 < r.ratio ∧ 0 < r.frequencyshift := by
  obtain ⟨_, _, h3, h4, h5, rfl⟩ := start_run h
  have hd : 0 ≤ (settings opts).duration := fold_inv (g := fun s => 0 ≤ s.duration) (opts := opts) (fun s o ho hs => by
    cases o with
    | duration x => exact hd x ho
    | _ => exact hs) start₀ le_rfl
  have hf : 0 < (settings opts).frequencyshift := fold_inv (g := fun s => 0 < s.frequencyshift) (opts := opts) (fun s o ho hs => by
    cases o with
    | frequency x => exact hf x ho
    | _ => exact hs) start₀ one_pos
  refine ⟨?_, ?_⟩
  · show 0 < finalRatio _ _ _ _
    unfold finalRatio
    split
    · rename_i hne
      have hfr : 0 < (frames : K) := Nat.cast_pos.mpr (Nat.pos_of_ne_zero fun e => h5 ⟨hne, e⟩)
      have hra : 0 < (rate : K) := Nat.cast_pos.mpr (Nat.pos_of_ne_zero h4)
      have := div_pos hfr hra
      rw [if_pos this.ne']
      exact div_pos (lt_of_le_of_ne hd (Ne.symm hne)) this
    · exact h3
  · simp only
    split
    · exact mul_pos hf (hpow _)
    · exact hf

/-! ## C133 -/

/-- The options that a crispness level stands for, and the level itself. -/
def Opt.shaping : Opt K → Bool
  | .noTransients | .blTransients | .noLamination | .windowLong | .windowShort | .detectorPerc | .detectorSoft | .crisp _ => true
  | _ => false

/-- What a level stands for, by the help (main.cpp:365-371). -/
def standsFor : Nat → List (Opt K)
  | 0 => [.noTransients, .noLamination, .windowLong]
  | 1 => [.detectorSoft, .noLamination, .windowLong]
  | 2 => [.noTransients, .noLamination]
  | 3 => [.noTransients]
  | 4 => [.blTransients]
  | 5 => []
  | _ => [.noLamination, .windowShort]

theorem plain_apply {s t : Settings K} (h : s.plain = t.plain) (o : Opt K) : (s.apply o).plain = (t.apply o).plain := by
  have e : ∀ s : Settings K, (s.apply o).plain = (s.plain.apply o).plain := fun s => by cases o <;> rfl
  rw [e s, e t, h]

theorem plain_shaping (s : Settings K) {o : Opt K} (h : o.shaping = true) : (s.apply o).plain = s.plain := by
  cases o <;> first | rfl | exact absurd h (by simp [Opt.shaping])

theorem plain_filter (opts : List (Opt K)) : ∀ s t : Settings K, s.plain = t.plain → (opts.foldl Settings.apply s).plain = ((opts.filter fun o => !o.shaping).foldl Settings.apply t).plain := by
  induction opts with
  | nil => intro s t h; exact h
  | cons o opts ih =>
    intro s t h
    rw [List.foldl_cons]
    cases e : o.shaping with
    | true =>
      rw [List.filter_cons_of_neg (by simp [e])]
      exact ih _ _ ((plain_shaping s e).trans h)
    | false =>
      rw [List.filter_cons_of_pos (by simp [e]), List.foldl_cons]
      exact ih _ _ (plain_apply h o)

theorem plain_flags (l : List (Opt K)) (hl : ∀ o ∈ l, o.shaping = true) (s : Settings K) : (l.foldl Settings.apply s).plain = s.plain := by
  exact fold_same (g := fun s => s.plain) (fun s o ho => plain_shaping s (hl o ho)) s

theorem start_congr (pow : K → K) (name : List Char) {opts opts' : List (Opt K)} (h1 : (settings opts).plain = (settings opts').plain) (h2 : (crisped (settings opts)).shape = (crisped (settings opts')).shape) (files rate frames : Nat) :
    start pow name opts files rate frames = start pow name opts' files rate frames := by
  have hc : (crisped (settings opts)).plain = (crisped (settings opts')).plain := by rw [crisped_plain, crisped_plain, h1]
  have hw : ∀ f r, word f r (crisped (settings opts)) = word f r (crisped (settings opts')) := by
    intro f r
    generalize crisped (settings opts) = s at hc h2
    generalize crisped (settings opts') = t at hc h2
    cases s
    cases t
    simp only [Settings.plain, Settings.shape, Settings.mk.injEq, Prod.mk.injEq] at hc h2
    simp only [word, hc, h2]
  unfold start
  simp only [hw]
  generalize crisped (settings opts') = c
  generalize settings opts = s at h1
  generalize settings opts' = t at h1
  cases s
  cases t
  simp only [Settings.plain, Settings.mk.injEq] at h1
  simp only [useFiner, h1]

/-- **C133**: the last crispness level given, from 0 to 6, does the same as the options that it stands for in the help, whatever options for transients, lamination, windows and detectors are given besides. -/
theorem C133 (pow : K → K) (name : List Char) {opts a b : List (Opt K)} {n : Nat} (hn : n ≤ 6) (e : opts = a ++ .crisp n :: b) (hb : ∀ k, .crisp k ∉ b) (files rate frames : Nat) :
    start pow name opts files rate frames = start pow name ((opts.filter fun o => !o.shaping) ++ standsFor n) files rate frames := by
  have hs : ∀ o ∈ (standsFor n : List (Opt K)), o.shaping = true := by
    intro o ho
    rcases n with _ | _ | _ | _ | _ | _ | n <;> simp only [standsFor, List.mem_cons, List.not_mem_nil, or_false] at ho
    · rcases ho with rfl | rfl | rfl <;> rfl
    · rcases ho with rfl | rfl | rfl <;> rfl
    · rcases ho with rfl | rfl <;> rfl
    · subst ho; rfl
    · subst ho; rfl
    · rcases ho with rfl | rfl <;> rfl
  refine start_congr pow name ?_ ?_ files rate frames
  · rw [settings_eq, settings_eq, List.foldl_append, plain_flags _ hs]
    exact plain_filter opts _ _ rfl
  · have hc : (settings opts).crispness = n := by
      rw [e]
      refine fold_last (g := fun s => s.crispness) (fun s => rfl) fun s o ho => ?_
      cases o with
      | crisp k => exact absurd ho (hb k)
      | _ => rfl
    have h0 : ∀ l : List (Opt K), (∀ o ∈ l, o.shaping = false) → (l.foldl Settings.apply start₀ : Settings K).shape = (true, false, false, .all, .compound) ∧ (l.foldl Settings.apply start₀ : Settings K).crispness = -1 := by
      intro l hl
      refine ⟨fold_same (g := fun s => s.shape) (fun s o ho => ?_) start₀, fold_same (g := fun s => s.crispness) (fun s o ho => ?_) start₀⟩ <;>
      · have := hl o ho
        cases o <;> first | rfl | exact absurd this (by simp [Opt.shaping])
    obtain ⟨f1, f2⟩ := h0 (opts.filter fun o => !o.shaping) (by simp)
    rw [settings_eq (_ ++ _), List.foldl_append]
    generalize (List.foldl Settings.apply start₀ (opts.filter fun o => !o.shaping) : Settings K) = t at f1 f2
    generalize settings opts = s at hc
    simp only [Settings.shape, Prod.mk.injEq] at f1
    obtain ⟨g1, g2, g3, g4, g5⟩ := f1
    have : n = 0 ∨ n = 1 ∨ n = 2 ∨ n = 3 ∨ n = 4 ∨ n = 5 ∨ n = 6 := by omega
    rcases this with rfl | rfl | rfl | rfl | rfl | rfl | rfl <;>
      simp [crisped, hc, standsFor, Settings.apply, f2, Settings.shape, g1, g2, g3, g4, g5]

/-! ## C134 -/

/-- Without the crispness levels. -/
def withoutCrisp (opts : List (Opt K)) : List (Opt K) := opts.filter fun o => match o with
  | .crisp _ => false
  | _ => true

/-- **C134**: the crispness "only has an effect when using the R2 (faster) engine" (main.cpp:316): with the finer engine, it makes no difference to what the engine is told. -/
def C134_statement (K : Type) [Field K] [LinearOrder K] : Prop :=
  ∀ (pow : K → K) (name : List Char) (opts : List (Opt K)) (files rate frames channels : Nat) (r r' : Run K), start pow name opts files rate frames = .run r →
    start pow name (withoutCrisp opts) files rate frames = .run r' → r.options.testBit 29 = true → finerSees r.options rate channels = finerSees r'.options rate channels

/-- Level 6 makes the finer engine use its short window. -/
theorem C134_violated : ¬ C134_statement ℚ := by
  intro h
  obtain ⟨r, hr⟩ := start_of (pow := fun _ : ℚ => 1) (name := "rubberband-r3".toList) (opts := [.time 2, .crisp 6]) (rate := 44100) (frames := 44100) (by simp) (by simp) (by simp) (by simp)
    (by simp) (Or.inl ⟨.time 2, by simp, trivial⟩) (by simp [settings, Settings.apply]) (by decide) (fun _ => by decide)
  obtain ⟨r', hr'⟩ := start_of (pow := fun _ : ℚ => 1) (name := "rubberband-r3".toList) (opts := [.time 2]) (rate := 44100) (frames := 44100) (by simp) (by simp) (by simp) (by simp)
    (by simp) (Or.inl ⟨.time 2, by simp, trivial⟩) (by simp [settings, Settings.apply]) (by decide) (fun _ => by decide)
  have hb : r.options.testBit 29 = true := ((C130 hr).1 (by simp)).mpr ⟨"rubberband".toList, by decide, Or.inl (by decide)⟩
  have e := h _ _ _ _ _ _ 2 r r' hr (by exact hr') hb
  have e : r.options.testBit 20 = r'.options.testBit 20 := congrArg (fun x => x.1.windowShort) e
  have e' : r'.options.testBit 20 ≠ true := fun hc => absurd (((C130 hr').2.2.2.2.2.2.2.2.2.2.2 (by simp)).2.2.1.mp hc) (by simp)
  obtain ⟨_, _, _, _, _, rfl⟩ := start_run hr
  rw [← e, word_bits] at e'
  exact e' (by simp [settings, Settings.apply, crisped])

/-- **C134 (partial)**: it makes none if it is not level 6 and `--window-short` is not given (which the levels override).  Missing: those (`C134_violated`). -/
theorem C134_partial {pow : K → K} {name : List Char} {opts : List (Opt K)} {files rate frames : Nat} {r r' : Run K} (h : start pow name opts files rate frames = .run r)
    (h' : start pow name (withoutCrisp opts) files rate frames = .run r') (h6 : .crisp 6 ∉ opts) (hw : .windowShort ∉ opts) (channels : Nat) : finerSees r.options rate channels = finerSees r'.options rate channels := by
  obtain ⟨_, _, _, _, _, rfl⟩ := start_run h
  obtain ⟨_, _, _, _, _, rfl⟩ := start_run h'
  have hp : (settings opts).plain = (settings (withoutCrisp opts)).plain := by
    have : ∀ (l : List (Opt K)) (s t : Settings K), s.plain = t.plain → (l.foldl Settings.apply s).plain = ((withoutCrisp l).foldl Settings.apply t).plain := by
      intro l
      induction l with
      | nil => intro s t h; exact h
      | cons o l ih =>
        intro s t h
        rw [List.foldl_cons]
        cases o with
        | crisp n => exact ih _ _ h
        | _ => exact ih _ _ (plain_apply h _)
    exact this opts _ _ rfl
  have hs : ∀ s : Settings K, s.crispness ≠ 6 → s.shortwin = false → (crisped s).shortwin = false := by
    intro s h1 h2
    unfold crisped
    iterate 7 (split; · first | rfl | exact h2)
    exact h2
  have s1 : (crisped (settings opts)).shortwin = false := by
    refine hs _ ?_ (by rw [← Bool.not_eq_true, shortwin_iff]; exact hw)
    exact fold_inv (g := fun s => s.crispness ≠ 6) (opts := opts) (fun s o ho hs => by
      cases o with
      | crisp n => intro e; exact h6 (by rw [← show n = 6 from e]; exact ho)
      | _ => exact hs) start₀ (show (-1 : Int) ≠ 6 by decide)
  have s2 : (crisped (settings (withoutCrisp opts))).shortwin = false := by
    refine hs _ ?_ (by rw [← Bool.not_eq_true, shortwin_iff]; exact fun hm => hw (List.mem_filter.mp hm).1)
    exact fold_inv (g := fun s => s.crispness ≠ 6) (opts := withoutCrisp opts) (fun s o ho hs => by
      cases o with
      | crisp n => exact absurd (List.mem_filter.mp ho).2 (by simp)
      | _ => exact hs) start₀ (show (-1 : Int) ≠ 6 by decide)
  have hq : (crisped (settings opts)).plain = (crisped (settings (withoutCrisp opts))).plain := by rw [crisped_plain, crisped_plain, hp]
  have q1 : (crisped (settings opts)).formant = (crisped (settings (withoutCrisp opts))).formant := by have := congrArg Settings.formant hq; exact this
  have q2 : (crisped (settings opts)).together = (crisped (settings (withoutCrisp opts))).together := by have := congrArg Settings.together hq; exact this
  have q3 : (crisped (settings opts)).mapSpecified = (crisped (settings (withoutCrisp opts))).mapSpecified := by have := congrArg Settings.mapSpecified hq; exact this
  have q4 : (crisped (settings opts)).hqpitch = (crisped (settings (withoutCrisp opts))).hqpitch := by have := congrArg Settings.hqpitch hq; exact this
  have q5 : (settings opts).realtime = (settings (withoutCrisp opts)).realtime := by have := congrArg Settings.realtime hp; exact this
  have q6 : (settings opts).mapSpecified = (settings (withoutCrisp opts)).mapSpecified := by have := congrArg Settings.mapSpecified hp; exact this
  unfold finerSees
  simp only [word_bits, s1, s2, q1, q2, q3, q4, q5, q6]
  simp

/-! ## C135 -/

/-- The options that set the same thing. -/
def Opt.slot : Opt K → Option Nat
  | .duration _ => some 0
  | .pitch _ => some 1
  | .frequency _ => some 2
  | .debug _ => some 3
  | .noThreads | .threads => some 4
  | .noTransients | .blTransients => some 5
  | .detectorPerc | .detectorSoft => some 6
  | .crisp _ => some 7
  | .timemap _ => some 8
  | .freqmap _ => some 9
  | .pitchmap _ => some 10
  | _ => none

theorem apply_comm (s : Settings K) {x y : Opt K} (h : x.slot = y.slot → x.slot ≠ none → x = y) : (s.apply x).apply y = (s.apply y).apply x := by
  cases x <;> cases y <;> first | rfl | (have := h rfl (Option.some_ne_none _); first | (cases this; rfl) | cases this) | (simp only [Settings.apply]; congr 1; ring)

/-- **C135**: the order of the options makes no difference, if no two different ones set the same thing. -/
theorem C135 (pow : K → K) (name : List Char) {opts opts' : List (Opt K)} (hp : opts.Perm opts') (h : ∀ x ∈ opts, ∀ y ∈ opts, x.slot = y.slot → x.slot ≠ none → x = y) (files rate frames : Nat) :
    start pow name opts files rate frames = start pow name opts' files rate frames := by
  have : settings opts = settings opts' := hp.foldl_eq' (fun x hx y hy s => apply_comm s (h x hx y hy)) _
  unfold start
  rw [this]

/-! ## Examples -/

/-- C130, C131, C132, C134, C135: the utility starts. -/
example : ∃ r, start (fun _ : ℚ => 1) "rubberband-r3".toList [.noThreads, .tempos 90 120, .pitch 2, .threads, .fast, .fine, .formant, .pitchmap "p".toList, .pitchHq, .windowLong] 2 44100 44100 = .run r ∧ r.ratio = 3 / 4 ∧
    r.options.testBit 29 = true ∧ r.options.testBit 25 = false ∧ r.options.testBit 17 = true := by
  obtain ⟨r, hr⟩ := start_of (pow := fun _ : ℚ => 1) (name := "rubberband-r3".toList) (opts := [.noThreads, .tempos 90 120, .pitch 2, .threads, .fast, .fine, .formant, .pitchmap "p".toList, .pitchHq, .windowLong])
    (rate := 44100) (frames := 44100) (by simp) (by simp) (by simp) (by simp) (by simp) (Or.inl ⟨.tempos 90 120, by simp, trivial⟩)
    (by simp [settings, Settings.apply, temposConvert]) (by decide) (fun _ => by decide)
  refine ⟨r, hr, ?_⟩
  obtain ⟨_, _, _, _, _, rfl⟩ := start_run hr
  refine ⟨?_, ?_, ?_, ?_⟩
  · simp [settings, Settings.apply, temposConvert, finalRatio]; try norm_num
  · rw [word_bits]; simp [settings, Settings.apply, useFiner, isR3]
  · rw [word_bits]; simp [settings, Settings.apply, useFiner, isR3, crisped]
  · rw [word_bits]; simp [settings, Settings.apply, useFiner, isR3, crisped]

/-- C133: the level after options that it overrides. -/
example : (([.windowShort, .crisp 2, .smoothing, .crisp 0, .time 2] : List (Opt ℚ)).filter fun o => !o.shaping) ++ standsFor 0 = [.smoothing, .time 2, .noTransients, .noLamination, .windowLong] := by decide

end Verif.CliOptions
