import Verif.AudioCurveLemmas
/-!
# Properties of the detection functions of the faster engine: C86 to C89
-/
namespace Verif.AudioCurve
open Verif.MovingMedian

variable {K : Type} [Field K] [LinearOrder K] [IsStrictOrderedRing K]

/-! ## C86 -/

theorem zeroThresh_pos : (0 : K) < zeroThresh := by unfold zeroThresh; positivity

/-- A bin that has risen is sounding. -/
theorem risen_le {th : K} (hth : 1 ≤ th) (bins : Nat) (prev mag : Nat → K) : risen th bins prev mag ≤ sounding bins mag := by
  refine List.countP_mono_left fun i _ h => ?_
  rw [decide_eq_true_iff] at h ⊢
  unfold rise at h
  split at h
  · rename_i hp
    have h0 : (0 : K) < prev (i + 1) := zeroThresh_pos.trans hp
    have := (le_div_iff₀ h0).mp h
    have h2 : 1 * prev (i + 1) ≤ th * prev (i + 1) := mul_le_mul_of_nonneg_right hth h0.le
    exact lt_of_lt_of_le hp (by linarith)
  · split at h
    · assumption
    · have : th ≤ 0 := h
      linarith

theorem percussive_bounds {th : K} (hth : 1 ≤ th) (bins : Nat) (prev mag : Nat → K) : 0 ≤ percussive th bins prev mag ∧ percussive th bins prev mag ≤ 1 := by
  unfold percussive
  split
  · exact ⟨le_rfl, zero_le_one⟩
  · rename_i h
    have hs : (0 : K) < (sounding bins mag : K) := by exact_mod_cast Nat.pos_of_ne_zero h
    refine ⟨by positivity, ?_⟩
    rw [div_le_one hs]
    exact_mod_cast risen_le hth bins prev mag

/-- What a curve may return. -/
def Range (k : Kind) (v : K) : Prop := 0 ≤ v ∧ v ≤ 1 ∧ (k ≠ .percussive → v = 0 ∨ v = 1 / 2 ∨ 7 / 20 < v) ∧ (k = .soft → v = 0 ∨ v = 1 / 2)

theorem fallen_values (x y : K) (n : Nat) : fallen x y n = 0 ∨ fallen x y n = 1 / 2 := by
  unfold fallen
  split
  · exact Or.inr rfl
  · exact Or.inl rfl

theorem merged_range {k : Kind} {p rv : K} (h0 : 0 ≤ p) (h1 : p ≤ 1) (h2 : rv = 0 ∨ rv = 1 / 2) (hk : k ≠ .percussive) : Range k (merged k p rv) := by
  unfold merged
  split
  · rename_i h
    exact ⟨h0, h1, fun _ => Or.inr (Or.inr h.2.1), fun e => by rw [h.1] at e; exact absurd e (by decide)⟩
  · rcases h2 with rfl | rfl
    · exact ⟨le_rfl, zero_le_one, fun _ => Or.inl rfl, fun _ => Or.inl rfl⟩
    · exact ⟨by norm_num, by norm_num, fun _ => Or.inr (Or.inl rfl), fun _ => Or.inr rfl⟩

theorem process_range {th : K} (hth : 1 ≤ th) (a : Held K) (mag : Nat → K) : Range a.kind (a.process th mag).2 := by
  have hb := percussive_bounds hth a.bins a.prevMag mag
  unfold Held.process
  split
  · rename_i e
    exact ⟨hb.1, hb.2, fun h => absurd e h, fun h => by rw [e] at h; exact absurd h (by decide)⟩
  · rename_i e
    exact merged_range (k := a.kind) hb.1 hb.2 (fallen_values _ _ _) (by rw [e]; decide)
  · rename_i e
    exact merged_range (k := a.kind) le_rfl zero_le_one (fallen_values _ _ _) (by rw [e]; decide)

theorem process_kind (th : K) (a : Held K) (mag : Nat → K) : (a.process th mag).1.kind = a.kind := by
  unfold Held.process
  split <;> rfl

theorem process_percussive (th : K) {a : Held K} (e : a.kind = .percussive) (mag : Nat → K) :
    a.process th mag = ({ a with prevMag := remembered a.bins a.prevMag mag }, percussive th a.bins a.prevMag mag) := by
  unfold Held.process
  split <;> rename_i h <;> first | rfl | (rw [e] at h; exact absurd h (by decide))

theorem process_compound (th : K) {a : Held K} (e : a.kind = .compound) (mag : Nat → K) :
    a.process th mag = Held.filter { a with prevMag := remembered a.bins a.prevMag mag } (percussive th a.bins a.prevMag mag) (highFrequency a.bins mag) := by
  unfold Held.process
  split <;> rename_i h <;> first | rfl | (rw [e] at h; exact absurd h (by decide))

theorem process_soft (th : K) {a : Held K} (e : a.kind = .soft) (mag : Nat → K) : a.process th mag = a.filter 0 (highFrequency a.bins mag) := by
  unfold Held.process
  split <;> rename_i h <;> first | rfl | (rw [e] at h; exact absurd h (by decide))

theorem Kind.all (k : Kind) : k = .percussive ∨ k = .compound ∨ k = .soft := by cases k <;> decide

/-- The number of frames. -/
def frames (cs : List (Op K)) : Nat := cs.countP fun c => match c with | .process _ => true | _ => false

/-- **C86.**  Whatever the calls, with frames of any magnitudes, nothing is read outside the filters, there is one value for each frame, and it lies between 0 and 1; if only the compound and soft
detectors were ever chosen, it is 0, 1/2 or above 0.35. -/
theorem C86_range {th : K} (hth : 1 ≤ th) (rate fftSize : Nat) (cs : List (Op K)) :
    ∃ s outs, run th (create rate fftSize) cs = some (s, outs) ∧ outs.length = frames cs ∧ (∀ v ∈ outs, 0 ≤ v ∧ v ≤ 1) ∧
      (Op.setType .percussive ∉ cs → ∀ v ∈ outs, v = 0 ∨ v = 1 / 2 ∨ 7 / 20 < v) := by
  obtain ⟨s, h1, _⟩ := holds_run th cs (holds_create (K := K) rate fftSize)
  refine ⟨s, _, h1, ?_⟩
  clear h1
  have key : ∀ (cs : List (Op K)) (a : Held K), (a.run th cs).2.length = frames cs ∧ (∀ v ∈ (a.run th cs).2, 0 ≤ v ∧ v ≤ 1) ∧
      (a.kind ≠ .percussive → Op.setType .percussive ∉ cs → ∀ v ∈ (a.run th cs).2, v = 0 ∨ v = 1 / 2 ∨ 7 / 20 < v) := by
    intro cs
    induction cs with
    | nil => intro a; exact ⟨rfl, by simp [Held.run], by simp [Held.run]⟩
    | cons c cs ih =>
      intro a
      obtain ⟨i1, i2, i3⟩ := ih (a.step th c).1
      cases c with
      | process mag =>
        have hr := process_range hth a mag
        refine ⟨?_, ?_, ?_⟩
        · show ([_] ++ _ : List K).length = _
          rw [List.length_append, i1]
          unfold frames
          rw [List.countP_cons]
          simp only [List.length_singleton, if_true]
          omega
        · intro v hv
          rcases List.mem_cons.mp hv with rfl | hv
          · exact ⟨hr.1, hr.2.1⟩
          · exact i2 v hv
        · intro hk hn v hv
          rcases List.mem_cons.mp hv with rfl | hv
          · exact hr.2.2.1 hk
          · exact i3 (by show (a.process th mag).1.kind ≠ _; rw [process_kind]; exact hk) (fun h => hn (List.mem_cons_of_mem _ h)) v hv
      | reset => exact ⟨i1, i2, fun hk hn => i3 hk fun h => hn (List.mem_cons_of_mem _ h)⟩
      | setFftSize n => exact ⟨i1, i2, fun hk hn => i3 hk fun h => hn (List.mem_cons_of_mem _ h)⟩
      | setType k =>
        refine ⟨i1, i2, fun hk hn => i3 ?_ fun h => hn (List.mem_cons_of_mem _ h)⟩
        rintro rfl
        exact hn (List.mem_cons_self ..)
  obtain ⟨a1, a2, a3⟩ := key cs (Held.create rate fftSize)
  exact ⟨a1, a2, a3 (by intro h; cases h)⟩

/-- For examples: a frame with a magnitude in bin 1. -/
def Ex.tone (x : Rat) : Op Rat := .process fun i => if i = 1 then x else 0

/-- A frame is loud after silence, and then fading. -/
example : ((run (3 / 2) (create 2 4) [Ex.tone 0, Ex.tone 1, Ex.tone 2, Ex.tone (5 / 2), Ex.tone 2]).map fun x => x.2) = some [0, 1, 1, 0, 0] := by decide +kernel

/-! ## C87 -/

/-- Whether a call only sets something. -/
def Op.setting : Op K → Bool
  | .setFftSize _ => true
  | .setType _ => true
  | _ => false

/-- **C87** in full: after a reset, all values are as if there had not been any audio before. -/
def C87_statement : Prop :=
  ∀ (th : Rat), 1 < th → ∀ (rate fftSize : Nat) (before : List (Op Rat)) (mags : List (Nat → Rat)) (s s₀ : Curve Rat) (o o₀ : List Rat) (x y : Curve Rat × List Rat),
    run th (create rate fftSize) before = some (s, o) → run th (create rate fftSize) (before.filter Op.setting) = some (s₀, o₀) →
    run th (reset s) (mags.map .process) = some x → run th s₀ (mags.map .process) = some y → x.2 = y.2

theorem C87_violated : ¬ C87_statement := by
  intro h
  have hrun : (run (3 / 2) (create 2 4) (List.replicate 5 (Ex.tone 0))).bind (fun x => (run (3 / 2) (reset x.1) [Ex.tone 1, Ex.tone 4, Ex.tone 4]).bind fun y =>
      (run (3 / 2) (create 2 4) [Ex.tone 1, Ex.tone 4, Ex.tone 4]).map fun z => (y.2, z.2)) = some ([1, 1, 1 / 2], [1, 1, 0]) := by decide +kernel
  obtain ⟨⟨s, o⟩, h1, hrun⟩ := Option.bind_eq_some_iff.mp hrun
  obtain ⟨y, h2, hrun⟩ := Option.bind_eq_some_iff.mp hrun
  obtain ⟨z, h3, hrun⟩ := Option.map_eq_some_iff.mp hrun
  have := h (3 / 2) (by norm_num) 2 4 (List.replicate 5 (Ex.tone 0)) [fun i => if i = 1 then 1 else 0, fun i => if i = 1 then 4 else 0, fun i => if i = 1 then 4 else 0] s (create 2 4) o [] y z h1 rfl h2 h3
  rw [Prod.mk.injEq] at hrun
  rw [hrun.1, hrun.2] at this
  exact absurd this (by decide +kernel)

/-- The settings after some calls are those after the settings among them. -/
theorem settings_same (th : K) : ∀ (cs : List (Op K)) (a b : Held K), a.kind = b.kind → a.rate = b.rate → a.bins = b.bins →
    (a.run th cs).1.kind = (b.run th (cs.filter Op.setting)).1.kind ∧ (a.run th cs).1.rate = (b.run th (cs.filter Op.setting)).1.rate ∧
      (a.run th cs).1.bins = (b.run th (cs.filter Op.setting)).1.bins := by
  intro cs
  induction cs with
  | nil => intro a b h1 h2 h3; exact ⟨h1, h2, h3⟩
  | cons c cs ih =>
    intro a b h1 h2 h3
    cases c with
    | process mag =>
      refine ih _ _ ?_ ?_ ?_
      · show (a.process th mag).1.kind = _
        rw [process_kind, h1]
      · rw [← h2]
        show (a.process th mag).1.rate = _
        unfold Held.process
        split <;> rfl
      · rw [← h3]
        show (a.process th mag).1.bins = _
        unfold Held.process
        split <;> rfl
    | reset => exact ih _ _ h1 h2 h3
    | setFftSize n => exact ih _ _ h1 h2 (by show lastPerceivedBin a.rate n = lastPerceivedBin b.rate n; rw [h2])
    | setType k => exact ih _ _ rfl h2 h3

/-- Nothing has been heard. -/
structure Unheard (a : Held K) : Prop where
  prevMag : a.prevMag = fun _ => 0
  hfs : a.hfs = []
  derivs : a.derivs = []
  lastHf : a.lastHf = 0
  lastResult : a.lastResult = 0
  risingCount : a.risingCount = 0

theorem settings_unheard (th : K) : ∀ (cs : List (Op K)) (a : Held K), Unheard a → Unheard (a.run th (cs.filter Op.setting)).1 := by
  intro cs
  induction cs with
  | nil => intro a h; exact h
  | cons c cs ih =>
    intro a h
    cases c with
    | process mag => exact ih a h
    | reset => exact ih a h
    | setFftSize n => exact ih _ ⟨rfl, h.hfs, h.derivs, rfl, rfl, h.risingCount⟩
    | setType k => exact ih _ ⟨h.prevMag, h.hfs, h.derivs, h.lastHf, h.lastResult, h.risingCount⟩

/-- The same but for the counter; that is the same too, or at least `k` in both. -/
structure Near (k : Nat) (a b : Held K) : Prop where
  same : a = { b with risingCount := a.risingCount }
  count : a.risingCount = b.risingCount ∨ k ≤ a.risingCount ∧ k ≤ b.risingCount

theorem Near.process {th : K} {k : Nat} {a b : Held K} (h : Near k a b) (hk : b.kind ≠ .percussive) (mag : Nat → K) :
    Near (k + 1) (a.process th mag).1 (b.process th mag).1 ∧ (4 ≤ k → (a.process th mag).2 = (b.process th mag).2) := by
  obtain ⟨e, hc⟩ := h
  generalize a.risingCount = n at e hc
  subst e
  have key : ∀ (b : Held K) (p hf : K), (n = b.risingCount ∨ k ≤ n ∧ k ≤ b.risingCount) →
      Near (k + 1) (Held.filter { b with risingCount := n } p hf).1 (b.filter p hf).1 ∧ (4 ≤ k → (Held.filter { b with risingCount := n } p hf).2 = (b.filter p hf).2) := by
    intro b p hf hc
    refine ⟨⟨rfl, ?_⟩, ?_⟩
    · show (if b.result hf < b.lastResult then 0 else n + 1) = (if b.result hf < b.lastResult then 0 else b.risingCount + 1) ∨ _ ≤ (if b.result hf < b.lastResult then 0 else n + 1) ∧
        _ ≤ (if b.result hf < b.lastResult then 0 else b.risingCount + 1)
      split
      · exact Or.inl rfl
      · omega
    · intro h4
      show merged b.kind p (fallen (b.result hf) b.lastResult n) = merged b.kind p (fallen (b.result hf) b.lastResult b.risingCount)
      congr 1
      unfold fallen
      rcases hc with rfl | ⟨c1, c2⟩
      · rfl
      · have t1 : n > 3 := by omega
        have t2 : b.risingCount > 3 := by omega
        simp only [t1, t2]
  rcases Kind.all b.kind with e | e | e
  · exact absurd e hk
  · have := key { b with prevMag := remembered b.bins b.prevMag mag } (percussive th b.bins b.prevMag mag) (highFrequency b.bins mag) hc
    rw [process_compound th (a := { b with risingCount := n }) e, process_compound th e]
    exact this
  · have := key b 0 (highFrequency b.bins mag) hc
    rw [process_soft th (a := { b with risingCount := n }) e, process_soft th e]
    exact this

theorem near_run {th : K} : ∀ (mags : List (Nat → K)) {k : Nat} {a b : Held K}, Near k a b → b.kind ≠ .percussive →
    (a.run th (mags.map .process)).2.drop (4 - k) = (b.run th (mags.map .process)).2.drop (4 - k) := by
  intro mags
  induction mags with
  | nil => intro k a b _ _; rfl
  | cons mag mags ih =>
    intro k a b h hk
    obtain ⟨h1, h2⟩ := h.process (th := th) hk mag
    have := ih h1 (by rw [process_kind]; exact hk)
    show ((a.process th mag).2 :: (Held.run th (a.process th mag).1 _).2).drop _ = ((b.process th mag).2 :: (Held.run th (b.process th mag).1 _).2).drop _
    by_cases h4 : 4 ≤ k
    · rw [show 4 - (k + 1) = 0 by omega] at this
      rw [show 4 - k = 0 by omega, h2 h4]
      simp only [List.drop_zero] at this ⊢
      rw [this]
    · rw [show 4 - k = (4 - (k + 1)) + 1 by omega, List.drop_succ_cons, List.drop_succ_cons, this]

theorem percussive_run {th : K} : ∀ (mags : List (Nat → K)) {a b : Held K}, a = { b with risingCount := a.risingCount } → b.kind = .percussive →
    (a.run th (mags.map .process)).2 = (b.run th (mags.map .process)).2 := by
  intro mags
  induction mags with
  | nil => intro a b _ _; rfl
  | cons mag mags ih =>
    intro a b h hk
    generalize a.risingCount = n at h
    subst h
    have e1 : Held.process th { b with risingCount := n } mag = ({ b with prevMag := remembered b.bins b.prevMag mag, risingCount := n }, percussive th b.bins b.prevMag mag) := by
      unfold Held.process
      simp only [hk]
    have e2 : Held.process th b mag = ({ b with prevMag := remembered b.bins b.prevMag mag }, percussive th b.bins b.prevMag mag) := by
      unfold Held.process
      simp only [hk]
    show (Held.process th { b with risingCount := n } mag).2 :: (Held.run th (Held.process th { b with risingCount := n } mag).1 _).2 =
      (b.process th mag).2 :: (Held.run th (b.process th mag).1 _).2
    rw [e1, e2]
    simp only
    rw [ih (a := { b with prevMag := remembered b.bins b.prevMag mag, risingCount := n }) (b := { b with prevMag := remembered b.bins b.prevMag mag }) rfl hk]

/-- **C87 (partial).**  After a reset, all values but the first four are as if there had not been any audio before; with the percussive detector these too.  (What is missing are the first four, with the
compound and the soft detector: the number of frames for which the curve was rising is kept.) -/
theorem C87_partial (th : K) (rate fftSize : Nat) (before : List (Op K)) (mags : List (Nat → K)) :
    ∃ s s₀ o o₀ x y, run th (create rate fftSize) before = some (s, o) ∧ run th (create rate fftSize) (before.filter Op.setting) = some (s₀, o₀) ∧
      run th (reset s) (mags.map .process) = some x ∧ run th s₀ (mags.map .process) = some y ∧ x.2.drop 4 = y.2.drop 4 ∧ (s.kind = .percussive → x.2 = y.2) := by
  obtain ⟨s, h1, h2⟩ := holds_run th before (holds_create (K := K) rate fftSize)
  obtain ⟨s₀, h3, h4⟩ := holds_run th (before.filter Op.setting) (holds_create (K := K) rate fftSize)
  obtain ⟨k1, k2, k3⟩ := settings_same th before (Held.create rate fftSize) (Held.create rate fftSize) rfl rfl rfl
  have hu := settings_unheard th before (Held.create rate fftSize : Held K) ⟨rfl, rfl, rfl, rfl, rfl, rfl⟩
  generalize (Held.run th (Held.create rate fftSize) before) = a at *
  generalize (Held.run th (Held.create rate fftSize) (before.filter Op.setting)) = b at *
  obtain ⟨r, h5, h6⟩ := holds_step th h2 .reset
  cases h5
  obtain ⟨x, h7, _⟩ := holds_run th (mags.map .process) h6
  obtain ⟨y, h8, _⟩ := holds_run th (mags.map .process) h4
  have hn : (a.1.step th .reset).1 = { b.1 with risingCount := (a.1.step th .reset).1.risingCount } := by
    unfold Held.step
    simp only [k1, k2, k3, hu.prevMag, hu.hfs, hu.derivs, hu.lastHf, hu.lastResult]
  refine ⟨s, s₀, _, _, _, _, h1, h3, h7, h8, ?_, ?_⟩
  · by_cases hk : b.1.kind = .percussive
    · simp only
      rw [percussive_run mags hn hk]
    · exact near_run (k := 0) mags ⟨hn, Or.inr ⟨by omega, by omega⟩⟩ hk
  · intro hk
    exact percussive_run mags hn (by rw [← k1, ← h2.kind]; exact hk)

/-- The values before and after a reset. -/
example : ((run (3 / 2) (create 2 4) [Ex.tone 1, Ex.tone 4, Ex.tone 4, .reset, .setFftSize 8, Ex.tone 1, Ex.tone 4, Ex.tone 4]).map fun x => x.2) = some [1, 1, 0, 1, 1, 0] := by decide +kernel

/-! ## C88 -/

/-- The same call for audio multiplied by `g`. -/
def Op.louder (g : K) : Op K → Op K
  | .process mag => .process fun i => g * mag i
  | c => c

/-- **C88** in full: the level of the audio does not matter. -/
def C88_statement : Prop :=
  ∀ (th g : Rat), 1 < th → 0 < g → ∀ (rate fftSize : Nat) (cs : List (Op Rat)) (x y : Curve Rat × List Rat),
    run th (create rate fftSize) cs = some x → run th (create rate fftSize) (cs.map (Op.louder g)) = some y → x.2 = y.2

theorem C88_violated : ¬ C88_statement := by
  intro h
  have hrun : (run (3 / 2) (create 2 4) [Ex.tone 1]).bind (fun x => (run (3 / 2) (create 2 4) [Ex.tone (1 / 1000000000)]).map fun y => (x.2, y.2)) = some ([1], [0]) := by decide +kernel
  obtain ⟨x, h1, hrun⟩ := Option.bind_eq_some_iff.mp hrun
  obtain ⟨y, h2, hrun⟩ := Option.map_eq_some_iff.mp hrun
  have e : [Ex.tone (1 / 1000000000)] = [Ex.tone 1].map (Op.louder (1 / 1000000000)) := by
    simp only [List.map_cons, List.map_nil, Ex.tone, Op.louder]
    congr 2
    funext i
    split <;> simp
  rw [e] at h2
  have := h (3 / 2) (1 / 1000000000) (by norm_num) (by norm_num) 2 4 _ x y h1 h2
  rw [Prod.mk.injEq] at hrun
  rw [hrun.1, hrun.2] at this
  exact absurd this (by decide +kernel)

/-- On the same side of the threshold. -/
def Side (g x : K) : Prop := zeroThresh < x ↔ zeroThresh < g * x

/-- The state for audio multiplied by `g`. -/
def Held.louder (g : K) (a : Held K) : Held K :=
  { a with
    prevMag := fun i => g * a.prevMag i
    hfs := a.hfs.map (g * ·)
    derivs := a.derivs.map (g * ·)
    lastHf := g * a.lastHf
    lastResult := g * a.lastResult }

theorem rise_louder {th g x y : K} (hg : 0 < g) (hx : Side g x) (hy : Side g y) : rise th (g * x) (g * y) = rise th x y := by
  unfold rise
  by_cases h1 : zeroThresh < x
  · rw [if_pos (hx.mp h1), if_pos h1, mul_div_mul_left _ _ hg.ne']
  · rw [if_neg (fun h => h1 (hx.mpr h)), if_neg h1]
    exact if_congr hy.symm rfl rfl

theorem percussive_louder {th g : K} (hg : 0 < g) (bins : Nat) {prev mag : Nat → K} (hp : ∀ i, Side g (prev i)) (hm : ∀ i, Side g (mag i)) :
    percussive th bins (fun i => g * prev i) (fun i => g * mag i) = percussive th bins prev mag := by
  have e1 : risen th bins (fun i => g * prev i) (fun i => g * mag i) = risen th bins prev mag := by
    unfold risen
    simp only [rise_louder hg (hp _) (hm _)]
  have e2 : sounding bins (fun i => g * mag i) = sounding bins mag := by
    unfold sounding
    congr 1
    funext i
    exact decide_eq_decide.mpr (hm (i + 1)).symm
  unfold percussive
  rw [e1, e2]

theorem highFrequency_louder (g : K) (bins : Nat) (mag : Nat → K) : highFrequency bins (fun i => g * mag i) = g * highFrequency bins mag := by
  unfold highFrequency
  generalize List.range (bins + 1) = l
  induction l with
  | nil => simp
  | cons i l ih =>
    rw [List.map_cons, List.map_cons, List.sum_cons, List.sum_cons, ih]
    ring

theorem pushed_louder (g : K) (w : List K) (x : K) : pushed (w.map (g * ·)) (g * x) = (pushed w x).map (g * ·) := by
  unfold pushed
  rw [List.length_map, List.map_append]
  split <;> simp [List.map_tail]

theorem excess_louder {g : K} (hg : 0 < g) (a b c d : K) : excess (g * a) (g * b) (g * c) (g * d) = g * excess a b c d := by
  unfold excess
  rw [← mul_sub, ← mul_sub]
  by_cases h : a - b > 0
  · rw [if_pos h, if_pos (mul_pos hg h)]
  · rw [if_neg h, if_neg (fun h' => h ((mul_pos_iff_of_pos_left hg).mp h')), mul_zero]

theorem result_louder {g : K} (hg : 0 < g) (a : Held K) (hf : K) : (a.louder g).result (g * hf) = g * a.result hf := by
  unfold Held.result Held.louder
  simp only
  rw [← mul_sub, pushed_louder, pushed_louder, pct_scale (by norm_num) (pushed_ne _ _) hg, pct_scale (by norm_num) (pushed_ne _ _) hg, excess_louder hg]

theorem filter_louder {g : K} (hg : 0 < g) (a : Held K) (p hf : K) : (a.louder g).filter p (g * hf) = ((a.filter p hf).1.louder g, (a.filter p hf).2) := by
  unfold Held.filter
  rw [result_louder hg]
  have e : (g * a.result hf < (a.louder g).lastResult) = (a.result hf < a.lastResult) := by
    show (g * a.result hf < g * a.lastResult) = _
    rw [mul_lt_mul_iff_right₀ hg]
  have e2 : fallen (g * a.result hf) (a.louder g).lastResult (a.louder g).risingCount = fallen (a.result hf) a.lastResult a.risingCount := by
    show fallen (g * a.result hf) (g * a.lastResult) a.risingCount = _
    unfold fallen
    refine if_congr ?_ rfl rfl
    rw [mul_lt_mul_iff_right₀ hg]
    exact and_congr_right fun _ => and_congr_right fun _ => mul_pos_iff_of_pos_left hg
  rw [e2]
  refine Prod.ext ?_ rfl
  simp only [e]
  unfold Held.louder
  simp only
  rw [pushed_louder, ← mul_sub, pushed_louder]

theorem reset_louder (th g : K) (a : Held K) : ((a.louder g).step th .reset).1 = (a.step th .reset).1.louder g := by
  unfold Held.louder Held.step
  simp

theorem setFftSize_louder (th g : K) (a : Held K) (n : Nat) : ((a.louder g).step th (.setFftSize n)).1 = (a.step th (.setFftSize n)).1.louder g := by
  unfold Held.louder Held.step
  simp

/-- **C88 (partial)**, the soft detector: the level of the audio does not matter. -/
theorem C88_soft_partial (th : K) {g : K} (hg : 0 < g) (rate fftSize : Nat) (cs : List (Op K)) (hcs : ∀ k, Op.setType k ∉ cs) :
    ∃ x y, run th (setType (create rate fftSize) .soft) cs = some x ∧ run th (setType (create rate fftSize) .soft) (cs.map (Op.louder g)) = some y ∧ x.2 = y.2 := by
  obtain ⟨s, h1, h2⟩ := holds_step th (holds_create (K := K) rate fftSize) (.setType .soft)
  cases h1
  obtain ⟨x, h3, _⟩ := holds_run th cs h2
  obtain ⟨y, h4, _⟩ := holds_run th (cs.map (Op.louder g)) h2
  refine ⟨_, _, h3, h4, ?_⟩
  clear h3 h4
  have key : ∀ (cs : List (Op K)), (∀ k, Op.setType k ∉ cs) → ∀ (a : Held K), a.kind = .soft → (a.run th cs).2 = ((a.louder g).run th (cs.map (Op.louder g))).2 := by
    intro cs
    induction cs with
    | nil => intro _ a _; rfl
    | cons c cs ih =>
      intro hcs a ha
      have hcs' : ∀ k, Op.setType k ∉ cs := fun k h => hcs k (List.mem_cons_of_mem _ h)
      cases c with
      | process mag =>
        have e2 : (a.louder g).process th (fun i => g * mag i) = ((a.process th mag).1.louder g, (a.process th mag).2) := by
          rw [process_soft th (a := a.louder g) ha, process_soft th ha]
          show (a.louder g).filter 0 (highFrequency a.bins _) = _
          rw [highFrequency_louder, filter_louder hg]
        show (a.process th mag).2 :: (Held.run th (a.process th mag).1 cs).2 = ((a.louder g).process th (fun i => g * mag i)).2 ::
          (Held.run th ((a.louder g).process th (fun i => g * mag i)).1 (cs.map (Op.louder g))).2
        rw [e2]
        simp only
        rw [ih hcs' _ (by rw [process_kind]; exact ha)]
      | reset =>
        show (Held.run th (a.step th .reset).1 cs).2 = (Held.run th ((a.louder g).step th .reset).1 _).2
        rw [reset_louder]
        exact ih hcs' _ ha
      | setFftSize n =>
        show (Held.run th (a.step th (.setFftSize n)).1 cs).2 = (Held.run th ((a.louder g).step th (.setFftSize n)).1 _).2
        rw [setFftSize_louder]
        exact ih hcs' _ ha
      | setType k => exact absurd (List.mem_cons_self ..) (hcs k)
  have := key cs hcs (Held.step th (Held.create rate fftSize) (.setType .soft)).1 rfl
  refine this.trans ?_
  congr 2
  simp [Held.louder, Held.step, Held.create]

theorem side_zero (g : K) : Side g 0 := by
  unfold Side
  rw [mul_zero]

/-- **C88 (partial)**, all detectors: the level of the audio does not matter as long as no magnitude is on one side of 10^-8 before and on the other after (which is what is missing). -/
theorem C88_partial (th : K) {g : K} (hg : 0 < g) (rate fftSize : Nat) (cs : List (Op K)) (hcs : ∀ mag, Op.process mag ∈ cs → ∀ i, zeroThresh < mag i ↔ zeroThresh < g * mag i) :
    ∃ x y, run th (create rate fftSize) cs = some x ∧ run th (create rate fftSize) (cs.map (Op.louder g)) = some y ∧ x.2 = y.2 := by
  obtain ⟨x, h3, _⟩ := holds_run th cs (holds_create (K := K) rate fftSize)
  obtain ⟨y, h4, _⟩ := holds_run th (cs.map (Op.louder g)) (holds_create (K := K) rate fftSize)
  refine ⟨_, _, h3, h4, ?_⟩
  clear h3 h4
  have key : ∀ (cs : List (Op K)), (∀ mag, Op.process mag ∈ cs → ∀ i, Side g (mag i)) → ∀ (a : Held K), (∀ i, Side g (a.prevMag i)) →
      (a.run th cs).2 = ((a.louder g).run th (cs.map (Op.louder g))).2 := by
    intro cs
    induction cs with
    | nil => intro _ a _; rfl
    | cons c cs ih =>
      intro hcs a ha
      have hcs' : ∀ mag, Op.process mag ∈ cs → ∀ i, Side g (mag i) := fun mag h => hcs mag (List.mem_cons_of_mem _ h)
      cases c with
      | process mag =>
        have hm := hcs mag (List.mem_cons_self ..)
        have hrem : ∀ i, Side g (remembered a.bins a.prevMag mag i) := by
          intro i
          unfold remembered
          split
          · exact hm i
          · exact ha i
        have er : (fun i => g * remembered a.bins a.prevMag mag i) = remembered a.bins (fun i => g * a.prevMag i) (fun i => g * mag i) := by
          funext i
          unfold remembered
          split <;> rfl
        have e2 : (a.louder g).process th (fun i => g * mag i) = ((a.process th mag).1.louder g, (a.process th mag).2) ∧ ∀ i, Side g ((a.process th mag).1.prevMag i) := by
          rcases Kind.all a.kind with e | e | e
          · rw [process_percussive th (a := a.louder g) e, process_percussive th e]
            refine ⟨?_, hrem⟩
            show (_, percussive th a.bins (fun i => g * a.prevMag i) (fun i => g * mag i)) = _
            rw [percussive_louder hg _ ha hm]
            refine Prod.ext ?_ rfl
            unfold Held.louder
            simp only [er]
          · rw [process_compound th (a := a.louder g) e, process_compound th e]
            refine ⟨?_, hrem⟩
            have := filter_louder hg { a with prevMag := remembered a.bins a.prevMag mag } (percussive th a.bins a.prevMag mag) (highFrequency a.bins mag)
            rw [← this]
            show Held.filter _ (percussive th a.bins (fun i => g * a.prevMag i) (fun i => g * mag i)) (highFrequency a.bins fun i => g * mag i) = _
            rw [percussive_louder hg _ ha hm, highFrequency_louder]
            congr 1
            unfold Held.louder
            simp only [er]
          · rw [process_soft th (a := a.louder g) e, process_soft th e]
            refine ⟨?_, ha⟩
            show (a.louder g).filter 0 (highFrequency a.bins _) = _
            rw [highFrequency_louder, filter_louder hg]
        show (a.process th mag).2 :: (Held.run th (a.process th mag).1 cs).2 = ((a.louder g).process th (fun i => g * mag i)).2 ::
          (Held.run th ((a.louder g).process th (fun i => g * mag i)).1 (cs.map (Op.louder g))).2
        rw [e2.1]
        simp only
        rw [ih hcs' _ e2.2]
      | reset =>
        show (Held.run th (a.step th .reset).1 cs).2 = (Held.run th ((a.louder g).step th .reset).1 _).2
        rw [reset_louder]
        exact ih hcs' _ (fun _ => side_zero g)
      | setFftSize n =>
        show (Held.run th (a.step th (.setFftSize n)).1 cs).2 = (Held.run th ((a.louder g).step th (.setFftSize n)).1 _).2
        rw [setFftSize_louder]
        exact ih hcs' _ (fun _ => side_zero g)
      | setType k => exact ih hcs' { a with kind := k } ha
  have := key cs hcs (Held.create rate fftSize) (fun _ => side_zero g)
  refine this.trans ?_
  congr 2
  simp [Held.louder, Held.create]

/-- Frames a hundred times as loud give the same values. -/
example : ((run (3 / 2) (create 2 4) [Ex.tone 1, Ex.tone 2, Ex.tone 5, Ex.tone 3]).map fun x => x.2) = some [1, 1, 1, 0] ∧
    ((run (3 / 2) (create 2 4) [Ex.tone 100, Ex.tone 200, Ex.tone 500, Ex.tone 300]).map fun x => x.2) = some [1, 1, 1, 0] := by decide +kernel

example : ∀ i, (zeroThresh : Rat) < (fun i => if i = 1 then 5 else 0 : Nat → Rat) i ↔ zeroThresh < 100 * (fun i => if i = 1 then 5 else 0 : Nat → Rat) i := by
  intro i
  simp only
  unfold zeroThresh
  split <;> norm_num

/-! ## C89 -/

theorem percussive_steady {th : K} (hth : 1 < th) (bins : Nat) {prev mag : Nat → K} (h : ∀ i, i < bins + 1 → prev i = mag i) : percussive th bins prev mag = 0 := by
  have e : risen th bins prev mag = 0 := by
    unfold risen
    rw [List.countP_eq_zero]
    intro i hi
    rw [List.mem_range] at hi
    rw [decide_eq_true_iff, not_le, h (i + 1) (by omega)]
    unfold rise
    split
    · rename_i h0
      have : (0 : K) < mag (i + 1) := zeroThresh_pos.trans h0
      rw [div_self this.ne']
      exact hth
    · linarith
  unfold percussive
  rw [e]
  split <;> simp

/-- After `j` equal frames. -/
structure Steady (mag : Nat → K) (j : Nat) (a : Held K) : Prop where
  le : a.hfs.length ≤ 19
  prev : 1 ≤ j → a.kind ≠ .soft → ∀ i, i < a.bins + 1 → a.prevMag i = mag i
  held : a.kind ≠ .percussive → ∃ u, a.hfs = u ++ List.replicate (min j 19) (highFrequency a.bins mag)
  settled : a.kind ≠ .percussive → 19 ≤ j → a.lastResult = 0

theorem pushed_replicate {u : List K} {j : Nat} {x : K} (h : (u ++ List.replicate (min j 19) x).length ≤ 19) :
    (pushed (u ++ List.replicate (min j 19) x) x).length ≤ 19 ∧ ∃ v, pushed (u ++ List.replicate (min j 19) x) x = v ++ List.replicate (min (j + 1) 19) x := by
  rw [List.length_append, List.length_replicate] at h
  constructor
  · unfold pushed
    split <;> simp at * <;> omega
  · unfold pushed
    by_cases hf : (u ++ List.replicate (min j 19) x).length = 19
    · rw [if_pos hf]
      rw [List.length_append, List.length_replicate] at hf
      by_cases hj : j < 19
      · have hu : u ≠ [] := by intro e; rw [e] at hf; simp at hf; omega
        refine ⟨u.tail, ?_⟩
        rw [List.tail_append_of_ne_nil hu, show min (j + 1) 19 = min j 19 + 1 by omega, List.replicate_succ', List.append_assoc]
      · have hu : u = [] := List.length_eq_zero_iff.mp (by omega)
        subst hu
        refine ⟨[], ?_⟩
        rw [List.nil_append, List.nil_append, show min j 19 = 18 + 1 by omega, show min (j + 1) 19 = 18 + 1 by omega, List.replicate_succ, List.tail_cons, ← List.replicate_succ', List.replicate_succ]
    · rw [if_neg hf]
      rw [List.length_append, List.length_replicate] at hf
      refine ⟨u, ?_⟩
      rw [show min (j + 1) 19 = min j 19 + 1 by omega, List.replicate_succ', List.append_assoc]

theorem steady_process {th : K} (hth : 1 < th) {mag : Nat → K} {j : Nat} {a : Held K} (h : Steady mag j a) :
    Steady mag (j + 1) (a.process th mag).1 ∧ (19 ≤ j → (a.process th mag).2 = 0) := by
  have key : ∀ (b : Held K) (p : K), Steady mag j { b with prevMag := a.prevMag } → b.kind ≠ .percussive → b.bins = a.bins → (b.kind ≠ .soft → ∀ i, i < b.bins + 1 → b.prevMag i = mag i) →
      (1 ≤ j → p = 0) →
      Steady mag (j + 1) (b.filter p (highFrequency b.bins mag)).1 ∧ (19 ≤ j → (b.filter p (highFrequency b.bins mag)).2 = 0) := by
    intro b p hb hk hbins hp hp0
    obtain ⟨u, hu⟩ := hb.held hk
    have hle := hb.le
    simp only at hu hle
    obtain ⟨v1, v, hv⟩ := pushed_replicate (u := u) (j := j) (x := highFrequency b.bins mag) (by rw [← hu]; exact hle)
    rw [← hu] at v1 hv
    have hr : 18 ≤ j → b.result (highFrequency b.bins mag) = 0 := by
      intro hj
      have hall : ∀ y ∈ pushed b.hfs (highFrequency b.bins mag), y = highFrequency b.bins mag := by
        rw [hv, show min (j + 1) 19 = 19 by omega]
        have : v = [] := List.length_eq_zero_iff.mp (by
          rw [hv, List.length_append, List.length_replicate] at v1
          omega)
        rw [this]
        intro y hy
        exact List.eq_of_mem_replicate hy
      unfold Held.result excess
      rw [pct_same (by norm_num) (pushed_ne _ _) hall, sub_self, if_neg (lt_irrefl _)]
    refine ⟨⟨v1, fun _ => hp, fun _ => ⟨v, hv⟩, fun _ hj => hr (by omega)⟩, ?_⟩
    intro hj
    show merged b.kind p (fallen (b.result (highFrequency b.bins mag)) b.lastResult b.risingCount) = 0
    have hl : b.lastResult = 0 := hb.settled hk hj
    rw [hr (by omega), hl, hp0 (by omega)]
    unfold fallen merged
    simp
  have hpz : 1 ≤ j → a.kind ≠ .soft → percussive th a.bins a.prevMag mag = 0 := fun hj hk => percussive_steady hth _ (h.prev hj hk)
  have hrem : ∀ i, i < a.bins + 1 → remembered a.bins a.prevMag mag i = mag i := by
    intro i hi
    unfold remembered
    rw [if_pos hi]
  rcases Kind.all a.kind with e | e | e
  · rw [process_percussive th e]
    refine ⟨⟨h.le, fun _ _ => hrem, fun hk => absurd e hk, fun hk => absurd e hk⟩, ?_⟩
    intro hj
    exact hpz (by omega) (by rw [e]; decide)
  · rw [process_compound th e]
    exact key { a with prevMag := remembered a.bins a.prevMag mag } _ h (by simp only [e]; decide) rfl (fun _ => hrem) (fun hj => hpz hj (by rw [e]; decide))
  · rw [process_soft th e]
    exact key a 0 h (by rw [e]; decide) rfl (fun hk => absurd e hk) (fun _ => rfl)

theorem run_le (th : K) : ∀ (cs : List (Op K)) (a : Held K), a.hfs.length ≤ 19 → (a.run th cs).1.hfs.length ≤ 19 := by
  intro cs
  induction cs with
  | nil => intro a h; exact h
  | cons c cs ih =>
    intro a h
    refine ih _ ?_
    cases c with
    | process mag =>
      show (a.process th mag).1.hfs.length ≤ 19
      have hp : ∀ x, (pushed a.hfs x).length ≤ 19 := by
        intro x
        unfold pushed
        split <;> simp <;> omega
      unfold Held.process
      split
      · exact h
      · exact hp _
      · exact hp _
    | reset => exact Nat.zero_le _
    | setFftSize n => exact h
    | setType k => exact h

/-- **C89.**  Whatever the calls before, once the same frame has come twenty times, the value is 0 for as long as it comes. -/
theorem C89_steady {th : K} (hth : 1 < th) (rate fftSize : Nat) (before : List (Op K)) (mag : Nat → K) (n : Nat) :
    ∃ s o x, run th (create rate fftSize) before = some (s, o) ∧ run th s (List.replicate n (.process mag)) = some x ∧ x.2.length = n ∧ ∀ v ∈ x.2.drop 19, v = 0 := by
  obtain ⟨s, h1, h2⟩ := holds_run th before (holds_create (K := K) rate fftSize)
  obtain ⟨x, h3, _⟩ := holds_run th (List.replicate n (.process mag)) h2
  refine ⟨s, _, _, h1, h3, ?_⟩
  have hle := run_le th before (Held.create rate fftSize : Held K) (Nat.zero_le _)
  generalize (Held.run th (Held.create rate fftSize) before).1 = a at *
  have key : ∀ (n j : Nat) (a : Held K), Steady mag j a → (a.run th (List.replicate n (.process mag))).2.length = n ∧
      ∀ v ∈ (a.run th (List.replicate n (.process mag))).2.drop (19 - j), v = 0 := by
    intro n
    induction n with
    | zero => intro j a _; exact ⟨rfl, by simp [Held.run]⟩
    | succ n ih =>
      intro j a h
      obtain ⟨s1, s2⟩ := steady_process hth h
      obtain ⟨i1, i2⟩ := ih (j + 1) _ s1
      rw [List.replicate_succ]
      refine ⟨by show (_ :: _ : List K).length = _; rw [List.length_cons]; exact congrArg (· + 1) i1, ?_⟩
      show ∀ v ∈ ((a.process th mag).2 :: (Held.run th (a.process th mag).1 _).2).drop _, v = 0
      by_cases hj : 19 ≤ j
      · rw [show 19 - j = 0 by omega]
        rw [show 19 - (j + 1) = 0 by omega] at i2
        intro v hv
        rcases List.mem_cons.mp hv with rfl | hv
        · exact s2 hj
        · exact i2 v hv
      · rw [show 19 - j = 19 - (j + 1) + 1 by omega, List.drop_succ_cons]
        exact i2
  exact key n 0 a ⟨hle, fun h => by omega, fun _ => ⟨a.hfs, by simp⟩, fun _ h => by omega⟩

/-- A tone that sets in gives 1 once, and nothing more. -/
example : ((run (3 / 2) (create 2 4) (Ex.tone 0 :: List.replicate 25 (Ex.tone 3))).map fun x => x.2) = some ([0, 1] ++ List.replicate 24 0) := by decide +kernel

end Verif.AudioCurve
