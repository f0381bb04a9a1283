import Verif.CliLemmas
/-!
# What the command-line utility tells the stretcher
-/
namespace Verif.Cli

variable {σ K : Type} [Field K] [LinearOrder K] [IsStrictOrderedRing K] {E : Engine σ K}

/-- The samples given for processing. -/
def fed (c : Nat) : List (Event K) → List K
  | [] => []
  | .process x _ :: l => x c ++ fed c l
  | _ :: l => fed c l

/-- Which blocks given for processing were said to be the last. -/
def flags : List (Event K) → List Bool
  | [] => []
  | .process _ f :: l => f :: flags l
  | _ :: l => flags l

/-- The samples given for studying. -/
def studied (c : Nat) : List (Event K) → List K
  | [] => []
  | .study x _ :: l => x c ++ studied c l
  | _ :: l => studied c l

/-- Which blocks given for studying were said to be the last. -/
def studyFlags : List (Event K) → List Bool
  | [] => []
  | .study _ f :: l => f :: studyFlags l
  | _ :: l => studyFlags l

/-- The pitch scale that was set last. -/
def current : Option K → List (Event K) → Option K
  | cur, [] => cur
  | _, .pitch v :: l => current (some v) l
  | cur, _ :: l => current cur l

/-- The pitch scale that was set last when each sample was given for processing. -/
def heard (c : Nat) : Option K → List (Event K) → List (Option K)
  | _, [] => []
  | _, .pitch v :: l => heard c (some v) l
  | cur, .process x _ :: l => List.replicate (x c).length cur ++ heard c cur l
  | cur, _ :: l => heard c cur l

omit [Field K] [LinearOrder K] [IsStrictOrderedRing K] in
theorem fed_append (c : Nat) (a b : List (Event K)) : fed c (a ++ b) = fed c a ++ fed c b := by
  induction a with
  | nil => rfl
  | cons x a ih => cases x <;> simp [fed, ih]

omit [Field K] [LinearOrder K] [IsStrictOrderedRing K] in
theorem flags_append (a b : List (Event K)) : flags (a ++ b) = flags a ++ flags b := by
  induction a with
  | nil => rfl
  | cons x a ih => cases x <;> simp [flags, ih]

omit [Field K] [LinearOrder K] [IsStrictOrderedRing K] in
theorem studied_append (c : Nat) (a b : List (Event K)) : studied c (a ++ b) = studied c a ++ studied c b := by
  induction a with
  | nil => rfl
  | cons x a ih => cases x <;> simp [studied, ih]

omit [Field K] [LinearOrder K] [IsStrictOrderedRing K] in
theorem studyFlags_append (a b : List (Event K)) : studyFlags (a ++ b) = studyFlags a ++ studyFlags b := by
  induction a with
  | nil => rfl
  | cons x a ih => cases x <;> simp [studyFlags, ih]

omit [Field K] [LinearOrder K] [IsStrictOrderedRing K] in
theorem current_append (a b : List (Event K)) : ∀ cur, current cur (a ++ b) = current (current cur a) b := by
  induction a with
  | nil => intro cur; rfl
  | cons x a ih => intro cur; cases x <;> simp [current, ih]

omit [Field K] [LinearOrder K] [IsStrictOrderedRing K] in
theorem heard_append (c : Nat) (a b : List (Event K)) : ∀ cur, heard c cur (a ++ b) = heard c cur a ++ heard c (current cur a) b := by
  induction a with
  | nil => intro cur; rfl
  | cons x a ih => intro cur; cases x <;> simp [heard, current, ih]

/-! ## The frequency map -/

/-- The pitch scale that a map asks for at a frame. -/
def inForce (m : List (Nat × K)) (shift : K) (i : Nat) : Option K := ((m.filter fun x => decide (x.1 ≤ i)).getLast?).map fun x => shift * x.2

/-- The events for some entries of a map. -/
def asked (shift : K) (m : List (Nat × K)) : List (Event K) := m.map fun x => .pitch (shift * x.2)

omit [LinearOrder K] [IsStrictOrderedRing K] in
theorem asked_facts (shift : K) : ∀ (m : List (Nat × K)), (∀ c, fed c (asked shift m) = []) ∧ flags (asked shift m) = [] ∧ (∀ c, studied c (asked shift m) = []) ∧ studyFlags (asked shift m) = [] ∧
    (∀ c cur, heard c cur (asked shift m) = []) := by
  intro m
  induction m with
  | nil => exact ⟨fun _ => rfl, rfl, fun _ => rfl, rfl, fun _ _ => rfl⟩
  | cons a m ih =>
    obtain ⟨a1, a2, a3, a4, a5⟩ := ih
    exact ⟨a1, a2, a3, a4, fun c _ => a5 c _⟩

omit [LinearOrder K] [IsStrictOrderedRing K] in
theorem asked_current (shift : K) : ∀ (m done : List (Nat × K)), current (done.getLast?.map fun x => shift * x.2) (asked shift m) = (done ++ m).getLast?.map fun x => shift * x.2 := by
  intro m
  induction m with
  | nil => intro done; rw [List.append_nil]; rfl
  | cons a m ih =>
    intro done
    have := ih (done ++ [a])
    rw [List.getLast?_append, List.append_assoc] at this
    exact this

theorem pitches_spec {ch : Nat} (T : Traced E ch) (shift : K) (a : Nat) : ∀ (m : List (Nat × K)) (e : σ), m.Pairwise (fun x y => x.1 < y.1) → ∃ t,
    T.log (pitches E shift a e m).1 = T.log e ++ asked shift t ∧ m = t ++ (pitches E shift a e m).2.1 ∧ (∀ x ∈ t, x.1 ≤ a) ∧ 0 < (pitches E shift a e m).2.2 ∧
      ∀ x ∈ (pitches E shift a e m).2.1, a + (pitches E shift a e m).2.2 ≤ x.1 := by
  intro m
  induction m with
  | nil => intro e _; exact ⟨[], (List.append_nil _).symm, rfl, fun x hx => absurd hx List.not_mem_nil, show 0 < bs by decide, fun x hx => absurd hx List.not_mem_nil⟩
  | cons b m ih =>
    intro e hs
    obtain ⟨f, v⟩ := b
    obtain ⟨s1, s2⟩ := List.pairwise_cons.mp hs
    unfold pitches
    split
    · rename_i hf
      obtain ⟨t, t1, t2, t3, t4, t5⟩ := ih (E.setPitchScale e (shift * v)) s2
      refine ⟨(f, v) :: t, ?_, ?_, ?_, t4, t5⟩
      · rw [t1, T.log_pitch, List.append_assoc]; rfl
      · rw [List.cons_append, ← t2]
      · intro x hx
        rcases List.mem_cons.mp hx with rfl | hx
        · exact hf
        · exact t3 x hx
    · rename_i hf
      have hb : 0 < bs := by decide
      refine ⟨[], (List.append_nil _).symm, rfl, fun x hx => absurd hx List.not_mem_nil, ?_, ?_⟩
      · simp only
        split <;> omega
      · intro x hx
        have : f ≤ x.1 := by
          rcases List.mem_cons.mp hx with rfl | hx
          · exact le_rfl
          · exact (s1 x hx).le
        simp only
        split <;> omega

/-! ## The rounds -/

/-- The input file has as many samples for each channel as it has frames. -/
def Job.Sound (j : Job σ K) : Prop := (∀ c, c < j.channels → (j.input c).length = j.length) ∧ j.freqMap.Pairwise fun x y => x.1 < y.1

omit [Field K] [LinearOrder K] [IsStrictOrderedRing K] in
theorem Job.read_eq (j : Job σ K) {c : Nat} (hl : (j.input c).length = j.length) (pos n : Nat) : j.read pos n c = ((j.input c).drop pos).take (j.count pos n) := by
  unfold Job.read Job.count
  rw [List.take_of_length_le (l := j.input c) (by omega)]
  by_cases h1 : n ≤ j.length - pos
  · rw [Nat.min_eq_left h1]
  · rw [Nat.min_eq_right (by omega), List.take_of_length_le (by rw [List.length_drop]; omega), List.take_of_length_le (by rw [List.length_drop]; omega)]

/-- What was told in the rounds so far, after `base`. -/
structure Told (j : Job σ K) (T : Traced E j.channels) (base : List (Event K)) (p : Pass σ K) (l : List (Event K)) : Prop where
  log : T.log p.engine = base ++ l
  frame : p.frame = p.countIn
  le : p.countIn ≤ j.length
  fed : ∀ c, c < j.channels → fed c l = (j.input c).take p.countIn
  flags : ∀ f ∈ flags l, f = false
  studied : ∀ c, studied c l = []
  studyFlags : studyFlags l = []
  heard : ∀ c, c < j.channels → heard c none l = (List.range p.countIn).map (inForce j.freqMap j.frequencyshift)
  map : ∃ done, j.freqMap = done ++ p.map ∧ (∀ x ∈ done, x.1 ≤ p.countIn) ∧ current none l = done.getLast?.map fun x => j.frequencyshift * x.2

theorem Told.feed {j : Job σ K} {T : Traced E j.channels} {base l : List (Event K)} {p : Pass σ K} (h : Told j T base p l) (hj : j.Sound) :
    ∃ l' x, T.log (feed E j p).engine = base ++ l' ++ [.process x (feed E j p).final] ∧ p.countIn ≤ (feed E j p).countIn ∧
      Told j T base { feed E j p with frame := p.frame + ((feed E j p).countIn - p.countIn), engine := E.process (pitches E j.frequencyshift p.countIn p.engine p.map).1 x false } (l' ++ [.process x false]) ∧
      (j.length ≤ j.frames → (feed E j p).final = true → (feed E j p).countIn = j.length) ∧ ((feed E j p).final = false → p.countIn < (feed E j p).countIn) := by
  obtain ⟨done, d1, d2, d3⟩ := h.map
  have hs : p.map.Pairwise (fun x y => x.1 < y.1) := by
    have := hj.2
    rw [d1] at this
    exact (List.pairwise_append.mp this).2.1
  obtain ⟨t, t1, t2, t3, t4, t5⟩ := pitches_spec T j.frequencyshift p.countIn p.map p.engine hs
  have hle := h.le
  unfold Cli.feed
  simp only
  generalize pitches E j.frequencyshift p.countIn p.engine p.map = r at t1 t2 t4 t5
  have hcount : j.count p.countIn r.2.2 = min r.2.2 (j.length - p.countIn) := rfl
  have hread : ∀ c, c < j.channels → j.read p.countIn r.2.2 c = ((j.input c).drop p.countIn).take (j.count p.countIn r.2.2) := by
    exact fun c hc => j.read_eq (hj.1 c hc) _ _
  have hlen : ∀ c, c < j.channels → (j.read p.countIn r.2.2 c).length = j.count p.countIn r.2.2 := by
    intro c hc
    have hl := hj.1 c hc
    rw [hread c hc, List.length_take, List.length_drop]
    omega
  obtain ⟨a1, a2, a3, a4, a5⟩ := asked_facts j.frequencyshift t
  have hcur : current none (l ++ asked j.frequencyshift t) = (done ++ t).getLast?.map fun x => j.frequencyshift * x.2 := by
    rw [current_append, d3, asked_current]
  have hmap : j.freqMap = (done ++ t) ++ r.2.1 := by rw [d1, List.append_assoc, ← t2]
  have hforce : ∀ i, p.countIn ≤ i → i < p.countIn + r.2.2 → inForce j.freqMap j.frequencyshift i = (done ++ t).getLast?.map fun x => j.frequencyshift * x.2 := by
    intro i h1 h2
    unfold inForce
    rw [hmap, List.filter_append, List.filter_eq_self.mpr, List.filter_eq_nil_iff.mpr, List.append_nil]
    · intro x hx
      have := t5 x hx
      simp only [decide_eq_true_eq]
      omega
    · intro x hx
      simp only [decide_eq_true_eq]
      rcases List.mem_append.mp hx with hx | hx
      · have := d2 x hx; omega
      · have := t3 x hx; omega
  refine ⟨l ++ asked j.frequencyshift t, j.read p.countIn r.2.2, ?_, by omega, ?_, ?_, ?_⟩
  · rw [T.log_process, t1, h.log]
    simp only [List.append_assoc]
  · refine ⟨?_, ?_, ?_, ?_, ?_, ?_, ?_, ?_, ?_⟩
    · simp only [T.log_process, t1, h.log, List.append_assoc]
    · simp only [h.frame]
      omega
    · simp only
      omega
    · intro c hc
      rw [fed_append, fed_append, a1, List.append_nil, h.fed c hc]
      show _ ++ (j.read p.countIn r.2.2 c ++ []) = (j.input c).take (p.countIn + _)
      rw [List.append_nil, hread c hc, List.take_add]
    · intro f hf
      rw [flags_append, flags_append, a2, List.append_nil] at hf
      rcases List.mem_append.mp hf with hf | hf
      · exact h.flags f hf
      · exact List.mem_singleton.mp hf
    · intro c
      rw [studied_append, studied_append, a3, h.studied]
      rfl
    · rw [studyFlags_append, studyFlags_append, a4, h.studyFlags]
      rfl
    · intro c hc
      rw [heard_append, heard_append, a5, List.append_nil, h.heard c hc, hcur]
      show _ ++ (List.replicate (j.read p.countIn r.2.2 c).length _ ++ []) = (List.range (p.countIn + j.count p.countIn r.2.2)).map _
      rw [hlen c hc, List.append_nil, List.range_add, List.map_append]
      congr 1
      rw [List.map_map]
      symm
      rw [List.eq_replicate_iff]
      refine ⟨by simp, ?_⟩
      intro b hb
      obtain ⟨i, hi, rfl⟩ := List.mem_map.mp hb
      have := List.mem_range.mp hi
      show inForce _ _ (p.countIn + i) = _
      exact hforce _ (by omega) (by omega)
    · refine ⟨done ++ t, hmap, ?_, ?_⟩
      · intro x hx
        simp only
        rcases List.mem_append.mp hx with hx | hx
        · have := d2 x hx; omega
        · have := t3 x hx; omega
      · rw [current_append, hcur]
        rfl
  · intro hlf hfin
    rw [h.frame] at hfin
    simp only [Bool.or_eq_true, decide_eq_true_eq, beq_iff_eq] at hfin
    omega
  · intro hfin
    simp only [Bool.or_eq_false_iff, beq_eq_false_iff_ne] at hfin
    omega

/-- After the last round. -/
theorem Told.loop {j : Job σ K} {T : Traced E j.channels} {base : List (Event K)} {ig : Bool} {fuel : Nat} (hj : j.Sound) : ∀ {rounds : Nat} {p d : Pass σ K} {l : List (Event K)}, Told j T base p l →
    loop E j ig fuel rounds p = some (.done d) → ∃ l' x, T.log d.engine = base ++ (l' ++ [.process x true]) ∧ (j.length ≤ j.frames → d.countIn = j.length) ∧
      (∀ c, c < j.channels → Cli.fed c (l' ++ [.process x true]) = (j.input c).take d.countIn) ∧ (∀ f ∈ Cli.flags l', f = false) ∧ (∀ c, Cli.studied c (l' ++ [.process x true]) = []) ∧
      Cli.studyFlags (l' ++ [.process x true]) = [] ∧ (∀ c, c < j.channels → Cli.heard c none (l' ++ [.process x true]) = (List.range d.countIn).map (inForce j.freqMap j.frequencyshift)) := by
  intro rounds
  induction rounds with
  | zero => intro p d l _ h; cases h
  | succ rounds ih =>
    intro p d l ht h
    unfold Cli.loop at h
    simp only at h
    obtain ⟨q, h1, h2⟩ := Option.bind_eq_some_iff.mp h
    obtain ⟨k1, k2, k3, k4, k5, k6⟩ := drain_kept h1
    obtain ⟨l', x, t1, t2, t3, t4, _⟩ := ht.feed hj
    split at h2
    · cases h2
    · split at h2
      · rename_i hfin
        cases h2
        rw [k4] at hfin
        refine ⟨l', x, ?_, fun hl => ?_, ?_, ?_, ?_, ?_, ?_⟩
        · rw [k6 T, t1, hfin, List.append_assoc]
        · rw [← t4 hl hfin]; exact k2
        · intro c hc
          have := t3.fed c hc
          rw [fed_append] at this ⊢
          simp only [k2]
          exact this
        · intro f hf
          have := t3.flags f
          rw [flags_append] at this
          exact this (List.mem_append_left _ hf)
        · intro c
          have := t3.studied c
          rw [studied_append] at this ⊢
          exact this
        · have := t3.studyFlags
          rw [studyFlags_append] at this ⊢
          exact this
        · intro c hc
          have := t3.heard c hc
          rw [heard_append] at this ⊢
          simp only [k2]
          exact this
      · rename_i hfin
        have hfin' : (Cli.feed E j p).final = false := by rw [← k4]; simpa using hfin
        refine ih (p := { q with frame := p.frame + ((Cli.feed E j p).countIn - p.countIn) }) (l := l' ++ [.process x false]) ⟨?_, ?_, ?_, ?_, t3.flags, t3.studied, t3.studyFlags, ?_, ?_⟩ h2
        · rw [k6 T, t1, hfin', List.append_assoc]
        · have := t3.frame
          simp only [k2] at this ⊢
          exact this
        · have := t3.le
          simp only [k2] at this ⊢
          exact this
        · have := t3.fed
          simp only [k2] at this ⊢
          exact this
        · have := t3.heard
          simp only [k2] at this ⊢
          exact this
        · have := t3.map
          simp only [k2, k3] at this ⊢
          exact this

/-! ## Before the rounds -/

theorem study_spec {j : Job σ K} {T : Traced E j.channels} (hj : j.Sound) (hl : j.length ≤ j.frames) : ∀ {fuel frame pos : Nat} {e e' : σ} {l : List (Event K)}, study E j fuel frame pos e = some e' →
    T.log e = l → pos = min frame j.length → (∀ c, c < j.channels → studied c l = (j.input c).take pos) → (∀ c, fed c l = []) → flags l = [] → (∀ f ∈ studyFlags l, f = false) →
    (∀ c cur, heard c cur l = []) → (∀ cur, current cur l = cur) → (∀ c, c < j.channels → T.out e' c = T.out e c) ∧ ∃ l', T.log e' = l' ∧ (∀ c, c < j.channels → studied c l' = j.input c) ∧ (∀ c, fed c l' = []) ∧ flags l' = [] ∧
      (∃ k, studyFlags l' = List.replicate k false ++ [true]) ∧ (∀ c cur, heard c cur l' = []) ∧ (∀ cur, current cur l' = cur) := by
  intro fuel
  induction fuel with
  | zero => intro frame pos e e' l h; cases h
  | succ fuel ih =>
    intro frame pos e e' l h h1 h2 h3 h4 h5 h6 h7 h8
    unfold study at h
    simp only at h
    have hcount : j.count pos bs = min bs (j.length - pos) := rfl
    have hread : ∀ c, c < j.channels → j.read pos bs c = ((j.input c).drop pos).take (j.count pos bs) := by
      exact fun c hc => j.read_eq (hj.1 c hc) _ _
    have hnew : ∀ f c, c < j.channels → studied c (l ++ [.study (j.read pos bs) f]) = (j.input c).take (pos + j.count pos bs) := by
      intro f c hc
      rw [studied_append, h3 c hc]
      show _ ++ (j.read pos bs c ++ []) = _
      rw [List.append_nil, hread c hc, List.take_add]
    have hb : 0 < bs := by decide
    split at h
    · rename_i hf
      cases h
      refine ⟨fun c hc => T.out_study _ _ _ _ hc, _, T.log_study _ _ _, ?_, ?_, ?_, ?_, ?_, ?_⟩
      · intro c hc
        rw [h1, hnew _ c hc]
        have hl' := hj.1 c hc
        simp only [Bool.or_eq_true, decide_eq_true_eq, beq_iff_eq] at hf
        exact List.take_of_length_le (by omega)
      · intro c; rw [h1, fed_append, h4]; rfl
      · rw [h1, flags_append, h5]; rfl
      · refine ⟨(studyFlags l).length, ?_⟩
        rw [h1, studyFlags_append, hf, List.eq_replicate_of_mem h6, List.length_replicate]
        rfl
      · intro c cur; rw [h1, heard_append, h7]; rfl
      · intro cur; rw [h1, current_append, h8]; rfl
    · rename_i hf
      have hf' : (decide (j.frames ≤ frame + bs) || j.count pos bs == 0) = false := by simpa using hf
      rw [hf'] at h
      obtain ⟨o, r⟩ := ih h (T.log_study _ _ _) (by
        simp only [Bool.or_eq_false_iff, decide_eq_false_iff_not] at hf'
        omega) (by rw [h1]; exact hnew false) (by intro c; rw [h1, fed_append, h4]; rfl) (by rw [h1, flags_append, h5]; rfl) (by
        intro f hf
        rw [h1, studyFlags_append] at hf
        rcases List.mem_append.mp hf with hf | hf
        · exact h6 f hf
        · exact List.mem_singleton.mp hf) (by intro c cur; rw [h1, heard_append, h7]; rfl) (by intro cur; rw [h1, current_append, h8]; rfl)
      exact ⟨fun c hc => (o c hc).trans (T.out_study _ _ _ _ hc), r⟩

theorem pad_spec {ch : Nat} (T : Traced E ch) : ∀ {fuel toPad : Nat} {e : σ}, toPad ≤ fuel → (∀ c, c < ch → T.out (pad E fuel toPad e) c = T.out e c) ∧ ∃ l, T.log (pad E fuel toPad e) = T.log e ++ l ∧ (∀ c, fed c l = List.replicate toPad 0) ∧
    (∀ f ∈ flags l, f = false) ∧ (∀ c, studied c l = []) ∧ studyFlags l = [] ∧ (∀ c cur, heard c cur l = List.replicate toPad cur) ∧ (∀ cur, current cur l = cur) := by
  intro fuel
  induction fuel with
  | zero =>
    intro toPad e h
    obtain rfl : toPad = 0 := by omega
    exact ⟨fun _ _ => rfl, [], (List.append_nil _).symm, fun _ => rfl, fun f hf => absurd hf List.not_mem_nil, fun _ => rfl, rfl, fun _ _ => rfl, fun _ => rfl⟩
  | succ fuel ih =>
    intro toPad e h
    have hb : 0 < bs := by decide
    unfold pad
    split
    · rename_i hz
      subst hz
      exact ⟨fun _ _ => rfl, [], (List.append_nil _).symm, fun _ => rfl, fun f hf => absurd hf List.not_mem_nil, fun _ => rfl, rfl, fun _ _ => rfl, fun _ => rfl⟩
    · obtain ⟨o, l, l1, l2, l3, l4, l5, l6, l7⟩ := ih (toPad := toPad - min toPad bs) (e := E.process e (fun _ => List.replicate (min toPad bs) 0) false) (by omega)
      refine ⟨fun c hc => (o c hc).trans (T.out_process _ _ _ _ hc), .process (fun _ => List.replicate (min toPad bs) 0) false :: l, ?_, ?_, ?_, l4, l5, ?_, l7⟩
      · rw [l1, T.log_process, List.append_assoc]; rfl
      · intro c
        show List.replicate _ _ ++ fed c l = _
        rw [l2, List.replicate_append_replicate]
        congr 1
        omega
      · intro f hf
        rcases List.mem_cons.mp hf with hf | hf
        · exact hf
        · exact l3 f hf
      · intro c cur
        show List.replicate (List.replicate _ _).length cur ++ heard c cur l = _
        rw [l6, List.length_replicate, List.replicate_append_replicate]
        congr 1
        omega

end Verif.Cli
