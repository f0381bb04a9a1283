import Verif.CliLog
import Mathlib.Data.Rat.Defs
import Mathlib.Algebra.Order.Field.Rat
/-!
# Properties of the command-line utility: C94 to C97
-/
namespace Verif.Cli

variable {σ K : Type} [Field K] [LinearOrder K] [IsStrictOrderedRing K] {E : Engine σ K}

/-- A stretcher that has done nothing yet. -/
def Fresh (j : Job σ K) (T : Traced E j.channels) : Prop := T.log j.stretcher = [] ∧ ∀ c, c < j.channels → T.out j.stretcher c = []

/-! ## The beginning of a pass -/

theorem study_log {j : Job σ K} (T : Traced E j.channels) : ∀ {fuel frame pos : Nat} {e e' : σ}, study E j fuel frame pos e = some e' →
    (∀ c, c < j.channels → T.out e' c = T.out e c) ∧ (flags (T.log e') = flags (T.log e)) := by
  intro fuel
  induction fuel with
  | zero => intro frame pos e e' h; cases h
  | succ fuel ih =>
    intro frame pos e e' h
    unfold study at h
    simp only at h
    have hf : ∀ x f, flags (T.log (E.study e x f)) = flags (T.log e) := by
      intro x f
      rw [T.log_study, flags_append]
      exact List.append_nil _
    split at h
    · cases h
      exact ⟨fun c hc => T.out_study _ _ _ _ hc, hf _ _⟩
    · obtain ⟨a, b⟩ := ih h
      exact ⟨fun c hc => (a c hc).trans (T.out_study _ _ _ _ hc), b.trans (hf _ _)⟩

/-- The stretcher before padding, and the pass. -/
theorem begin_spec {j : Job σ K} {T : Traced E j.channels} (hf : Fresh j T) {fuel : Nat} {g : K} {p : Pass σ K} (h : begin E j fuel g = some p) (ig : Bool) :
    ∃ e, flags (T.log e) = [] ∧ Inv j T (E.startDelay e) ig g 0 0 p ∧ p.clipping = false ∧ p.final = false ∧ p.frame = 0 ∧ p.countIn = 0 ∧ p.map = j.freqMap ∧ p.gain = g ∧ (∀ c, p.written c = []) ∧
      p.engine = (if j.realtime then pad E (E.startPad e) (E.startPad e) e else e) ∧
      ∃ s, (if j.realtime then some j.stretcher else study E j fuel 0 0 j.stretcher) = some s ∧ e = (if j.timeMap then E.setKeyFrameMap s else s) := by
  unfold begin at h
  obtain ⟨s, h1, h2⟩ := Option.map_eq_some_iff.mp h
  simp only at h2
  have hs : (∀ c, c < j.channels → T.out s c = []) ∧ flags (T.log s) = [] := by
    split at h1
    · cases h1
      exact ⟨hf.2, by rw [hf.1]; rfl⟩
    · obtain ⟨a, b⟩ := study_log T h1
      exact ⟨fun c hc => (a c hc).trans (hf.2 c hc), by rw [b, hf.1]; rfl⟩
  have he : (∀ c, c < j.channels → T.out (if j.timeMap then E.setKeyFrameMap s else s) c = []) ∧ flags (T.log (if j.timeMap then E.setKeyFrameMap s else s)) = [] := by
    split
    · refine ⟨fun c hc => (T.out_keys _ _ hc).trans (hs.1 c hc), ?_⟩
      rw [T.log_keys, flags_append, hs.2]
      rfl
    · exact hs
  refine ⟨if j.timeMap then E.setKeyFrameMap s else s, he.2, ?_, ?_⟩
  · subst h2
    have ho : ∀ c, c < j.channels → T.out (if j.realtime then pad E (E.startPad (if j.timeMap then E.setKeyFrameMap s else s)) (E.startPad (if j.timeMap then E.setKeyFrameMap s else s))
        (if j.timeMap then E.setKeyFrameMap s else s) else (if j.timeMap then E.setKeyFrameMap s else s)) c = [] := by
      intro c hc
      split
      · rw [(pad_spec T le_rfl).1 c hc, he.1 c hc]
      · exact he.1 c hc
    refine ⟨fun c hc => by simp only; rw [ho c hc]; rfl, rfl, Nat.zero_le _, fun _ => by simp, fun _ _ => by simp, fun _ h => absurd h (Nat.not_lt_zero _), fun _ => ⟨rfl, fun c hc => ?_⟩⟩
    simp only
    rw [ho c hc]
    simp
  · subst h2
    exact ⟨rfl, rfl, rfl, rfl, rfl, rfl, fun _ => rfl, rfl, s, h1, rfl⟩

/-- The padding and what came before it say of no block that it is the last. -/
theorem begin_unfinished {j : Job σ K} {T : Traced E j.channels} {e e' : σ} (h : flags (T.log e) = []) (he : e' = (if j.realtime then pad E (E.startPad e) (E.startPad e) e else e)) :
    (∀ f ∈ flags (T.log e'), f = false) ∧ T.log e <+: T.log e' := by
  subst he
  split
  · obtain ⟨_, l, l1, _, l3, _⟩ := pad_spec T (fuel := E.startPad e) (toPad := E.startPad e) (e := e) le_rfl
    rw [l1, flags_append, h]
    exact ⟨l3, List.prefix_append _ _⟩
  · rw [h]
    exact ⟨fun f hf => absurd hf List.not_mem_nil, List.prefix_rfl⟩

omit [Field K] [LinearOrder K] [IsStrictOrderedRing K] in
theorem unfinished_iff (l : List (Event K)) : unfinished l ↔ ∀ f ∈ flags l, f = false := by
  induction l with
  | nil => exact ⟨fun _ f hf => absurd hf List.not_mem_nil, fun _ x => List.not_mem_nil⟩
  | cons a l ih =>
    have hu : unfinished (a :: l) ↔ (∀ x, a ≠ .process x true) ∧ unfinished l := by
      refine ⟨fun h => ⟨fun x hx => h x (by rw [hx]; exact List.mem_cons_self ..), fun x hx => h x (List.mem_cons_of_mem _ hx)⟩, fun h x hx => ?_⟩
      rcases List.mem_cons.mp hx with hx | hx
      · exact h.1 x hx.symm
      · exact h.2 x hx
    rw [hu, ih]
    cases a with
    | process x f =>
      refine ⟨fun h g hg => ?_, fun h => ⟨fun y hy => ?_, fun g hg => h g (List.mem_cons_of_mem _ hg)⟩⟩
      · rcases List.mem_cons.mp hg with rfl | hg
        · by_contra hc
          have : g = true := by simpa using hc
          exact h.1 x (by rw [this])
        · exact h.2 g hg
      · have := h f (List.mem_cons_self ..)
        rw [(Event.process.inj hy).2] at this
        cases this
    | study x f => exact ⟨fun h => h.2, fun h => ⟨fun _ => by simp, h⟩⟩
    | pitch v => exact ⟨fun h => h.2, fun h => ⟨fun _ => by simp, h⟩⟩
    | keys => exact ⟨fun h => h.2, fun h => ⟨fun _ => by simp, h⟩⟩

/-! ## The passes -/

/-- A file that holds no more than a pass that ends well writes. -/
def Bounded (E : Engine σ K) (j : Job σ K) (fuel : Nat) (file : Nat → List K) : Prop :=
  ∀ ig g p d, begin E j fuel g = some p → loop E j ig fuel fuel p = some (.done d) → ∀ c, (file c).length ≤ (d.written c).length

omit [IsStrictOrderedRing K] in
/-- Passes begin alike. -/
theorem begin_alike {j : Job σ K} {fuel : Nat} {g g' : K} {p p' : Pass σ K} (h : begin E j fuel g = some p) (h' : begin E j fuel g' = some p') : Alike p p' := by
  unfold begin at h h'
  obtain ⟨s, h1, h2⟩ := Option.map_eq_some_iff.mp h
  obtain ⟨s', h1', h2'⟩ := Option.map_eq_some_iff.mp h'
  rw [h1] at h1'
  cases h1'
  subst h2
  subst h2'
  exact ⟨rfl, rfl, rfl, rfl, rfl, rfl, rfl, fun _ => rfl⟩

omit [IsStrictOrderedRing K] in
theorem begin_facts {j : Job σ K} {fuel : Nat} {g : K} {p : Pass σ K} (h : begin E j fuel g = some p) : p.clipping = false ∧ p.gain = g ∧ p.final = false := by
  unfold begin at h
  obtain ⟨s, h1, h2⟩ := Option.map_eq_some_iff.mp h
  subst h2
  exact ⟨rfl, rfl, rfl⟩

omit [IsStrictOrderedRing K] in
/-- After a pass that ends well there is nothing to complete. -/
theorem complete_done {j : Job σ K} {fuel : Nat} {p d : Pass σ K} (ha : ¬ E.available p.engine > 0) (h : complete E j fuel p = some d) : d = p := by
  cases fuel with
  | zero => cases h
  | succ fuel =>
    unfold complete at h
    split at h
    · cases h; rfl
    · split at h
      · split at h
        · cases h; rfl
        · cases h
      · omega

theorem loop_available {j : Job σ K} {ig : Bool} {fuel : Nat} : ∀ {rounds : Nat} {p d : Pass σ K}, loop E j ig fuel rounds p = some (.done d) → ¬ E.available d.engine > 0 := by
  intro rounds
  induction rounds with
  | zero => intro p d h; cases h
  | succ rounds ih =>
    intro p d h
    unfold loop at h
    simp only at h
    obtain ⟨q, h1, h2⟩ := Option.bind_eq_some_iff.mp h
    split at h2
    · cases h2
    · split at h2
      · cases h2; exact (drain_kept h1).2.2.2.2.1
      · exact ih h2

theorem loop_log {j : Job σ K} (T : Traced E j.channels) {ig : Bool} {fuel : Nat} : ∀ {rounds : Nat} {p d : Pass σ K}, loop E j ig fuel rounds p = some (.done d) → T.log p.engine <+: T.log d.engine := by
  intro rounds
  induction rounds with
  | zero => intro p d h; cases h
  | succ rounds ih =>
    intro p d h
    unfold loop at h
    simp only at h
    obtain ⟨r, k1, k2⟩ := Option.bind_eq_some_iff.mp h
    obtain ⟨l, m1, _⟩ := feed_log T p
    have hr : T.log p.engine <+: T.log r.engine := by
      rw [(drain_kept k1).2.2.2.2.2 T, m1]
      exact List.prefix_append _ _
    split at k2
    · cases k2
    · split at k2
      · cases k2; exact hr
      · exact hr.trans (ih (p := { r with frame := p.frame + ((feed E j p).countIn - p.countIn) }) k2)

theorem passes_spec {j : Job σ K} {fuel : Nat} {ig₀ : Bool} : ∀ {most : Nat} {g : K} {ig : Bool} {file file' : Nat → List K} {d : Pass σ K}, passes E j fuel most g ig file = some (d, file') →
    3 / 4 ≤ g → g ≤ 1 → (ig = ig₀ ∨ g = 3 / 4) → Bounded E j fuel file → ∃ g' ig' p, 3 / 4 ≤ g' ∧ g' ≤ 1 ∧ (ig' = ig₀ ∨ g' = 3 / 4) ∧ begin E j fuel g' = some p ∧ loop E j ig' fuel fuel p = some (.done d) ∧
      ∀ c, file' c = d.written c := by
  intro most
  induction most with
  | zero => intro g ig file file' d h; cases h
  | succ most ih =>
    intro g ig file file' d h hg hg1 hig hb
    unfold passes at h
    obtain ⟨p, h1, h2⟩ := Option.bind_eq_some_iff.mp h
    obtain ⟨o, h3, h4⟩ := Option.bind_eq_some_iff.mp h2
    cases o with
    | done q =>
      obtain ⟨r, h5, h6⟩ := Option.map_eq_some_iff.mp h4
      obtain ⟨rfl, rfl⟩ := Prod.mk.inj h6
      obtain rfl := complete_done (loop_available h3) h5
      refine ⟨g, ig, p, hg, hg1, hig, h1, h3, fun c => ?_⟩
      unfold rewritten
      rw [List.drop_of_length_le (hb _ _ _ _ h1 h3 c), List.append_nil]
    | clipped q =>
      have hb' : Bounded E j fuel (rewritten q.written file) := by
        intro ig' g' p' d' k1 k2 c
        have a1 := hb _ _ _ _ k1 k2 c
        have a2 := Alike.loop c (begin_alike h1 k1) h3 k2
        unfold rewritten
        rw [List.length_append, List.length_drop]
        omega
      obtain ⟨b1, b2, _⟩ := begin_facts h1
      have hG : Gain g p := ⟨by rw [b2]; linarith [show (0 : K) < 3 / 4 by norm_num], b2.le, fun h => (by rw [b1] at h; cases h), fun _ => b2⟩
      obtain ⟨⟨_, c2, _, _⟩, _⟩ := hG.loop h3
      simp only at h4
      split at h4
      · exact ih h4 le_rfl (by norm_num) (Or.inr rfl) hb'
      · rename_i hq
        refine ih h4 (not_lt.mp hq) (c2.trans hg1) ?_ hb'
        rcases hig with hig | hig
        · exact Or.inl hig
        · exact Or.inr (le_antisymm (c2.trans hig.le) (not_lt.mp hq))

/-- **C94.**  The output file is what the stretcher gave from its start delay on, all multiplied by the same gain, which is from 3/4 to 1, and clamped to the range from -1 to 1; nothing is left of passes that
were begun before.  Offline all of it is there.  In real time it is cut off at the length aimed at, or where it was before the last block if that is more.  Unless clipping is ignored or the gain is 3/4, no
sample needed clamping. -/
theorem C94_output {j : Job σ K} (T : Traced E j.channels) (hf : Fresh j T) {fuel most : Nat} {ig : Bool} {d : Pass σ K} {file : Nat → List K}
    (h : passes E j fuel most 1 ig (fun _ => []) = some (d, file)) :
    ∃ (g : K) (e q : σ), 3 / 4 ≤ g ∧ g ≤ 1 ∧ (flags (T.log e) = [] ∧ T.log e <+: T.log d.engine) ∧ ((∀ f ∈ flags (T.log q), f = false) ∧ T.log q <+: T.log d.engine) ∧ ∀ c, c < j.channels →
      file c = (((T.out d.engine c).drop (E.startDelay e)).take (if j.realtime then max ((T.out q c).length - E.startDelay e) (min (j.ideal d.countIn) ((T.out d.engine c).length - E.startDelay e))
        else (T.out d.engine c).length - E.startDelay e)).map (fun x => clamp (g * x)) ∧
      (∀ y ∈ file c, -1 ≤ y ∧ y ≤ 1) ∧
      (ig = false → g ≠ 3 / 4 → file c = (((T.out d.engine c).drop (E.startDelay e)).take (file c).length).map (fun x => g * x)) := by
  obtain ⟨g, ig', p, g1, g2, g3, h1, h2, h3⟩ := passes_spec (ig₀ := ig) h (by norm_num) le_rfl (Or.inl rfl) (fun _ _ _ _ _ _ _ => Nat.zero_le _)
  obtain ⟨e, e1, e2, e3, e4, e5, e6, e7, e8, e9, e10, _⟩ := begin_spec hf h1 ig'
  obtain ⟨u1, u2⟩ := begin_unfinished e1 e10
  obtain ⟨q, pre, L, q1, q2, q3, q4, q5, q6, q7, q8⟩ := e2.loop e4 ((unfinished_iff _).mpr u1) h2
  obtain ⟨l, l1, _⟩ := feed_log T q
  have hpre : T.log q.engine <+: T.log d.engine := by rw [q6, l1]; exact List.prefix_append _ _
  have hext : T.log p.engine <+: T.log d.engine := by
    exact loop_log T h2
  refine ⟨g, e, q.engine, g1, g2, ⟨e1, u2.trans hext⟩, ⟨(unfinished_iff _).mp q7, hpre⟩, fun c hc => ?_⟩
  obtain ⟨t1, t2⟩ := q1.text q3
  obtain ⟨t3, t4⟩ := t2 c hc
  have hcut : cut j pre (L - E.startDelay e) d = if j.realtime then max ((T.out q.engine c).length - E.startDelay e) (min (j.ideal d.countIn) ((T.out d.engine c).length - E.startDelay e))
      else (T.out d.engine c).length - E.startDelay e := by
    unfold cut
    rw [q2, Bool.and_true, q8 c hc, q1.all c hc]
  rw [h3 c]
  rw [hcut] at t3 t4
  refine ⟨t3, ?_, ?_⟩
  · intro y hy
    rw [t3] at hy
    obtain ⟨x, _, rfl⟩ := List.mem_map.mp hy
    exact clamp_range _
  · intro hig hg
    have hig' : ig' = false := by
      rcases g3 with g3 | g3
      · rw [g3, hig]
      · exact absurd g3 hg
    have hl : (d.written c).length = ((((T.out d.engine c).drop (E.startDelay e)).take (if j.realtime then max ((T.out q.engine c).length - E.startDelay e) (min (j.ideal d.countIn) ((T.out d.engine c).length - E.startDelay e))
      else (T.out d.engine c).length - E.startDelay e))).length := by rw [t3, List.length_map]
    rw [hl, List.length_take, ← List.take_eq_take_min, t3]
    exact List.map_congr_left fun x hx => clamp_same (t4 hig' x hx).1 (t4 hig' x hx).2.le

theorem takeOnce_quiet {j : Job σ K} (hE : ∀ e n c, c < j.channels → ∀ x ∈ (E.retrieve e n).2 c, -1 ≤ x ∧ x < 1) {ig : Bool} {p : Pass σ K} (n : Nat) (hc : p.clipping = false) (hg : p.gain = 1) :
    (takeOnce E j ig n p).clipping = false ∧ (takeOnce E j ig n p).gain = 1 := by
  have hs : ∀ (l : List K), (∀ x ∈ l, -1 ≤ x ∧ x < 1) → (scale ig 1 false l).2.1 = false ∧ (scale ig 1 false l).1 = 1 := by
    intro l
    induction l with
    | nil => intro _; exact ⟨rfl, rfl⟩
    | cons x l ih =>
      intro h
      have hx := h x (List.mem_cons_self ..)
      have hl := ih fun y hy => h y (List.mem_cons_of_mem _ hy)
      unfold scale
      simp only [one_mul]
      split
      · exact hl
      · rw [if_neg (by rintro (h | h) <;> linarith [hx.1, hx.2])]
        exact hl
  have ha : ∀ (x : Nat → List K) (k : Nat), (∀ c, c < k → ∀ y ∈ x c, -1 ≤ y ∧ y < 1) → (scaleAll ig 1 false x k).2.1 = false ∧ (scaleAll ig 1 false x k).1 = 1 := by
    intro x k hx
    induction k with
    | zero => exact ⟨rfl, rfl⟩
    | succ k ih =>
      have ih := ih fun c hc => hx c (by omega)
      unfold scaleAll
      simp only
      rw [ih.1, ih.2]
      exact hs _ (hx k (Nat.lt_succ_self _))
  unfold takeOnce
  simp only
  split
  · exact ⟨hc, hg⟩
  · rw [hc, hg]
    exact ha _ _ fun c hc y hy => hE _ _ c hc y (List.mem_of_mem_take hy)

/-- With a stretcher that gives no sample out of range, the gain stays 1: offline, the file is what the stretcher gave. -/
theorem C94_quiet {j : Job σ K} (T : Traced E j.channels) (hf : Fresh j T) (hE : ∀ e c, c < j.channels → ∀ x ∈ T.out e c, -1 ≤ x ∧ x < 1) (hr : j.realtime = false) {fuel most : Nat} {ig : Bool} {d : Pass σ K}
    {file : Nat → List K} (h : passes E j fuel most 1 ig (fun _ => []) = some (d, file)) :
    ∃ e, flags (T.log e) = [] ∧ T.log e <+: T.log d.engine ∧ ∀ c, c < j.channels → file c = (T.out d.engine c).drop (E.startDelay e) := by
  have hE' : ∀ e n c, c < j.channels → ∀ x ∈ (E.retrieve e n).2 c, -1 ≤ x ∧ x < 1 := fun e n c hc x hx => hE (E.retrieve e n).1 c hc x (by rw [T.out_retrieve _ _ _ hc]; exact List.mem_append_right _ hx)
  have hdrain : ∀ {n : Nat} {p q : Pass σ K}, drain E j ig n p = some q → p.clipping = false → p.gain = 1 → q.clipping = false ∧ q.gain = 1 := by
    intro n
    induction n with
    | zero =>
      intro p q h h1 h2
      unfold drain at h
      split at h
      · cases h
      · cases h; exact ⟨h1, h2⟩
    | succ n ih =>
      intro p q h h1 h2
      unfold drain at h
      split at h
      · obtain ⟨a, b⟩ := takeOnce_quiet (j := j) hE' (ig := ig) (E.available p.engine).toNat h1 h2
        exact ih h a b
      · cases h; exact ⟨h1, h2⟩
  have hloop : ∀ {rounds : Nat} {p q : Pass σ K}, p.clipping = false → p.gain = 1 → loop E j ig fuel rounds p ≠ some (.clipped q) ∧ (loop E j ig fuel rounds p = some (.done q) → q.gain = 1) := by
    intro rounds
    induction rounds with
    | zero => intro p q _ _; exact ⟨fun h => (by cases h), fun h => (by cases h)⟩
    | succ rounds ih =>
      intro p q h1 h2
      have key : ∀ o, loop E j ig fuel (rounds + 1) p = some o → ∃ r, drain E j ig fuel (feed E j p) = some r ∧ ((r.final = true ∧ o = .done { r with frame := p.frame + ((feed E j p).countIn - p.countIn) }) ∨
          loop E j ig fuel rounds { r with frame := p.frame + ((feed E j p).countIn - p.countIn) } = some o) := by
        intro o h
        unfold loop at h
        simp only at h
        obtain ⟨r, k1, k2⟩ := Option.bind_eq_some_iff.mp h
        obtain ⟨a, b⟩ := hdrain k1 h1 h2
        rw [if_neg (by simp [a])] at k2
        split at k2
        · cases k2
          exact ⟨r, k1, Or.inl ⟨by assumption, rfl⟩⟩
        · exact ⟨r, k1, Or.inr k2⟩
      refine ⟨fun h => ?_, fun h => ?_⟩
      · obtain ⟨r, k1, k2⟩ := key _ h
        obtain ⟨a, b⟩ := hdrain k1 h1 h2
        rcases k2 with ⟨_, k2⟩ | k2
        · cases k2
        · exact (ih (p := { r with frame := p.frame + ((feed E j p).countIn - p.countIn) }) a b).1 k2
      · obtain ⟨r, k1, k2⟩ := key _ h
        obtain ⟨a, b⟩ := hdrain k1 h1 h2
        rcases k2 with ⟨_, k2⟩ | k2
        · cases k2; exact b
        · exact (ih (p := { r with frame := p.frame + ((feed E j p).countIn - p.countIn) }) a b).2 k2
  cases most with
  | zero => cases h
  | succ most =>
    unfold passes at h
    obtain ⟨p, h1, h2⟩ := Option.bind_eq_some_iff.mp h
    obtain ⟨o, h3, h4⟩ := Option.bind_eq_some_iff.mp h2
    obtain ⟨b1, b2, b3⟩ := begin_facts h1
    cases o with
    | clipped q => exact absurd h3 (hloop b1 b2).1
    | done q =>
      obtain ⟨r, h5, h6⟩ := Option.map_eq_some_iff.mp h4
      obtain ⟨rfl, rfl⟩ := Prod.mk.inj h6
      obtain rfl := complete_done (loop_available h3) h5
      obtain ⟨e, e1, e2, e3, e4, e5, e6, e7, e8, e9, e10, _⟩ := begin_spec hf h1 ig
      obtain ⟨u1, u2⟩ := begin_unfinished e1 e10
      obtain ⟨q, pre, L, q1, q2, q3, q4, q5, q6, q7, q8⟩ := e2.loop e4 ((unfinished_iff _).mpr u1) h3
      refine ⟨e, e1, ?_, fun c hc => ?_⟩
      · refine u2.trans ?_
        exact loop_log T h3
      · obtain ⟨t1, t2⟩ := q1.text q3
        obtain ⟨t3, t4⟩ := t2 c hc
        unfold rewritten
        rw [List.drop_nil, List.append_nil, t3]
        have hcut : cut j pre (L - E.startDelay e) r = L - E.startDelay e := by
          unfold cut
          rw [hr, if_neg (by simp)]
        rw [hcut, List.take_of_length_le (by rw [List.length_drop, q1.all c hc])]
        have : ∀ x ∈ (T.out r.engine c).drop (E.startDelay e), clamp (1 * x) = x := fun x hx => by
          have := hE _ c hc x (List.mem_of_mem_drop hx)
          rw [one_mul, clamp_same this.1 this.2.le]
        exact (List.map_congr_left this).trans (List.map_id _)

/-! ## C95 -/

/-- Retrieving leaves less to retrieve; and offline, when all was retrieved after the last block, the stretcher says that it is done. -/
structure Ends (j : Job σ K) (T : Traced E j.channels) : Prop where
  down : ∀ e (n : Nat), 0 < n → (n : Int) ≤ E.available e → E.available (E.retrieve e n).1 < E.available e
  done : j.realtime = false → j.threadingNever = false → ∀ e, true ∈ flags (T.log e) → E.available e ≠ 0

theorem study_some (j : Job σ K) : ∀ (fuel frame pos : Nat) (e : σ), j.length - pos < fuel → ∃ e', study E j fuel frame pos e = some e' := by
  intro fuel
  induction fuel with
  | zero => intro _ _ _ h; omega
  | succ fuel ih =>
    intro frame pos e h
    unfold study
    simp only
    split
    · exact ⟨_, rfl⟩
    · rename_i hf
      have : j.count pos bs ≠ 0 := by
        intro h0
        exact hf (by simp [h0])
      have hc : j.count pos bs = min bs (j.length - pos) := rfl
      exact ih _ _ _ (by omega)

theorem study_mono (j : Job σ K) : ∀ {fuel fuel' frame pos : Nat} {e e' : σ}, fuel ≤ fuel' → study E j fuel frame pos e = some e' → study E j fuel' frame pos e = some e' := by
  intro fuel
  induction fuel with
  | zero => intro _ _ _ _ _ _ h; cases h
  | succ fuel ih =>
    intro fuel' frame pos e e' hle h
    obtain ⟨k, rfl⟩ : ∃ k, fuel' = k + 1 := ⟨fuel' - 1, by omega⟩
    unfold study at h ⊢
    simp only at h ⊢
    split
    · rename_i hf
      rw [if_pos hf] at h
      exact h
    · rename_i hf
      rw [if_neg hf] at h
      exact ih (by omega) h

theorem drain_some {j : Job σ K} (hd : ∀ e (n : Nat), 0 < n → (n : Int) ≤ E.available e → E.available (E.retrieve e n).1 < E.available e) (ig : Bool) : ∀ (fuel : Nat) (p : Pass σ K),
    E.available p.engine ≤ fuel → ∃ q, ∀ fuel', fuel ≤ fuel' → drain E j ig fuel' p = some q := by
  intro fuel
  induction fuel with
  | zero =>
    intro p h
    refine ⟨p, fun fuel' _ => ?_⟩
    cases fuel' <;> (unfold drain; rw [if_neg (by omega)])
  | succ fuel ih =>
    intro p h
    by_cases ha : E.available p.engine > 0
    · have hb : 0 < bs := by decide
      have hdec : E.available (takeOnce E j ig (E.available p.engine).toNat p).engine < E.available p.engine := by
        unfold takeOnce
        simp only
        split
        · exact hd _ _ (by omega) (by omega)
        · exact hd _ _ (by omega) (by omega)
      obtain ⟨q, hq⟩ := ih (takeOnce E j ig (E.available p.engine).toNat p) (by omega)
      refine ⟨q, fun fuel' hf => ?_⟩
      obtain ⟨k, rfl⟩ : ∃ k, fuel' = k + 1 := ⟨fuel' - 1, by omega⟩
      unfold drain
      rw [if_pos ha]
      exact hq k (by omega)
    · refine ⟨p, fun fuel' _ => ?_⟩
      cases fuel' <;> (unfold drain; rw [if_neg ha])

/-- A pass ignoring clipping ends well. -/
theorem loop_some {j : Job σ K} (hd : ∀ e (n : Nat), 0 < n → (n : Int) ≤ E.available e → E.available (E.retrieve e n).1 < E.available e) : ∀ (m : Nat) (p : Pass σ K), j.length - p.countIn ≤ m → p.clipping = false →
    ∃ F d, ∀ fuel, F ≤ fuel → ∀ rounds, m < rounds → loop E j true fuel rounds p = some (.done d) := by
  intro m
  induction m with
  | zero =>
    intro p hm hc
    obtain ⟨q, hq⟩ := drain_some (j := j) hd true (E.available (feed E j p).engine).toNat (feed E j p) (by omega)
    have k := drain_kept (hq _ le_rfl)
    refine ⟨(E.available (feed E j p).engine).toNat, { q with frame := p.frame + ((feed E j p).countIn - p.countIn) }, fun fuel hf rounds hr => ?_⟩
    obtain ⟨r, rfl⟩ : ∃ r, rounds = r + 1 := ⟨rounds - 1, by omega⟩
    unfold loop
    simp only
    rw [hq fuel hf, Option.bind_some, if_neg (by rw [drain_ignoring (hq _ le_rfl)]; show ¬ p.clipping = true; simp [hc]), if_pos]
    rw [k.2.2.2.1]
    show (decide _ || (j.count p.countIn _ == 0)) = true
    have : ∀ n, j.count p.countIn n = 0 := fun n => by unfold Job.count; omega
    rw [this]
    simp
  | succ m ih =>
    intro p hm hc
    obtain ⟨q, hq⟩ := drain_some (j := j) hd true (E.available (feed E j p).engine).toNat (feed E j p) (by omega)
    have k := drain_kept (hq _ le_rfl)
    have hqc : q.clipping = false := (drain_ignoring (hq _ le_rfl)).trans hc
    by_cases hf : q.final = true
    · refine ⟨(E.available (feed E j p).engine).toNat, { q with frame := p.frame + ((feed E j p).countIn - p.countIn) }, fun fuel hfu rounds hr => ?_⟩
      obtain ⟨r, rfl⟩ : ∃ r, rounds = r + 1 := ⟨rounds - 1, by omega⟩
      unfold loop
      simp only
      rw [hq fuel hfu, Option.bind_some, if_neg (by simp [hqc]), if_pos hf]
    · have hcount : p.countIn < q.countIn := by
        have h1 : (feed E j p).final = false := by rw [← k.2.2.2.1]; simpa using hf
        have h2 : q.countIn = (feed E j p).countIn := k.2.1
        have h3 : (feed E j p).countIn = p.countIn + j.count p.countIn (pitches E j.frequencyshift p.countIn p.engine p.map).2.2 := rfl
        have h4 : (j.count p.countIn (pitches E j.frequencyshift p.countIn p.engine p.map).2.2 == 0) = false := (Bool.or_eq_false_iff.mp h1).2
        simp only [beq_eq_false_iff_ne] at h4
        omega
      obtain ⟨F, d, hF⟩ := ih { q with frame := p.frame + ((feed E j p).countIn - p.countIn) } (by simp only; omega) hqc
      refine ⟨max F (E.available (feed E j p).engine).toNat, d, fun fuel hfu rounds hr => ?_⟩
      obtain ⟨r, rfl⟩ : ∃ r, rounds = r + 1 := ⟨rounds - 1, by omega⟩
      unfold loop
      simp only
      rw [hq fuel (by omega), Option.bind_some, if_neg (by simp [hqc]), if_neg hf]
      exact hF fuel (by omega) r (by omega)

theorem alike_drain_some {j : Job σ K} {ig ig' : Bool} : ∀ {fuel : Nat} {p q p' : Pass σ K}, Alike p q → drain E j ig fuel p = some p' → ∃ q', drain E j ig' fuel q = some q' := by
  intro fuel
  induction fuel with
  | zero =>
    intro p q p' hi h
    unfold drain at h ⊢
    rw [hi.engine] at h
    split at h
    · cases h
    · rw [if_neg (by assumption)]; exact ⟨_, rfl⟩
  | succ fuel ih =>
    intro p q p' hi h
    unfold drain at h ⊢
    rw [hi.engine] at h
    split at h
    · rw [if_pos (by assumption)]
      exact ih (hi.takeOnce ig ig' _) h
    · rw [if_neg (by assumption)]; exact ⟨_, rfl⟩

/-- If a pass ends well, others like it end well too or with clipping. -/
theorem alike_loop_some {j : Job σ K} {ig ig' : Bool} {fuel : Nat} : ∀ {rounds : Nat} {p q d : Pass σ K}, Alike p q → loop E j ig fuel rounds p = some (.done d) →
    (∃ d', loop E j ig' fuel rounds q = some (.done d') ∧ d.engine = d'.engine) ∨ ∃ d', loop E j ig' fuel rounds q = some (.clipped d') := by
  intro rounds
  induction rounds with
  | zero => intro p q d _ h; cases h
  | succ rounds ih =>
    intro p q d hi h
    unfold loop at h ⊢
    simp only at h ⊢
    obtain ⟨r, h1, h2⟩ := Option.bind_eq_some_iff.mp h
    obtain ⟨s, h3⟩ := alike_drain_some (ig' := ig') (hi.feed (j := j)) h1
    have ha := Alike.drain (hi.feed (j := j)) h1 h3
    have e : p.frame + ((feed E j p).countIn - p.countIn) = q.frame + ((feed E j q).countIn - q.countIn) := by
      rw [hi.frame, hi.countIn, (hi.feed (E := E) (j := j)).countIn]
    rw [h3, Option.bind_some]
    split
    · exact Or.inr ⟨_, rfl⟩
    · split at h2
      · cases h2
      · split at h2
        · rename_i hf
          cases h2
          rw [if_pos (by rw [← ha.final]; exact hf)]
          exact Or.inl ⟨_, rfl, ha.engine⟩
        · rename_i hf
          rw [if_neg (by rw [← ha.final]; exact hf), ← e]
          exact ih (p := { r with frame := p.frame + ((feed E j p).countIn - p.countIn) }) (q := { s with frame := p.frame + ((feed E j p).countIn - p.countIn) })
            ⟨ha.engine, rfl, ha.countIn, ha.countOut, ha.toDrop, ha.map, ha.final, ha.written⟩ h2

omit [IsStrictOrderedRing K] in
theorem begin_gain {j : Job σ K} {fuel : Nat} {g : K} {p : Pass σ K} (h : begin E j fuel g = some p) (g' : K) : ∃ p', begin E j fuel g' = some p' := by
  unfold begin at h ⊢
  obtain ⟨s, h1, _⟩ := Option.map_eq_some_iff.mp h
  rw [h1]
  exact ⟨_, rfl⟩

theorem begin_told {j : Job σ K} (T : Traced E j.channels) {fuel : Nat} {g : K} {p : Pass σ K} (h : begin E j fuel g = some p) : Told j T (T.log p.engine) p [] := by
  unfold begin at h
  obtain ⟨s, h1, h2⟩ := Option.map_eq_some_iff.mp h
  subst h2
  exact ⟨(List.append_nil _).symm, rfl, Nat.zero_le _, fun _ _ => rfl, fun f hf => absurd hf List.not_mem_nil, fun _ => rfl, rfl, fun _ _ => rfl, [], rfl, fun x hx => absurd hx List.not_mem_nil, rfl⟩

theorem complete_some {j : Job σ K} {fuel : Nat} {p : Pass σ K} (h : E.available p.engine < 0 ∨ E.available p.engine = 0 ∧ (j.realtime || j.threadingNever) = true) : complete E j (fuel + 1) p = some p := by
  unfold complete
  rcases h with h | ⟨h, h'⟩
  · rw [if_pos h]
  · rw [if_neg (by omega), if_pos h, if_pos h']

/-- **C95.**  The utility comes to an end, whatever is clipped, after at most 289 passes. -/
theorem C95_ends {j : Job σ K} (T : Traced E j.channels) (hE : Ends j T) (hj : j.Sound) (ig : Bool) : ∃ fuel d file, passes E j fuel 289 (1 : K) ig (fun _ => []) = some (d, file) := by
  obtain ⟨s, hs⟩ : ∃ s, (if j.realtime then some j.stretcher else study E j (j.length + 1) 0 0 j.stretcher) = some s := by
    split
    · exact ⟨_, rfl⟩
    · exact study_some j _ _ _ _ (by omega)
  have hb : ∀ fuel, j.length + 1 ≤ fuel → ∀ g : K, ∃ p, begin E j fuel g = some p ∧ p.engine = (if j.realtime then pad E (E.startPad (if j.timeMap then E.setKeyFrameMap s else s))
      (E.startPad (if j.timeMap then E.setKeyFrameMap s else s)) (if j.timeMap then E.setKeyFrameMap s else s) else (if j.timeMap then E.setKeyFrameMap s else s)) := by
    intro fuel hf g
    have : (if j.realtime then some j.stretcher else study E j fuel 0 0 j.stretcher) = some s := by
      split
      · rename_i hr; rw [if_pos hr] at hs; exact hs
      · rename_i hr; rw [if_neg hr] at hs; exact study_mono j hf hs
    unfold begin
    rw [this]
    exact ⟨_, rfl, rfl⟩
  obtain ⟨p₁, hp₁, _⟩ := hb (j.length + 1) le_rfl 1
  obtain ⟨F, d₁, hF⟩ := loop_some (j := j) hE.down j.length p₁ (by omega) (begin_facts hp₁).1
  obtain ⟨fuel, hf1, hf2, hf3⟩ : ∃ fuel, F ≤ fuel + 1 ∧ j.length < fuel + 1 ∧ j.length + 1 ≤ fuel + 1 := ⟨max F (j.length + 1), by omega, by omega, by omega⟩
  obtain ⟨p₀, hp₀, _⟩ := hb (fuel + 1) hf3 1
  have hp₁₀ : p₁ = p₀ := by
    unfold begin at hp₁ hp₀
    obtain ⟨s', k1, k2⟩ := Option.map_eq_some_iff.mp hp₁
    obtain ⟨s'', k1', k2'⟩ := Option.map_eq_some_iff.mp hp₀
    have : s' = s'' := by
      by_cases hr : j.realtime = true
      · rw [if_pos hr] at k1 k1'
        cases k1; cases k1'; rfl
      · rw [if_neg hr] at k1 k1'
        have := study_mono j hf3 k1
        rw [k1'] at this
        cases this; rfl
    subst this
    exact k2.symm.trans k2'
  subst hp₁₀
  have hl := hF (fuel + 1) hf1 (fuel + 1) hf2
  have hend : E.available d₁.engine < 0 ∨ E.available d₁.engine = 0 ∧ (j.realtime || j.threadingNever) = true := by
    have ha := loop_available hl
    obtain ⟨l', x, t1, _⟩ := (begin_told T hp₀).loop hj hl
    by_cases hr : (j.realtime || j.threadingNever) = true
    · rcases lt_or_eq_of_le (not_lt.mp ha) with h | h
      · exact Or.inl h
      · exact Or.inr ⟨h, hr⟩
    · have hr' := Bool.or_eq_false_iff.mp (by simpa using hr)
      have := hE.done hr'.1 hr'.2 d₁.engine (by rw [t1, flags_append, flags_append]; exact List.mem_append_right _ (List.mem_append_right _ (List.mem_singleton.mpr rfl)))
      omega
  have hpow : (999 / 1000 : K) ^ 288 < 3 / 4 := by
    rw [show 288 = 144 * 2 from rfl, pow_mul]
    norm_num
  have main : ∀ (most : Nat) (g : K) (ig : Bool) (file : Nat → List K), most ≤ 289 → 0 < g → ((ig = true ∧ 1 ≤ most) ∨ (g ≤ (999 / 1000) ^ (289 - most) ∧ 2 ≤ most)) →
      ∃ d file', passes E j (fuel + 1) most g ig file = some (d, file') := by
    intro most
    induction most with
    | zero => intro g ig file _ _ h; rcases h with h | h <;> omega
    | succ most ih =>
      intro g ig file hm hg h
      obtain ⟨p, hp, _⟩ := hb (fuel + 1) hf3 g
      obtain ⟨b1, b2, _⟩ := begin_facts hp
      unfold passes
      rw [hp, Option.bind_some]
      rcases alike_loop_some (ig' := ig) (begin_alike hp₀ hp) hl with ⟨d', k1, k2⟩ | ⟨d', k1⟩
      · rw [k1, Option.bind_some]
        simp only
        rw [complete_some (by rw [← k2]; exact hend)]
        exact ⟨_, _, rfl⟩
      · have hG : Gain g p := ⟨by rw [b2]; exact hg, b2.le, fun h => (by rw [b1] at h; cases h), fun _ => b2⟩
        obtain ⟨⟨c1, c2, c3, _⟩, c5⟩ := hG.loop k1
        rcases h with ⟨h, _⟩ | ⟨h1, h2⟩
        · subst h
          exact absurd k1 (loop_ignoring b1)
        · rw [k1, Option.bind_some]
          simp only
          have hle : d'.gain ≤ (999 / 1000) ^ (289 - most) := by
            refine (c3 c5).trans ?_
            rw [show 289 - most = 289 - (most + 1) + 1 by omega, pow_succ, mul_comm]
            exact mul_le_mul_of_nonneg_right h1 (by norm_num)
          split
          · exact ih _ _ _ (by omega) (by norm_num) (Or.inl ⟨rfl, by omega⟩)
          · rename_i hge
            refine ih _ _ _ (by omega) c1 (Or.inr ⟨hle, ?_⟩)
            by_contra hlt
            have : (999 / 1000 : K) ^ (289 - most) ≤ (999 / 1000) ^ 288 := pow_le_pow_of_le_one (by norm_num) (by norm_num) (by omega)
            exact hge ((hle.trans this).trans_lt hpow)
  obtain ⟨d, file, h⟩ := main 289 1 ig (fun _ => []) le_rfl zero_lt_one (Or.inr ⟨by simp, by omega⟩)
  exact ⟨fuel + 1, d, file, h⟩

/-! ## C96, C97 -/

/-- **C96** in full: the stretcher is given all audio of the file in order, after the padding, and only the last block is said to be the last; offline it is also given all for studying before. -/
def C96_statement : Prop :=
  ∀ (σ : Type) (E : Engine σ Rat) (j : Job σ Rat) (T : Traced E j.channels), Fresh j T → j.Sound → ∀ (fuel most : Nat) (ig : Bool) (d : Pass σ Rat) (file : Nat → List Rat),
    passes E j fuel most 1 ig (fun _ => []) = some (d, file) → ∃ e k, flags (T.log e) = [] ∧ flags (T.log d.engine) = List.replicate k false ++ [true] ∧ ∀ c, c < j.channels →
      fed c (T.log d.engine) = List.replicate (if j.realtime then E.startPad e else 0) 0 ++ j.input c ∧ studied c (T.log d.engine) = if j.realtime then [] else j.input c

/-- **C96**, in part: if the header of the file does not give fewer frames than there are.  Missing: headers that do (see `C96_violated`). -/
theorem C96_partial {j : Job σ K} {T : Traced E j.channels} (hf : Fresh j T) (hj : j.Sound) (hl : j.length ≤ j.frames) {fuel most : Nat} {ig : Bool} {d : Pass σ K} {file : Nat → List K}
    (h : passes E j fuel most 1 ig (fun _ => []) = some (d, file)) :
    ∃ e k, flags (T.log e) = [] ∧ flags (T.log d.engine) = List.replicate k false ++ [true] ∧ (∃ k, studyFlags (T.log d.engine) = if j.realtime then [] else List.replicate k false ++ [true]) ∧ ∀ c, c < j.channels →
      fed c (T.log d.engine) = List.replicate (if j.realtime then E.startPad e else 0) 0 ++ j.input c ∧ studied c (T.log d.engine) = if j.realtime then [] else j.input c := by
  obtain ⟨g, ig', p, g1, g2, g3, h1, h2, h3⟩ := passes_spec (ig₀ := ig) h (by norm_num) le_rfl (Or.inl rfl) (fun _ _ _ _ _ _ _ => Nat.zero_le _)
  obtain ⟨e, e1, e2, e3, e4, e5, e6, e7, e8, e9, e10, s, s1, s2⟩ := begin_spec hf h1 ig'
  obtain ⟨u1, u2⟩ := begin_unfinished e1 e10
  obtain ⟨l, x, t1, t2, t3, t4, t5, t6, t7⟩ := (begin_told T h1).loop hj h2
  have hkeys : (∀ c, fed c (T.log e) = fed c (T.log s)) ∧ (∀ c, studied c (T.log e) = studied c (T.log s)) ∧ studyFlags (T.log e) = studyFlags (T.log s) := by
    rw [s2]
    split
    · rw [T.log_keys]
      exact ⟨fun c => by rw [fed_append]; exact List.append_nil _, fun c => by rw [studied_append]; exact List.append_nil _, by rw [studyFlags_append]; exact List.append_nil _⟩
    · exact ⟨fun _ => rfl, fun _ => rfl, rfl⟩
  have hbase : (∀ c, fed c (T.log p.engine) = List.replicate (if j.realtime then E.startPad e else 0) 0) ∧ (∃ k, studyFlags (T.log p.engine) = if j.realtime then [] else List.replicate k false ++ [true]) ∧
      ∀ c, c < j.channels → studied c (T.log p.engine) = if j.realtime then [] else j.input c := by
    rw [e10]
    by_cases hr : j.realtime = true
    · rw [if_pos hr] at s1
      obtain rfl := Option.some.inj s1
      rw [hf.1] at hkeys
      obtain ⟨_, l, l1, l2, l3, l4, l5, l6, l7⟩ := pad_spec T (fuel := E.startPad e) (toPad := E.startPad e) (e := e) le_rfl
      simp only [if_pos hr]
      rw [l1]
      refine ⟨fun c => by rw [fed_append, hkeys.1, l2]; rfl, ⟨0, by rw [studyFlags_append, hkeys.2.2, l5]; rfl⟩, fun c _ => by rw [studied_append, hkeys.2.1, l4]; rfl⟩
    · simp only [if_neg hr] at s1 ⊢
      obtain ⟨_, l, l1, l2, l3, l4, l5, l6, l7⟩ := study_spec (T := T) hj hl s1 hf.1 (by simp) (fun _ _ => rfl) (fun _ => rfl) rfl (fun f hf => absurd hf List.not_mem_nil) (fun _ _ => rfl) (fun _ => rfl)
      subst l1
      exact ⟨fun c => by rw [hkeys.1, l3]; rfl, by rw [hkeys.2.2]; exact l5, fun c hc => by rw [hkeys.2.1]; exact l2 c hc⟩
  refine ⟨e, (flags (T.log p.engine)).length + (flags l).length, e1, ?_, ?_, fun c hc => ?_⟩
  · rw [t1, flags_append, flags_append, List.eq_replicate_of_mem u1, List.eq_replicate_of_mem t4, List.length_replicate, List.length_replicate, ← List.append_assoc, List.replicate_append_replicate]
    rfl
  · rw [t1, studyFlags_append, t6, List.append_nil]
    exact hbase.2.1
  · rw [t1, fed_append, studied_append, t3 c hc, t5, List.append_nil, hbase.1, hbase.2.2 c hc, t2 hl, List.take_of_length_le (hj.1 c hc).le]
    exact ⟨rfl, rfl⟩

/-- **C97.**  In real time, every frame of the file is processed with the pitch scale that the frequency map asks for at that frame: that of the last entry at or before it, if there is any. -/
theorem C97_map {j : Job σ K} {T : Traced E j.channels} (hf : Fresh j T) (hj : j.Sound) (hr : j.realtime = true) {fuel most : Nat} {ig : Bool} {d : Pass σ K} {file : Nat → List K}
    (h : passes E j fuel most 1 ig (fun _ => []) = some (d, file)) :
    ∃ e n, flags (T.log e) = [] ∧ (j.length ≤ j.frames → n = j.length) ∧ ∀ c, c < j.channels →
      fed c (T.log d.engine) = List.replicate (E.startPad e) 0 ++ (j.input c).take n ∧ heard c none (T.log d.engine) = List.replicate (E.startPad e) none ++ (List.range n).map (inForce j.freqMap j.frequencyshift) := by
  obtain ⟨g, ig', p, g1, g2, g3, h1, h2, h3⟩ := passes_spec (ig₀ := ig) h (by norm_num) le_rfl (Or.inl rfl) (fun _ _ _ _ _ _ _ => Nat.zero_le _)
  obtain ⟨e, e1, e2, e3, e4, e5, e6, e7, e8, e9, e10, s, s1, s2⟩ := begin_spec hf h1 ig'
  obtain ⟨l, x, t1, t2, t3, t4, t5, t6, t7⟩ := (begin_told T h1).loop hj h2
  rw [if_pos hr] at s1
  obtain rfl := Option.some.inj s1
  have he : (∀ c, fed c (T.log e) = []) ∧ (∀ c, heard c none (T.log e) = []) ∧ current none (T.log e) = none := by
    rw [s2]
    split
    · rw [T.log_keys, hf.1]
      exact ⟨fun _ => rfl, fun _ => rfl, rfl⟩
    · rw [hf.1]
      exact ⟨fun _ => rfl, fun _ => rfl, rfl⟩
  obtain ⟨_, l', l1, l2, l3, l4, l5, l6, l7⟩ := pad_spec T (fuel := E.startPad e) (toPad := E.startPad e) (e := e) le_rfl
  rw [if_pos hr] at e10
  refine ⟨e, d.countIn, e1, t2, fun c hc => ⟨?_, ?_⟩⟩
  · rw [t1, fed_append, t3 c hc, e10, l1, fed_append, he.1, l2]
    rfl
  · rw [t1, heard_append, e10, l1, heard_append, current_append, he.2.1, he.2.2, l6, l7, t7 c hc]
    rfl

/-! ## Examples -/

namespace Ex

/-- A stretcher for one channel that gives what it is given. -/
structure Box where
  log : List (Event Rat)
  queue : List Rat
  out : List Rat
  ended : Bool
  delay : Nat

def through : Engine Box Rat where
  study e x f := { e with log := e.log ++ [.study x f] }
  process e x f := { e with log := e.log ++ [.process x f], queue := e.queue ++ x 0, ended := f }
  available e := if e.queue = [] ∧ e.ended = true then -1 else e.queue.length
  retrieve e n := ({ e with queue := e.queue.drop n, out := e.out ++ e.queue.take n }, fun _ => e.queue.take n)
  startDelay e := e.delay
  startPad e := e.delay
  setPitchScale e v := { e with log := e.log ++ [.pitch v] }
  setKeyFrameMap e := { e with log := e.log ++ [.keys] }

def history : Traced through 1 where
  log e := e.log
  out e _ := e.out
  log_study _ _ _ := rfl
  log_process _ _ _ := rfl
  log_pitch _ _ := rfl
  log_keys _ := rfl
  log_retrieve _ _ := rfl
  out_study _ _ _ _ _ := rfl
  out_process _ _ _ _ _ := rfl
  out_pitch _ _ _ _ := rfl
  out_keys _ _ _ := rfl
  out_retrieve _ _ _ _ := rfl
  length e n c h hc := by
    simp only [through] at h ⊢
    split at h
    · omega
    · rw [List.length_take]
      omega

/-- A file, offline. -/
def job (x : List Rat) (frames : Nat) : Job Box Rat :=
  { stretcher := ⟨[], [], [], false, 0⟩
    channels := 1, realtime := false, threadingNever := true, timeMap := true, freqMap := [], frequencyshift := 1, ideal := id, input := fun _ => x, length := x.length, frames := frames }

/-- A file in real time with a change of pitch at frame 1 and another at frame 3. -/
def live (x : List Rat) : Job Box Rat :=
  { stretcher := ⟨[], [], [], false, 2⟩
    channels := 1, realtime := true, threadingNever := true, timeMap := false, freqMap := [(1, 2), (3, 1 / 2)], frequencyshift := 3, ideal := id, input := fun _ => x, length := x.length, frames := x.length }

theorem job_fresh (x : List Rat) (n : Nat) : Fresh (job x n) history := ⟨rfl, fun _ _ => rfl⟩
theorem job_sound (x : List Rat) (n : Nat) : (job x n).Sound := ⟨fun _ _ => rfl, List.Pairwise.nil⟩
theorem live_fresh (x : List Rat) : Fresh (live x) history := ⟨rfl, fun _ _ => rfl⟩
theorem live_sound (x : List Rat) : (live x).Sound := ⟨fun _ _ => rfl, show List.Pairwise (fun x y : Nat × Rat => x.1 < y.1) [(1, 2), (3, 1 / 2)] by decide⟩

/-- `C94_output`: too loud a sample, and the second pass has a gain below 1. -/
example : (passes through (job [1 / 2, -11 / 10, 1 / 4] 3) 10 10 1 false (fun _ => [])).map (fun r => r.2 0) = some [999 / 2200, -999 / 1000, 999 / 4400] := by decide +kernel
/-- Much too loud: the gain is 3/4 and there is clamping. -/
example : (passes through (job [1 / 2, -2, 1 / 4] 3) 10 10 1 false (fun _ => [])).map (fun r => r.2 0) = some [3 / 8, -1, 3 / 16] := by decide +kernel
/-- In real time the padding is dropped. -/
example : (passes through (live [1 / 2, 1 / 3, -1 / 4, 1 / 5, 0]) 10 10 1 false (fun _ => [])).map (fun r => r.2 0) = some [1 / 2, 1 / 3, -1 / 4, 1 / 5, 0] := by decide +kernel
/-- `C96_partial`, `C97_map`. -/
example : (passes through (live [1 / 2, 1 / 3, -1 / 4, 1 / 5, 0]) 10 10 1 false (fun _ => [])).map (fun r => (fed 0 r.1.engine.log, flags r.1.engine.log, heard 0 none r.1.engine.log)) =
    some ([0, 0, 1 / 2, 1 / 3, -1 / 4, 1 / 5, 0], [false, false, false, true], [none, none, none, some 6, some 6, some (3 / 2), some (3 / 2)]) := by decide +kernel
example : (passes through (job [1 / 2, -2, 1 / 4] 3) 10 10 1 false (fun _ => [])).map (fun r => (fed 0 r.1.engine.log, flags r.1.engine.log, studied 0 r.1.engine.log, studyFlags r.1.engine.log)) =
    some ([1 / 2, -2, 1 / 4], [true], [1 / 2, -2, 1 / 4], [true]) := by decide +kernel

/-- `C95_ends`. -/
theorem through_ends (j : Job Box Rat) (T : Traced through j.channels) (hn : j.threadingNever = true) : Ends j T where
  down e n h0 h := by
    simp only [through] at h ⊢
    split at h
    · omega
    · rename_i hne
      rw [if_neg hne]
      split
      · omega
      · rw [List.length_drop]
        omega
  done _ h := by rw [hn] at h; cases h

example (x : List Rat) (n : Nat) (ig : Bool) : ∃ fuel d file, passes through (job x n) fuel 289 1 ig (fun _ => []) = some (d, file) := C95_ends history (through_ends _ _ rfl) (job_sound x n) ig

end Ex

/-- A file of 1025 frames with a header that does not say how many: the last frame is not read. -/
theorem C96_violated : ¬ C96_statement := by
  intro h
  have hlen : ((passes Ex.through (Ex.job (List.replicate 1025 0) 0) 10 1 1 false (fun _ => [])).map fun r => (fed 0 r.1.engine.log).length) = some 1024 := by decide +kernel
  obtain ⟨⟨d, file⟩, h1, h2⟩ := Option.map_eq_some_iff.mp hlen
  obtain ⟨e, k, _, _, h3⟩ := h _ _ _ Ex.history (Ex.job_fresh _ _) (Ex.job_sound _ _) _ _ _ _ _ h1
  have h4 := congrArg List.length (h3 0 (by decide)).1
  rw [List.length_append, List.length_replicate] at h4
  have h5 : ((Ex.job (List.replicate 1025 0) 0).input 0).length = 1025 := List.length_replicate
  simp only at h2
  rw [h5] at h4
  have h6 : (fed 0 (Ex.history.log d.engine)).length = 1024 := h2
  omega

end Verif.Cli
