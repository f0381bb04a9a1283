import Verif.BQSpec
/-!
# Sessions at a fixed ratio: lemmas
-/
namespace Verif.BQ
variable {α : Type}

/-- The reach of the filter, in input samples, to either side. -/
def reach (cfg : Cfg α) (p : Params) : Nat := filterLengthFor cfg.quality p / 2 / p.num

/-- Sample `k` of a session in which `xs` is put in. -/
def val (cfg : Cfg α) (p : Params) (xs : List α) (k : Nat) : α :=
  value cfg p (filterLengthFor cfg.quality p) (2 * reach cfg p + 1) (reach cfg p) 0 xs k

/-- Whether sample `k` of a session is made when `n` samples have been put in. -/
def DueS (cfg : Cfg α) (p : Params) (final : Bool) (n k : Nat) : Prop :=
  Due p (filterLengthFor cfg.quality p) (2 * reach cfg p + 1) (reach cfg p) final n k

/-- State of a session. -/
structure Live (cfg : Cfg α) (p : Params) (xs : List α) (k : Nat) (s : State α) : Prop where
  at_ : At cfg xs k s
  params : s.params = p
  fl : s.filterLength = filterLengthFor cfg.quality p
  len : s.buffer.length = 2 * reach cfg p + 1
  centre : s.centre = reach cfg p
  left : s.left = 0

theorem Live.same {cfg : Cfg α} {p : Params} {xs ys : List α} {k l : Nat} {s t : State α}
    (h : Live cfg p xs k s) (hst : Same s t) (ht : At cfg ys l t) : Live cfg p ys l t :=
  ⟨ht, hst.params.trans h.params, hst.fl.trans h.fl, hst.len.trans h.len, hst.centre.trans h.centre,
    hst.left.trans h.left⟩

/-- Resampler in a session at `ratio`, that has taken in `xs` and made `k` samples. -/
structure Going (cfg : Cfg α) (ratio : Rat) (p : Params) (xs : List α) (k : Nat) (r : Res α) : Prop where
  pick : pickParams cfg ratio = some p
  pratio : p.ratio = ratio
  fadeCount : r.fadeCount = 0
  fade : r.fade.buffer = [] ∧ r.fade.currentChannel = 0
  state : r.initialised = false ∧ xs = [] ∧ k = 0 ∧ r.s.currentChannel = 0 ∨
    r.initialised = true ∧ Live cfg p xs k r.s

theorem fresh_at {cfg : Cfg α} {s : State α} (hg : Good cfg s) (h1 : s.fill = s.centre)
    (h2 : s.currentPhase = s.initialPhase)
    (h3 : s.buffer = List.replicate (2 * (s.filterLength / 2 / s.params.num) + 1) cfg.ar.zero) :
    At cfg [] 0 s := by
  have hn := hg.num_pos
  have hip := hg.ip_lt
  refine ⟨hg, by rw [h2, hg.ip, phaseAt_zero hn hip], ?_, ?_⟩
  · rw [dropped_zero hn hip, h1]; simp
  · intro i hi
    rw [sig_beyond' , h3]
    · rw [h3] at hi
      simp at hi
      rw [List.getElem?_replicate_of_lt (by omega)]
where
  sig_beyond' {z : α} {c i : Nat} : sig z c ([] : List α) i = z := by
    unfold sig; split <;> simp

theorem prepare_going {cfg : Cfg α} (hc : cfg.channels = 1) {ratio : Rat} (hr : ValidRatio ratio)
    {p : Params} {xs : List α} {k : Nat} {r : Res α} (h : Going cfg ratio p xs k r) (fl : Nat) :
    ∃ r', prepare cfg r ratio fl = some r' ∧ Going cfg ratio p xs k r' ∧ r'.initialised = true ∧
      Live cfg p xs k r'.s := by
  rcases h.state with ⟨a1, a2, a3, a4⟩ | ⟨a1, a2⟩
  · subst a2 a3
    obtain ⟨s', b1, b2, b3, b4, b5, b6⟩ := stateForRatio_spec hc a4 (Or.inl h.fade : Ok cfg r.fade) hr
    obtain ⟨b6, b7, b8⟩ := b6 h.fade.1
    have hp : s'.params = p := by
      rw [h.pick] at b4; exact (Option.some.inj b4).symm
    have hlen : s'.buffer.length = 2 * reach cfg p + 1 := by
      rw [b8, List.length_replicate, b5, hp]; rfl
    have hcen : s'.centre = reach cfg p := by rw [b2.centre, hlen]; omega
    have hlive : Live cfg p [] 0 s' := by
      refine ⟨fresh_at b2 b6 b7 b8, hp, by rw [b5, hp], hlen, hcen, ?_⟩
      rw [b2.left, hcen, b5, hp]
      unfold reach; omega
    refine ⟨{ r with s := s', initialised := true }, ?_, ⟨h.pick, h.pratio, h.fadeCount, h.fade, Or.inr ⟨rfl, hlive⟩⟩,
      rfl, hlive⟩
    unfold prepare
    simp only [a1, Bool.false_eq_true, not_false_eq_true, if_true, b1, Option.bind_eq_bind, Option.bind_some]
    rfl
  · refine ⟨r, ?_, h, a1, a2⟩
    unfold prepare
    simp only [a1, not_true_eq_false, if_false]
    rw [if_neg]
    rw [a2.params, h.pratio]
    simp

/-- One call, and how much of its input it takes. -/
theorem resample_going_least {cfg : Cfg α} (hc : cfg.channels = 1) {ratio : Rat} (hr : ValidRatio ratio)
    {p : Params} {xs : List α} {k : Nat} {r : Res α} (h : Going cfg ratio p xs k r)
    {out : List α} {outspace : Nat} (ho : outspace ≤ out.length)
    {inp : List α} {incount : Nat} (hi : incount ≤ inp.length) (final : Bool) :
    ∃ r' out' n m, resample cfg r out outspace inp incount ratio final = some (r', out', n) ∧
      Going cfg ratio p (xs ++ inp.take m) (k + n) r' ∧ m ≤ incount ∧ n ≤ outspace ∧
      (n < outspace → m = incount ∧ ¬ DueS cfg p final (xs.length + m) (k + n)) ∧
      out'.take n = (List.range n).map (fun j => val cfg p (xs ++ inp.take m) (k + j)) ∧
      (∀ j, j < n → DueS cfg p final (xs.length + m) (k + j)) ∧
      (n = outspace → m = 0 ∨ 0 < outspace ∧ reach cfg p + (xs.length + m) ≤
        dropped p.num p.den (filterLengthFor cfg.quality p / 2 % p.num) (k + outspace - 1) + (2 * reach cfg p + 1)) := by
  obtain ⟨r1, a1, a2, a3, a4⟩ := prepare_going hc hr h (fadeLengthFor cfg outspace incount ratio)
  obtain ⟨s', n, out', m, b1, b2, b3, b4, b5, b6, b7, b8, b9, b10, b11, b12⟩ := mainLoop_at hc final inp incount hi outspace
    0 0 r1.s out xs k a4.at_ (by omega) (by omega)
  rw [a4.params, a4.fl, a4.len, a4.centre, a4.left] at b8
  rw [a4.params, a4.fl, a4.len, a4.centre] at b9 b12
  simp only [List.drop_zero, Nat.sub_zero, Nat.zero_add] at b2 b3 b4 b5 b6 b7 b8 b9 b12
  have hlive := a4.same b3 b2
  refine ⟨{ r1 with s := s', fade := r1.fade, fadeCount := 0 }, out', n, m, ?_, ?_, b4, b6, ?_, ?_, b9, b12⟩
  · unfold resample
    simp only [a1, Option.bind_eq_bind, Option.bind_some, hc, Nat.mul_one, b1, a2.fadeCount, Nat.div_one]
    have : fadeLoop cfg inp incount (fadeLengthFor cfg outspace incount ratio) n 0 0 r1.fade 0 out' = some (r1.fade, 0, out') := by
      cases n <;> simp [fadeLoop]
    rw [this]
    rfl
  · exact ⟨h.pick, h.pratio, rfl, a2.fade, Or.inr ⟨a3, hlive⟩⟩
  · intro hn
    obtain ⟨c1, c2⟩ := b7 hn
    refine ⟨c1, ?_⟩
    intro hd
    have := (ready_at b2 final).mpr (by
      rw [hlive.params, hlive.fl, hlive.len, hlive.centre, List.length_append, List.length_take,
        Nat.min_eq_left (by omega)]
      exact hd)
    rw [this] at c2
    cases c2
  · apply List.ext_getElem?
    intro j
    by_cases hj : j < n
    · rw [List.getElem?_take_of_lt hj, b8 j hj]
      simp [hj, val]
    · rw [List.getElem?_eq_none (by simp; omega), List.getElem?_eq_none (by simp; omega)]

theorem resample_going {cfg : Cfg α} (hc : cfg.channels = 1) {ratio : Rat} (hr : ValidRatio ratio)
    {p : Params} {xs : List α} {k : Nat} {r : Res α} (h : Going cfg ratio p xs k r)
    {out : List α} {outspace : Nat} (ho : outspace ≤ out.length)
    {inp : List α} {incount : Nat} (hi : incount ≤ inp.length) (final : Bool) :
    ∃ r' out' n m, resample cfg r out outspace inp incount ratio final = some (r', out', n) ∧
      Going cfg ratio p (xs ++ inp.take m) (k + n) r' ∧ m ≤ incount ∧ n ≤ outspace ∧
      (n < outspace → m = incount ∧ ¬ DueS cfg p final (xs.length + m) (k + n)) ∧
      out'.take n = (List.range n).map (fun j => val cfg p (xs ++ inp.take m) (k + j)) ∧
      (∀ j, j < n → DueS cfg p final (xs.length + m) (k + j)) := by
  obtain ⟨r', out', n, m, a1, a2, a3, a4, a5, a6, a7, _⟩ := resample_going_least hc hr h ho hi final
  exact ⟨r', out', n, m, a1, a2, a3, a4, a5, a6, a7⟩

theorem val_append (cfg : Cfg α) (p : Params) (xs ys : List α) (k : Nat)
    (h : dropped p.num p.den (filterLengthFor cfg.quality p / 2 % p.num) k + (2 * reach cfg p + 1) ≤ reach cfg p + xs.length) :
    val cfg p (xs ++ ys) k = val cfg p xs k :=
  value_append _ _ _ _ _ _ (by omega) _ _ _ h

theorem due_false {cfg : Cfg α} {p : Params} {n k : Nat} : DueS cfg p false n k ↔
    dropped p.num p.den (filterLengthFor cfg.quality p / 2 % p.num) k + (2 * reach cfg p + 1) ≤ reach cfg p + n := by
  unfold DueS Due
  simp

theorem due_mono {cfg : Cfg α} {p : Params} {n m k : Nat} (h : DueS cfg p false n k) (hm : n ≤ m) (final : Bool) :
    DueS cfg p final m k := by
  have := due_false.mp h
  unfold DueS Due
  left; omega

/-- A session with one channel, from any point of it. -/
theorem session_going {cfg : Cfg α} (hc : cfg.channels = 1) {ratio : Rat} (hr : ValidRatio ratio)
    {p : Params} {final : Bool} {last : Call α} : ∀ (blocks : List (Call α)) (xs : List α) (k : Nat) (r : Res α),
    Session 1 ratio final blocks last → Going cfg ratio p xs k r → (∀ j, j < k → DueS cfg p false xs.length j) →
    ∃ res, run cfg r (blocks.map Op.call ++ [Op.call last]) = some res ∧
      (Roomy (blocks ++ [last]) res → ∃ K,
        (List.range k).map (val cfg p xs) ++ output 1 0 res =
          (List.range K).map (val cfg p (xs ++ input 1 0 (blocks ++ [last]))) ∧
        (∀ j, j < K → DueS cfg p final (xs ++ input 1 0 (blocks ++ [last])).length j) ∧
        ¬ DueS cfg p final (xs ++ input 1 0 (blocks ++ [last])).length K) := by
  intro blocks
  induction blocks with
  | nil =>
    intro xs k r hs hg hd
    obtain ⟨v1, v2, v3⟩ := hs.last
    have vo := v1.out
    have vi := v1.inp
    rw [Nat.mul_one] at vo vi
    obtain ⟨r', out', n, m, a1, a2, a3, a4, a5, a6, a7⟩ := resample_going hc hr hg vo vi final
    refine ⟨[(out', n)], ?_, ?_⟩
    · simp only [List.map_nil, List.nil_append, run, v2, v3, a1, Option.bind_eq_bind, Option.bind_some]
      rfl
    · intro hroom
      have hn : n < last.outspace := by
        cases hroom with
        | cons h _ => exact h
      obtain ⟨b1, b2⟩ := a5 hn
      subst b1
      have hin : input 1 0 ([] ++ [last]) = last.inp.take last.incount := by
        simp [input, chan_one _ _ vi]
      have hout : output 1 0 [(out', n)] = out'.take n := by
        simp only [output, List.map_cons, List.map_nil, List.flatten_cons, List.flatten_nil, List.append_nil]
        apply chan_one
        have := congrArg List.length a6
        simp at this
        omega
      have hlen : (xs ++ last.inp.take last.incount).length = xs.length + last.incount := by simp; omega
      rw [hin, hout, a6]
      refine ⟨k + n, ?_, ?_, ?_⟩
      · rw [List.range_add, List.map_append, List.map_map]
        congr 1
        apply List.map_congr_left
        intro j hj
        rw [List.mem_range] at hj
        exact (val_append cfg p xs _ j (due_false.mp (hd j hj))).symm
      · intro j hj
        rw [hlen]
        rcases Nat.lt_or_ge j k with h | h
        · exact due_mono (hd j h) (by omega) final
        · have := a7 (j - k) (by omega)
          rw [show k + (j - k) = j by omega] at this
          exact this
      · rw [hlen]; exact b2
  | cons b blocks ih =>
    intro xs k r hs hg hd
    obtain ⟨v1, v2, v3⟩ := hs.blocks b (by simp)
    have vo := v1.out
    have vi := v1.inp
    rw [Nat.mul_one] at vo vi
    obtain ⟨r', out', n, m, a1, a2, a3, a4, a5, a6, a7⟩ := resample_going hc hr hg vo vi false
    have hlen : (xs ++ b.inp.take m).length = xs.length + m := by simp; omega
    have hd' : ∀ j, j < k + n → DueS cfg p false (xs ++ b.inp.take m).length j := by
      intro j hj
      rw [hlen]
      rcases Nat.lt_or_ge j k with h | h
      · exact due_mono (hd j h) (by omega) false
      · have := a7 (j - k) (by omega)
        rw [show k + (j - k) = j by omega] at this
        exact this
    obtain ⟨res, c1, c2⟩ := ih (xs ++ b.inp.take m) (k + n) r' ⟨fun a ha => hs.blocks a (by simp [ha]), hs.last⟩ a2 hd'
    refine ⟨(out', n) :: res, ?_, ?_⟩
    · simp only [List.map_cons, List.cons_append, run, v2, v3, a1, Option.bind_eq_bind, Option.bind_some]
      rw [c1]
      rfl
    · intro hroom
      have hsplit : n < b.outspace ∧ Roomy (blocks ++ [last]) res := by
        cases hroom with
        | cons h h' => exact ⟨h, h'⟩
      obtain ⟨b1, b2⟩ := a5 hsplit.1
      subst b1
      obtain ⟨K, d1, d2, d3⟩ := c2 hsplit.2
      have hin : input 1 0 (b :: blocks ++ [last]) = b.inp.take b.incount ++ input 1 0 (blocks ++ [last]) := by
        simp [input, chan_one _ _ vi]
      have hout : output 1 0 ((out', n) :: res) = out'.take n ++ output 1 0 res := by
        simp only [output, List.map_cons, List.flatten_cons]
        congr 1
        apply chan_one
        have := congrArg List.length a6
        simp at this
        omega
      rw [hin, ← List.append_assoc]
      refine ⟨K, ?_, d2, d3⟩
      rw [← d1, hout, ← List.append_assoc, a6]
      congr 1
      rw [List.range_add, List.map_append, List.map_map]
      congr 1
      apply List.map_congr_left
      intro j hj
      rw [List.mem_range] at hj
      exact (val_append cfg p xs _ j (due_false.mp (hd j hj))).symm

theorem init_going {cfg : Cfg α} {ratio : Rat} (hr : ValidRatio ratio) :
    ∃ p, Going cfg ratio p [] 0 (init : Res α) ∧ 0 < p.num ∧ 0 < p.den ∧ Nat.Coprime p.num p.den ∧
      12 * max p.den p.num + 1 ≤ filterLengthFor cfg.quality p ∧ filterLengthFor cfg.quality p % 2 = 1 := by
  obtain ⟨p, p1, p2, p3, p4, p5, p6⟩ := pickParams_spec cfg hr
  obtain ⟨f1, f2⟩ := filterLength_ge cfg.quality p p6
  exact ⟨p, ⟨p1, p2, rfl, ⟨rfl, rfl⟩, Or.inl ⟨rfl, rfl, rfl, rfl⟩⟩, p3, p4, p5, f1, f2⟩

/-- The number of samples of a finished session. -/
theorem due_total {cfg : Cfg α} {p : Params} (hn : 0 < p.num) {N K : Nat}
    (h1 : ∀ j, j < K → DueS cfg p true N j) (h2 : ¬ DueS cfg p true N K) :
    N * p.num ≤ K * p.den ∧ (0 < K → (K - 1) * p.den < N * p.num + p.num) := by
  have hip : filterLengthFor cfg.quality p / 2 % p.num < p.num := Nat.mod_lt _ hn
  constructor
  · have a1 := phaseAt_add hn hip p.den K
    have a2 := phaseAt_lt hn hip p.den K
    unfold DueS Due at h2
    simp only [true_and, not_or, not_and, not_not] at h2
    obtain ⟨b1, b2, b3⟩ := h2
    generalize hd : dropped p.num p.den (filterLengthFor cfg.quality p / 2 % p.num) K = d at *
    rcases Nat.lt_or_ge N d with h | h
    · have : (N + 1) * p.num ≤ d * p.num := Nat.mul_le_mul_right _ h
      rw [Nat.add_mul] at this
      omega
    · have hdN : d = N := by omega
      have := b3 hdN
      subst hdN
      omega
  · intro hK
    have h := h1 (K - 1) (by omega)
    have a1 := phaseAt_add hn hip p.den (K - 1)
    have hle : dropped p.num p.den (filterLengthFor cfg.quality p / 2 % p.num) (K - 1) ≤ N := by
      unfold DueS Due at h
      simp only [true_and] at h
      omega
    have := Nat.mul_le_mul_right p.num hle
    omega

end Verif.BQ
