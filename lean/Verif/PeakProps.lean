import Verif.PeakLemmas
/-!
# Nearest-peak maps: property C36
-/
namespace Verif.Peak
variable {α : Type}

/-- **C36.**  Whatever the values, the comparison, the range and the radius `p`, as
long as the arrays are as long as the range asks and the range is no longer than
the object was made for: no access leaves an array; entries outside the range are
left alone; every entry of `nearest` in the range is the nearest peak (the higher
of two equally near), or the bin itself if there is no peak; every entry of `next`
is the first peak at or above the bin, or the bin itself if there is none. -/
theorem C36_nearest_next (greater : α → α → Bool) (m_n : Nat) (v : List α) (s c p : Nat)
    (hc : c ≤ m_n) (hv : s + c ≤ v.length) (near0 next0 : List Int)
    (h1 : s + c ≤ near0.length) (h2 : s + c ≤ next0.length) :
    ∃ near next, findNearestAndNextPeaks greater m_n v s c p (some near0) (some next0)
        = some (some near, some next) ∧
      near.length = near0.length ∧ next.length = next0.length ∧
      (∀ k, k < s ∨ s + c ≤ k → near[k]? = near0[k]? ∧ next[k]? = next0[k]?) ∧
      ∀ i, s ≤ i → i < s + c →
        let P := IsPeak greater v s (s + c) p
        ((∃ q, P q) → ∃ q : Nat, near[i]? = some (q : Int) ∧ IsNearest P i q) ∧
        ((¬ ∃ q, P q) → near[i]? = some (i : Int)) ∧
        ((∃ q, P q ∧ i ≤ q) → ∃ q : Nat, next[i]? = some (q : Int) ∧ IsNext P i q) ∧
        ((¬ ∃ q, P q ∧ i ≤ q) → next[i]? = some (i : Int)) := by
  obtain ⟨P, p1, p2, p3⟩ := findLoop_spec greater v (s := s) (n := s + c) (p := p) (room := m_n) hv
    (by omega) c s [] (Nat.le_refl s) rfl (by simp) List.Pairwise.nil (by
      intro q
      simp only [List.not_mem_nil, false_iff, not_and]
      intro hq
      have := hq.1
      omega)
  obtain ⟨near, next, m1, m2, m3⟩ := mapLoop_spec p2 (s := s) (n := s + c)
    (near0 := some near0) (next0 := some next0) (by rintro o ⟨⟩; exact h1) (by rintro o ⟨⟩; exact h2)
    c s 0 ((s : Int) - 1) (some near0) (some next0) rfl (Nat.le_refl s)
    ⟨Nat.zero_le _, fun t h ht => by omega, fun t h _ => by
      have := ((p3 P[t]).mp (List.getElem_mem h)).1
      exact this, fun h => by omega⟩
    (fun _ => by omega)
    ⟨rfl, fun _ _ => rfl, fun k h1 h2 => by omega⟩ ⟨rfl, fun _ _ => rfl, fun k h1 h2 => by omega⟩
  cases near with
  | none => exact m2.elim
  | some near =>
  cases next with
  | none => exact m3.elim
  | some next =>
  obtain ⟨a1, a2, a3⟩ := m2
  obtain ⟨b1, b2, b3⟩ := m3
  refine ⟨near, next, ?_, a1, b1, fun k hk => ⟨a2 k hk, b2 k hk⟩, ?_⟩
  · unfold findNearestAndNextPeaks
    simp only [p1, Option.bind_eq_bind, Option.bind_some, m1]
  · intro i hi1 hi2
    obtain ⟨x, x1, x2⟩ := a3 i hi1 hi2
    obtain ⟨y, y1, y2⟩ := b3 i hi1 hi2
    have hmem : (fun q => q ∈ P) = IsPeak greater v s (s + c) p := by
      funext q; exact propext (p3 q)
    rw [x1, y1]
    refine ⟨?_, ?_, ?_, ?_⟩
    · rintro ⟨q, hq⟩
      have hne : P ≠ [] := by
        intro he; have := (p3 q).mpr hq; rw [he] at this; simp at this
      obtain ⟨r, r1, r2⟩ := x2.2 hne
      rw [hmem] at r2
      exact ⟨r, by rw [r1], r2⟩
    · intro hno
      have he : P = [] := by
        cases hP : P with
        | nil => rfl
        | cons q t => exact absurd ⟨q, (p3 q).mp (by rw [hP]; simp)⟩ hno
      rw [x2.1 he]
    · rintro ⟨q, hq, hiq⟩
      obtain ⟨r, r1, r2⟩ := y2.2 ⟨q, (p3 q).mpr hq, hiq⟩
      rw [hmem] at r2
      exact ⟨r, by rw [r1], r2⟩
    · intro hno
      rw [y2.1 (fun q hq => by
        by_contra hge
        exact hno ⟨q, (p3 q).mp hq, by omega⟩)]

/-- **C36.**  With an ordinary comparison a non-empty range always has a peak, so
every bin is mapped to one. -/
theorem C36_peak_exists [LinearOrder α] (v : List α) (s c p : Nat) (hc : 1 ≤ c)
    (hv : s + c ≤ v.length) : ∃ q, IsPeak (fun a b => decide (a > b)) v s (s + c) p q := by
  -- the first of the largest values
  have : ∀ c, 1 ≤ c → s + c ≤ v.length → ∃ q x, s ≤ q ∧ q < s + c ∧ v[q]? = some x ∧
      (∀ k y, s ≤ k → k < q → v[k]? = some y → y < x) ∧
      (∀ k y, q < k → k < s + c → v[k]? = some y → ¬ x < y) := by
    intro c
    induction c with
    | zero => intro h; omega
    | succ c ih =>
      intro _ hv
      have hl : s + c < v.length := by omega
      have hget := List.getElem?_eq_getElem hl
      rcases Nat.eq_zero_or_pos c with hz | hz
      · subst hz
        exact ⟨s, v[s], Nat.le_refl _, by omega, List.getElem?_eq_getElem (by omega),
          fun k y h1 h2 => by omega, fun k y h1 h2 => by omega⟩
      · obtain ⟨q, x, q1, q2, q3, q4, q5⟩ := ih hz (by omega)
        by_cases hlt : x < v[s + c]
        · refine ⟨s + c, v[s + c], by omega, by omega, hget, ?_, fun k y h1 h2 => by omega⟩
          intro k y h1 h2 h3
          rcases Nat.lt_trichotomy k q with h | h | h
          · exact lt_trans (q4 k y h1 h h3) hlt
          · subst h; rw [q3] at h3; cases h3; exact hlt
          · exact lt_of_le_of_lt (not_lt.mp (q5 k y h h2 h3)) hlt
        · refine ⟨q, x, q1, by omega, q3, q4, ?_⟩
          intro k y h1 h2 h3
          by_cases hk : k = s + c
          · subst hk; rw [hget] at h3; cases h3; exact hlt
          · exact q5 k y h1 (by omega) h3
  obtain ⟨q, x, q1, q2, q3, q4, q5⟩ := this c hc hv
  refine ⟨q, q1, q2, x, q3, ?_, ?_⟩
  · intro k y h1 h2 _ h3
    simpa using q4 k y h1 h2 h3
  · intro k y h1 h2 _ h3
    have := q5 k y h1 h2 h3
    simpa using this

/-- Peaks at 1 and 4, radius 1, range 0..5 of 6. -/
example : findNearestAndNextPeaks (fun a b => decide (a > b)) 6 [1, 5, 2, 2, 7, (3 : Nat)] 0 6 1
    (some [9, 9, 9, 9, 9, 9]) (some [9, 9, 9, 9, 9, 9])
    = some (some [1, 1, 1, 4, 4, 4], some [1, 1, 4, 4, 4, 5]) := by decide +kernel

/-- A part range leaves the other entries alone; a tie goes to the higher peak. -/
example : findNearestAndNextPeaks (fun a b => decide (a > b)) 6 [1, 5, 2, 6, 7, (3 : Nat)] 1 3 1
    (some [9, 9, 9, 9, 9, 9]) none
    = some (some [9, 1, 3, 3, 9, 9], none) := by decide +kernel

end Verif.Peak
