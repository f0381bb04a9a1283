import Verif.PeakSpec
import Mathlib.Order.Basic
namespace Verif.Peak
variable {α : Type}

theorem neighbours_spec (greater : α → α → Bool) (v : List α) {s n i : Nat} (x : α) 
    (hn : n ≤ v.length) : ∀ (fuel : Nat) (k : Int),
    ∃ b, neighbours greater v s n i x fuel k = some b ∧
      (b = true ↔
        (∀ m y, s ≤ m → m < i → k ≤ (m : Int) → (m : Int) < k + fuel → m < n → v[m]? = some y → greater x y = true) ∧
        (∀ m y, s ≤ m → i < m → m < n → k ≤ (m : Int) → (m : Int) < k + fuel → v[m]? = some y →
          greater y x = false)) := by
  intro fuel
  induction fuel with
  | zero =>
    intro k
    refine ⟨true, rfl, ?_⟩
    simp only [true_iff]
    exact ⟨fun m y _ _ _ _ => by omega, fun m y _ _ _ _ _ => by omega⟩
  | succ fuel ih =>
    intro k
    obtain ⟨b, h1, h2⟩ := ih (k + 1)
    unfold neighbours
    by_cases hsk : k < s ∨ k = i
    · rw [if_pos hsk]
      refine ⟨b, h1, h2.trans ⟨fun h => ⟨?_, ?_⟩, fun h => ⟨?_, ?_⟩⟩⟩
      · intro m y a1 a2 a3 a4 a5 a6
        exact h.1 m y a1 a2 (by omega) (by omega) a5 a6
      · intro m y a1 a2 a3 a4 a5 a6
        exact h.2 m y a1 a2 a3 (by omega) (by omega) a6
      · intro m y a1 a2 a3 a4 a5 a6
        exact h.1 m y a1 a2 (by omega) (by omega) a5 a6
      · intro m y a1 a2 a3 a4 a5 a6
        exact h.2 m y a1 a2 a3 (by omega) (by omega) a6
    · rw [if_neg hsk]
      by_cases hkn : k ≥ n
      · rw [if_pos hkn]
        refine ⟨true, rfl, ?_⟩
        simp only [true_iff]
        exact ⟨fun m y _ _ _ _ => by omega, fun m y _ _ _ _ _ => by omega⟩
      · rw [if_neg hkn]
        have hlt : k.toNat < v.length := by omega
        rw [List.getElem?_eq_getElem hlt]
        simp only
        have hkk : ((k.toNat : Nat) : Int) = k := by omega
        have hget := List.getElem?_eq_getElem hlt
        by_cases c1 : k < i ∧ ¬ greater x v[k.toNat] = true
        · rw [if_pos c1]
          refine ⟨false, rfl, ?_⟩
          constructor
          · intro h; cases h
          · intro h
            exact absurd (h.1 k.toNat _ (by omega) (by omega) (by omega) (by omega) (by omega) hget) c1.2
        · rw [if_neg c1]
          by_cases c2 : k > i ∧ greater v[k.toNat] x = true
          · rw [if_pos c2]
            refine ⟨false, rfl, ?_⟩
            constructor
            · intro h; cases h
            · intro h
              have := h.2 k.toNat _ (by omega) (by omega) (by omega) (by omega) (by omega) hget
              rw [c2.2] at this; cases this
          · rw [if_neg c2]
            refine ⟨b, h1, h2.trans ⟨fun h => ⟨?_, ?_⟩, fun h => ⟨?_, ?_⟩⟩⟩
            · intro m y a1 a2 a3 a4 a5 a6
              by_cases hm : (m : Int) = k
              · have : m = k.toNat := by omega
                subst this
                rw [hget] at a6
                cases a6
                by_contra hg
                exact c1 ⟨by omega, hg⟩
              · exact h.1 m y a1 a2 (by omega) (by omega) a5 a6
            · intro m y a1 a2 a3 a4 a5 a6
              by_cases hm : (m : Int) = k
              · have : m = k.toNat := by omega
                subst this
                rw [hget] at a6
                cases a6
                by_contra hg
                exact c2 ⟨by omega, by simpa using hg⟩
              · exact h.2 m y a1 a2 a3 (by omega) (by omega) a6
            · intro m y a1 a2 a3 a4 a5 a6
              exact h.1 m y a1 a2 (by omega) (by omega) a5 a6
            · intro m y a1 a2 a3 a4 a5 a6
              exact h.2 m y a1 a2 a3 (by omega) (by omega) a6

/-- The locations found: exactly the peaks, in increasing order. -/
theorem findLoop_spec (greater : α → α → Bool) (v : List α) {s n p room : Nat} (hn : n ≤ v.length)
    (hr : n - s ≤ room) : ∀ (rounds i : Nat) (found : List Nat),
    s ≤ i → i + rounds = n → found.length ≤ i - s → found.Pairwise (· < ·) →
    (∀ q, q ∈ found ↔ IsPeak greater v s n p q ∧ q < i) →
    ∃ P, findLoop greater v s n p room rounds i found = some P ∧ P.Pairwise (· < ·) ∧
      ∀ q, q ∈ P ↔ IsPeak greater v s n p q := by
  intro rounds
  induction rounds with
  | zero =>
    intro i found hs hi hl hp hq
    refine ⟨found, rfl, hp, fun q => (hq q).trans ⟨fun h => h.1, fun h => ⟨h, ?_⟩⟩⟩
    have := h.2.1; omega
  | succ rounds ih =>
    intro i found hs hi hl hp hq
    unfold findLoop
    have hiv : i < v.length := by omega
    have hget := List.getElem?_eq_getElem hiv
    rw [hget]
    simp only
    obtain ⟨b, b1, b2⟩ := neighbours_spec greater v (s := s) (n := n) (i := i) v[i] hn (2 * p + 1)
      ((i : Int) - p)
    rw [b1]
    have hpk : b = true ↔ IsPeak greater v s n p i := by
      rw [b2]
      constructor
      · intro h
        refine ⟨hs, by omega, v[i], hget, ?_, ?_⟩
        · intro k y a1 a2 a3 a4
          exact h.1 k y a1 a2 (by omega) (by omega) (by omega) a4
        · intro k y a1 a2 a3 a4
          exact h.2 k y (by omega) a1 a2 (by omega) (by omega) a4
      · rintro ⟨_, _, x, hx, h1, h2⟩
        rw [hget] at hx
        cases hx
        refine ⟨?_, ?_⟩
        · intro m y a1 a2 a3 a4 a5 a6
          exact h1 m y a1 a2 (by omega) a6
        · intro m y a1 a2 a3 a4 a5 a6
          exact h2 m y a2 a3 (by omega) a6
    cases b with
    | false =>
      simp only
      apply ih (i + 1) found (by omega) (by omega) (by omega) hp
      intro q
      rw [hq]
      constructor
      · rintro ⟨h1, h2⟩; exact ⟨h1, by omega⟩
      · rintro ⟨h1, h2⟩
        refine ⟨h1, ?_⟩
        by_cases hqi : q = i
        · subst hqi; exact absurd (hpk.mpr h1) (by simp)
        · omega
    | true =>
      simp only
      rw [if_pos (by omega)]
      apply ih (i + 1) (found ++ [i]) (by omega) (by omega) (by simp; omega)
      · rw [List.pairwise_append]
        refine ⟨hp, by simp, ?_⟩
        intro a ha c hc
        simp at hc
        have := ((hq a).mp ha).2
        omega
      · intro q
        rw [List.mem_append, hq]
        simp only [List.mem_singleton]
        constructor
        · rintro (⟨h1, h2⟩ | h)
          · exact ⟨h1, by omega⟩
          · subst h; exact ⟨hpk.mp rfl, by omega⟩
        · rintro ⟨h1, h2⟩
          by_cases hqi : q = i
          · right; exact hqi
          · left; exact ⟨h1, by omega⟩

/-- Where the map loop stands before bin `i`: `j` peaks lie below `i`, and `pp` is
the last of them. -/
structure At (P : List Nat) (s i j : Nat) (pp : Int) : Prop where
  le : j ≤ P.length
  below : ∀ t (h : t < P.length), t < j → P[t] < i
  above : ∀ t (h : t < P.length), j ≤ t → i ≤ P[t]
  last : ∀ h : 0 < j, pp = (P[j - 1]'(by omega) : Int)

theorem getD_eq {P : List Nat} {j : Nat} (h : j < P.length) : P.getD j 0 = P[j] := by
  simp [h]

theorem advance_spec {P : List Nat} (hP : P.Pairwise (· < ·)) {s i j : Nat} {pp : Int}
    (h : At P s i j pp) :
    At P s (i + 1) (advance P i (candidate P i j) P.length j pp).1
      (advance P i (candidate P i j) P.length j pp).2 := by
  obtain ⟨hle, hb, ha, hl⟩ := h
  have stop : ∀ fuel j pp, (∀ t (h : t < P.length), j ≤ t → i + 1 ≤ P[t]) →
      advance P i (candidate P i j) fuel j pp = (j, pp) ∧
      ∀ np, advance P i np fuel j pp = (j, pp) := by
    intro fuel j pp hab
    have : ∀ np, advance P i np fuel j pp = (j, pp) := by
      intro np
      cases fuel with
      | zero => rfl
      | succ fuel =>
        unfold advance
        rw [if_neg]
        rintro ⟨h1, h2⟩
        rw [getD_eq h1] at h2
        have := hab j h1 (Nat.le_refl _)
        omega
    exact ⟨this _, this⟩
  by_cases hj : j < P.length
  · by_cases hji : P[j] = i
    · have hnp : candidate P i j = (i : Int) := by
        unfold candidate
        rw [if_pos hj, getD_eq hj, hji]
      have hnext : ∀ t (h : t < P.length), j + 1 ≤ t → i + 1 ≤ P[t] := by
        intro t ht hjt
        have := List.pairwise_iff_getElem.mp hP j t hj ht (by omega)
        omega
      have hone : advance P i (candidate P i j) P.length j pp = (j + 1, (i : Int)) := by
        rw [hnp]
        obtain ⟨f, hf⟩ : ∃ f, P.length = f + 1 := ⟨P.length - 1, by omega⟩
        rw [hf]
        unfold advance
        rw [if_pos ⟨hj, by rw [getD_eq hj]; omega⟩]
        exact (stop f (j + 1) i hnext).2 _
      rw [hone]
      refine ⟨by simp only; omega, ?_, hnext, ?_⟩
      · intro t ht htj
        simp only at htj
        rcases Nat.lt_or_ge t j with h | h
        · have := hb t ht h; omega
        · have : t = j := by omega
          subst this; omega
      · intro _
        simp only [Nat.add_sub_cancel]
        omega
    · have hab : ∀ t (h : t < P.length), j ≤ t → i + 1 ≤ P[t] := by
        intro t ht hjt
        have h1 := ha j hj (Nat.le_refl _)
        rcases Nat.eq_or_lt_of_le hjt with h | h
        · subst h; omega
        · have := List.pairwise_iff_getElem.mp hP j t hj ht h
          omega
      rw [(stop P.length j pp hab).1]
      exact ⟨hle, fun t ht htj => by have := hb t ht htj; omega, hab, hl⟩
  · have hab : ∀ t (h : t < P.length), j ≤ t → i + 1 ≤ P[t] := by
      intro t ht hjt; omega
    rw [(stop P.length j pp hab).1]
    exact ⟨hle, fun t ht htj => by have := hb t ht htj; omega, hab, hl⟩

/-- What is to be written for bin `i`. -/
def NearestOk (P : List Nat) (i : Nat) (x : Int) : Prop :=
  (P = [] → x = i) ∧ (P ≠ [] → ∃ q : Nat, x = q ∧ IsNearest (· ∈ P) i q)

def NextOk (P : List Nat) (i : Nat) (x : Int) : Prop :=
  ((∀ q ∈ P, q < i) → x = i) ∧ ((∃ q ∈ P, i ≤ q) → ∃ q : Nat, x = q ∧ IsNext (· ∈ P) i q)

theorem nextEntry_ok {P : List Nat} (hP : P.Pairwise (· < ·)) {s i j : Nat} {pp : Int}
    (h : At P s i j pp) (hs : s ≤ i) (hj0 : j = 0 → pp < s) :
    NextOk P i (nextEntry P i j pp (candidate P i j)) := by
  obtain ⟨hle, hb, ha, hl⟩ := h
  have hpp : pp ≠ i := by
    rcases Nat.eq_zero_or_pos j with h | h
    · have := hj0 h; omega
    · rw [hl h]
      have := hb (j - 1) (by omega) (by omega)
      omega
  by_cases hj : j < P.length
  · have hv : nextEntry P i j pp (candidate P i j) = (P[j] : Int) := by
      unfold nextEntry candidate
      rw [if_neg (by omega), if_pos hj, getD_eq hj]
    rw [hv]
    have haj := ha j hj (Nat.le_refl _)
    refine ⟨fun hall => ?_, fun _ => ⟨P[j], rfl, List.getElem_mem hj, haj, ?_⟩⟩
    · have := hall P[j] (List.getElem_mem hj); omega
    · intro r hr hir
      obtain ⟨t, ht, rfl⟩ := List.getElem_of_mem hr
      rcases Nat.lt_trichotomy t j with h | h | h
      · have := hb t ht h; omega
      · subst h; exact Nat.le_refl _
      · exact Nat.le_of_lt (List.pairwise_iff_getElem.mp hP j t hj ht h)
  · have hv : nextEntry P i j pp (candidate P i j) = i := by
      unfold nextEntry; rw [if_pos (Or.inr (by omega))]
    rw [hv]
    refine ⟨fun _ => rfl, ?_⟩
    rintro ⟨q, hq, hiq⟩
    obtain ⟨t, ht, rfl⟩ := List.getElem_of_mem hq
    have := hb t ht (by omega)
    omega

theorem nearestEntry_ok {P : List Nat} (hP : P.Pairwise (· < ·)) {s i j : Nat} {pp : Int}
    (h : At P s i j pp) : NearestOk P i (nearestEntry i j pp (candidate P i j)) := by
  obtain ⟨hle, hb, ha, hl⟩ := h
  have mono : ∀ a b (h1 : a < P.length) (h2 : b < P.length), a ≤ b → P[a] ≤ P[b] := by
    intro a b h1 h2 hab
    rcases Nat.eq_or_lt_of_le hab with h | h
    · subst h; exact Nat.le_refl _
    · exact Nat.le_of_lt (List.pairwise_iff_getElem.mp hP a b h1 h2 h)
  refine ⟨?_, ?_⟩
  · intro he
    subst he
    have : j = 0 := by simpa using hle
    subst this
    simp [nearestEntry, candidate]
  · intro hne
    have hpos : 0 < P.length := List.length_pos_iff.mpr hne
    -- the entry is the peak of index `t`, and every peak is no nearer
    have key : ∀ t (ht : t < P.length), nearestEntry i j pp (candidate P i j) = (P[t] : Int) →
        (∀ u (hu : u < P.length), dist i P[t] ≤ dist i P[u] ∧
          (dist i P[t] = dist i P[u] → P[u] ≤ P[t])) →
        ∃ q : Nat, nearestEntry i j pp (candidate P i j) = q ∧ IsNearest (· ∈ P) i q := by
      intro t ht he hall
      refine ⟨P[t], he, List.getElem_mem ht, ?_⟩
      intro r hr
      obtain ⟨u, hu, rfl⟩ := List.getElem_of_mem hr
      exact hall u hu
    rcases Nat.eq_zero_or_pos j with hj | hj
    · subst hj
      apply key 0 hpos
      · simp [nearestEntry, candidate, hpos]
      · intro u hu
        have h1 := ha 0 hpos (Nat.le_refl _)
        have h2 := mono 0 u hpos hu (by omega)
        unfold dist
        rw [if_pos h1, if_pos (by omega)]
        omega
    · have hlast := hl hj
      have hj1 : j - 1 < P.length := by omega
      have hbj := hb (j - 1) hj1 (by omega)
      by_cases hjl : j < P.length
      · have hc : candidate P i j = (P[j] : Int) := by
          unfold candidate; rw [if_pos hjl, getD_eq hjl]
        have haj := ha j hjl (Nat.le_refl _)
        by_cases hcmp : ((P[j] : Nat) : Int) - i ≤ i - (P[j-1] : Int)
        · apply key j hjl
          · unfold nearestEntry; rw [if_neg (by omega), hc, hlast, if_pos hcmp]
          · intro u hu
            unfold dist
            rw [if_pos haj]
            rcases Nat.lt_or_ge u j with h | h
            · have := mono u (j - 1) hu hj1 (by omega)
              rw [if_neg (by omega)]
              omega
            · have := mono j u hjl hu h
              rw [if_pos (by omega)]
              omega
        · apply key (j - 1) hj1
          · unfold nearestEntry; rw [if_neg (by omega), hc, hlast, if_neg hcmp]
          · intro u hu
            unfold dist
            rw [if_neg (by omega)]
            rcases Nat.lt_or_ge u j with h | h
            · have := mono u (j - 1) hu hj1 (by omega)
              rw [if_neg (by omega)]
              omega
            · have := mono j u hjl hu h
              rw [if_pos (by omega)]
              omega
      · have hjP : j = P.length := by omega
        apply key (j - 1) hj1
        · unfold nearestEntry candidate
          rw [if_neg (by omega), if_neg hjl, if_pos hpos, getD_eq (by omega), hlast]
          subst hjP
          rw [if_pos (by omega)]
        · intro u hu
          have := mono u (j - 1) hu hj1 (by omega)
          unfold dist
          rw [if_neg (by omega), if_neg (by omega)]
          omega

/-- An optional output array after bins `[s, i)` have been written with values that
satisfy `Ok`; everything else is as in `orig`. -/
def Written (Ok : Nat → Int → Prop) (s i : Nat) (orig now : Option (List Int)) : Prop :=
  match orig, now with
  | none, none => True
  | some o, some l => l.length = o.length ∧ (∀ k, k < s ∨ i ≤ k → l[k]? = o[k]?) ∧
      ∀ k, s ≤ k → k < i → ∃ x, l[k]? = some x ∧ Ok k x
  | _, _ => False

theorem setOpt_written {Ok : Nat → Int → Prop} {s i : Nat} {orig now : Option (List Int)}
    (h : Written Ok s i orig now) (hs : s ≤ i) (hlen : ∀ o, orig = some o → i < o.length) {x : Int}
    (hx : Ok i x) : ∃ now', setOpt now i x = some now' ∧ Written Ok s (i + 1) orig now' := by
  cases orig with
  | none =>
    cases now with
    | none => exact ⟨none, rfl, trivial⟩
    | some l => exact h.elim
  | some o =>
    cases now with
    | none => exact h.elim
    | some l =>
      obtain ⟨h1, h2, h3⟩ := h
      have hl := hlen o rfl
      refine ⟨some (l.set i x), ?_, by simpa using h1, ?_, ?_⟩
      · simp only [setOpt, MovingMedian.setAt]
        rw [if_pos (by omega)]
        rfl
      · intro k hk
        rw [List.getElem?_set_ne (by omega)]
        exact h2 k (by omega)
      · intro k hk1 hk2
        by_cases hki : k = i
        · subst hki
          exact ⟨x, List.getElem?_set_self (by omega), hx⟩
        · rw [List.getElem?_set_ne (by omega)]
          exact h3 k hk1 (by omega)

theorem mapLoop_spec {P : List Nat} (hP : P.Pairwise (· < ·)) {s n : Nat}
    {near0 next0 : Option (List Int)} (hn1 : ∀ o, near0 = some o → n ≤ o.length)
    (hn2 : ∀ o, next0 = some o → n ≤ o.length) : ∀ (rounds i j : Nat) (pp : Int)
    (near next : Option (List Int)), i + rounds = n → s ≤ i → At P s i j pp → (j = 0 → pp < s) →
    Written (NearestOk P) s i near0 near → Written (NextOk P) s i next0 next →
    ∃ near' next', mapLoop P rounds i j pp near next = some (near', next') ∧
      Written (NearestOk P) s n near0 near' ∧ Written (NextOk P) s n next0 next' := by
  intro rounds
  induction rounds with
  | zero =>
    intro i j pp near next hi hs hat hj0 h1 h2
    have : i = n := by omega
    subst this
    exact ⟨near, next, rfl, h1, h2⟩
  | succ rounds ih =>
    intro i j pp near next hi hs hat hj0 h1 h2
    obtain ⟨next', a1, a2⟩ := setOpt_written h2 hs (fun o ho => by have := hn2 o ho; omega)
      (nextEntry_ok hP hat hs hj0)
    obtain ⟨near', b1, b2⟩ := setOpt_written h1 hs (fun o ho => by have := hn1 o ho; omega)
      (nearestEntry_ok hP hat)
    unfold mapLoop
    simp only [a1, b1, Option.bind_eq_bind, Option.bind_some]
    have hadv := advance_spec hP hat
    refine ih (i + 1) _ _ near' next' (by omega) (by omega) hadv ?_ b2 a2
    intro hz
    -- no peak passed: nothing changed
    have hmono : ∀ fuel j pp, j ≤ (advance P i (candidate P i j) fuel j pp).1 ∧
        ∀ np, j ≤ (advance P i np fuel j pp).1 ∧
          ((advance P i np fuel j pp).1 = j → (advance P i np fuel j pp).2 = pp) := by
      intro fuel
      have : ∀ j pp np, j ≤ (advance P i np fuel j pp).1 ∧
          ((advance P i np fuel j pp).1 = j → (advance P i np fuel j pp).2 = pp) := by
        induction fuel with
        | zero => intro j pp np; exact ⟨Nat.le_refl _, fun _ => rfl⟩
        | succ fuel ih =>
          intro j pp np
          unfold advance
          split
          · have := ih (j + 1) np np
            exact ⟨by omega, fun h => by omega⟩
          · exact ⟨Nat.le_refl _, fun _ => rfl⟩
      intro j pp
      exact ⟨(this j pp _).1, this j pp⟩
    have := (hmono P.length j pp).2 (candidate P i j)
    rw [this.2 (by omega)]
    exact hj0 (by omega)

end Verif.Peak
