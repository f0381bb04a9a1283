import Verif.CliMaps
import Mathlib.Data.List.Basic
import Mathlib.Data.List.Pairwise
/-!
# The files with maps: C128, C129
-/
namespace Verif.CliMaps

variable {β : Type}

/-- A row of a map: an empty one, or a frame number and the text of what it is mapped to. -/
inductive Row where
  | blank (spaces : Nat)
  | entry (lead frame gap : Nat) (text : List Char)

/-- How it is written: any spaces before the frame number, one or more after it. -/
def Row.written : Row → List Char
  | .blank n => List.replicate n ' '
  | .entry lead frame gap text => List.replicate lead ' ' ++ Nat.toDigits 10 frame ++ List.replicate (gap + 1) ' ' ++ text

/-- Rows as a file, with an end of line between them. -/
def written : List Row → List Char
  | [] => []
  | [r] => r.written
  | r :: rs => r.written ++ '\n' :: written rs

/-- The frame number is one that an `int` holds, and the text is on the line. -/
def Row.fine : Row → Prop
  | .blank _ => True
  | .entry _ frame _ text => frame < 2 ^ 31 ∧ '\n' ∉ text ∧ ∀ c, text.head? = some c → c ≠ ' '

/-- What a row says of a frame. -/
def Row.says (value : List Char → Option β) (k : Nat) : Row → Option β
  | .blank _ => none
  | .entry _ frame _ text => if frame = k then value text else none

theorem lines_cons {c : Char} (h : c ≠ '\n') {cs l : List Char} {ls : List (List Char)} (e : lines cs = l :: ls) : lines (c :: cs) = (c :: l) :: ls := by
  show (if c = '\n' then [] :: lines cs else match lines cs with
      | l :: ls => (c :: l) :: ls
      | [] => [[c]]) = _
  rw [if_neg h, e]

theorem lines_append : ∀ (l rest : List Char), '\n' ∉ l → lines (l ++ '\n' :: rest) = l :: lines rest := by
  intro l rest
  induction l with
  | nil => intro _; rfl
  | cons c l ih =>
    intro h
    rw [List.mem_cons, not_or] at h
    exact lines_cons (Ne.symm h.1) (ih h.2)

theorem lines_one : ∀ l : List Char, '\n' ∉ l → lines l = [l] := by
  intro l
  induction l with
  | nil => intro _; rfl
  | cons c l ih =>
    intro h
    rw [List.mem_cons, not_or] at h
    exact lines_cons (Ne.symm h.1) (ih h.2)

theorem toDigits_digit {n : Nat} {c : Char} (h : c ∈ Nat.toDigits 10 n) : c.isDigit = true := Nat.isDigit_of_mem_toDigits (by decide) (by decide) h

theorem digit_ne {c : Char} (h : c.isDigit = true) : c ≠ ' ' ∧ c ≠ '\n' ∧ isSpace c = false ∧ c ≠ '-' ∧ c ≠ '+' := by
  refine ⟨?_, ?_, ?_, ?_, ?_⟩
  · rintro rfl; revert h; decide
  · rintro rfl; revert h; decide
  · cases e : isSpace c with
    | false => rfl
    | true =>
      simp only [isSpace, Bool.or_eq_true, beq_iff_eq] at e
      rcases e with ((((rfl | rfl) | rfl) | rfl) | rfl) | rfl <;> revert h <;> decide
  · rintro rfl; revert h; decide
  · rintro rfl; revert h; decide

theorem number_digits (n : Nat) (rest : List Char) (hr : ∀ c, rest.head? = some c → c.isDigit = false) : number (Nat.toDigits 10 n ++ rest) = n := by
  have e : (Nat.toDigits 10 n ++ rest).takeWhile Char.isDigit = Nat.toDigits 10 n := by
    rw [List.takeWhile_append_of_pos fun c hc => toDigits_digit hc]
    cases rest with
    | nil => simp
    | cons c rest => rw [List.takeWhile_cons_of_neg (by simp [hr c rfl])]; simp
  unfold number
  rw [e]
  exact Nat.ofDigitChars_ten_toDigits

theorem atoi_digits (n : Nat) (h : n < 2 ^ 31) (rest : List Char) (hr : ∀ c, rest.head? = some c → c.isDigit = false) : atoi (Nat.toDigits 10 n ++ rest) = some (n : Int) := by
  have hd := number_digits n rest hr
  cases e : Nat.toDigits 10 n with
  | nil => exact absurd e Nat.toDigits_ne_nil
  | cons c cs =>
    obtain ⟨_, _, h3, h4, h5⟩ := digit_ne (toDigits_digit (n := n) (c := c) (by rw [e]; exact List.mem_cons_self))
    rw [e] at hd
    rw [List.cons_append] at hd ⊢
    unfold atoi
    rw [List.dropWhile_cons_of_neg (by simp [h3])]
    have : signed (c :: (cs ++ rest)) = (number (c :: (cs ++ rest)) : Int) := by
      unfold signed
      split
      · rename_i e; exact absurd (List.cons.inj e).1 h4
      · rename_i e; exact absurd (List.cons.inj e).1 h5
      · rfl
    simp only
    rw [this, hd, if_pos (by omega)]

theorem toSize_natCast {n : Nat} (h : n < 2 ^ 31) : toSize (n : Int) = n := by
  unfold toSize
  omega

theorem dropSpaces (n : Nat) (l : List Char) : (List.replicate n ' ' ++ l).dropWhile (· == ' ') = l.dropWhile (· == ' ') := by
  induction n with
  | zero => rfl
  | succ n ih => rw [List.replicate_succ, List.cons_append, List.dropWhile_cons_of_pos (by simp)]; exact ih

/-- The three pieces of the text of an entry. -/
theorem entry_parts (lead frame gap : Nat) (text : List Char) (ht : ∀ c, text.head? = some c → c ≠ ' ') :
    let line := (Row.entry lead frame gap text).written.dropWhile (· == ' ')
    line ≠ [] ∧ ' ' ∈ line ∧ line.takeWhile (· != ' ') = Nat.toDigits 10 frame ∧ (line.dropWhile (· != ' ')).dropWhile (· == ' ') = text := by
  have hd : ∀ c ∈ Nat.toDigits 10 frame, (c != ' ') = true := fun c hc => by simpa using (digit_ne (toDigits_digit hc)).1
  have e : (Row.entry lead frame gap text).written.dropWhile (· == ' ') = Nat.toDigits 10 frame ++ (' ' :: (List.replicate gap ' ' ++ text)) := by
    show (List.replicate lead ' ' ++ Nat.toDigits 10 frame ++ List.replicate (gap + 1) ' ' ++ text).dropWhile _ = _
    rw [List.append_assoc, List.append_assoc, dropSpaces, List.replicate_succ, List.cons_append]
    cases e : Nat.toDigits 10 frame with
    | nil => exact absurd e Nat.toDigits_ne_nil
    | cons c cs =>
      have : (c != ' ') = true := hd c (by rw [e]; exact List.mem_cons_self)
      rw [List.cons_append, List.dropWhile_cons_of_neg (by simpa using this)]
  intro line
  have e' : line = _ := e
  rw [e']
  refine ⟨by simp, by simp, ?_, ?_⟩
  · rw [List.takeWhile_append_of_pos hd, List.takeWhile_cons_of_neg (by simp), List.append_nil]
  · rw [List.dropWhile_append_of_pos hd, List.dropWhile_cons_of_neg (by simp), List.dropWhile_cons_of_pos (by simp), dropSpaces]
    cases text with
    | nil => rfl
    | cons c text => rw [List.dropWhile_cons_of_neg (by simpa using ht c rfl)]

theorem row_line {r : Row} (h : r.fine) : '\n' ∉ r.written := by
  cases r with
  | blank n =>
    intro hm
    have := List.eq_of_mem_replicate hm
    revert this
    decide
  | entry lead frame gap text =>
    obtain ⟨_, h2, _⟩ := h
    unfold Row.written
    simp only [List.mem_append, not_or]
    refine ⟨⟨⟨?_, ?_⟩, ?_⟩, h2⟩
    · intro hm; have := List.eq_of_mem_replicate hm; revert this; decide
    · intro hm; exact (digit_ne (toDigits_digit hm)).2.1 rfl
    · intro hm; have := List.eq_of_mem_replicate hm; revert this; decide

theorem lines_written : ∀ rows : List Row, rows ≠ [] → (∀ r ∈ rows, r.fine) → lines (written rows) = rows.map Row.written := by
  intro rows
  induction rows with
  | nil => intro h; exact absurd rfl h
  | cons r rs ih =>
    intro _ h
    cases rs with
    | nil => exact lines_one _ (row_line (h r (by simp)))
    | cons r' rs =>
      show lines (r.written ++ '\n' :: written (r' :: rs)) = _
      rw [lines_append _ _ (row_line (h r (by simp))), ih (by simp) fun x hx => h x (List.mem_cons_of_mem _ hx)]
      rfl

/-- What is in a map that is in order. -/
theorem put_lookup (k : Nat) (v : β) (k' : Nat) : ∀ m : List (Nat × β), (put k v m).lookup k' = if k' = k then some v else m.lookup k' := by
  intro m
  induction m with
  | nil =>
    unfold put
    by_cases h : k' = k
    · subst h; simp
    · rw [if_neg h, List.lookup_cons, beq_false_of_ne h]
  | cons x m ih =>
    obtain ⟨a, b⟩ := x
    unfold put
    by_cases h1 : k < a
    · rw [if_pos h1]
      by_cases h : k' = k
      · subst h; simp
      · rw [if_neg h, List.lookup_cons, beq_false_of_ne h]
    · rw [if_neg h1]
      by_cases h2 : k = a
      · rw [if_pos h2]
        by_cases h : k' = k
        · subst h; simp
        · rw [if_neg h, List.lookup_cons, beq_false_of_ne h, List.lookup_cons, beq_false_of_ne (h2 ▸ h)]
      · rw [if_neg h2, List.lookup_cons, List.lookup_cons]
        by_cases h : k' = a
        · subst h
          rw [if_neg (Ne.symm h2)]
          simp
        · rw [beq_false_of_ne h]
          exact ih

theorem put_mem {k : Nat} {v : β} {x : Nat × β} : ∀ {m : List (Nat × β)}, x ∈ put k v m → x = (k, v) ∨ x ∈ m := by
  intro m
  induction m with
  | nil => intro h; left; simpa [put] using h
  | cons y m ih =>
    intro h
    unfold put at h
    split at h
    · rcases List.mem_cons.mp h with h | h
      · exact Or.inl h
      · exact Or.inr h
    · split at h
      · rcases List.mem_cons.mp h with h | h
        · exact Or.inl h
        · exact Or.inr (List.mem_cons_of_mem _ h)
      · rcases List.mem_cons.mp h with h | h
        · right; rw [h]; exact List.mem_cons_self
        · rcases ih h with h | h
          · exact Or.inl h
          · exact Or.inr (List.mem_cons_of_mem _ h)

theorem put_sorted (k : Nat) (v : β) : ∀ m : List (Nat × β), m.Pairwise (fun x y => x.1 < y.1) → (put k v m).Pairwise fun x y => x.1 < y.1 := by
  intro m
  induction m with
  | nil => intro _; simp [put]
  | cons y m ih =>
    intro h
    rw [List.pairwise_cons] at h
    unfold put
    split
    · rename_i hk
      rw [List.pairwise_cons]
      refine ⟨?_, List.pairwise_cons.mpr h⟩
      intro z hz
      rcases List.mem_cons.mp hz with rfl | hz
      · exact hk
      · exact Nat.lt_trans hk (h.1 z hz)
    · split
      · rename_i _ hk
        rw [List.pairwise_cons]
        exact ⟨fun z hz => by show k < z.1; rw [hk]; exact h.1 z hz, h.2⟩
      · rename_i h1 h2
        rw [List.pairwise_cons]
        refine ⟨?_, ih h.2⟩
        intro z hz
        rcases put_mem hz with rfl | hz
        · show y.1 < k; omega
        · exact h.1 z hz

theorem read_cons (value : List Char → Option β) (lineno : Nat) (m : List (Nat × β)) (line : List Char) (rest : List (List Char)) : read value lineno m (line :: rest) =
    let line := line.dropWhile (· == ' ')
    if line = [] then read value (lineno + 1) m rest
    else if ' ' ∈ line then do
      let source ← atoi (line.takeWhile (· != ' '))
      let v ← value ((line.dropWhile (· != ' ')).dropWhile (· == ' '))
      read value (lineno + 1) (put (toSize source) v m) rest
    else some (.malformed lineno) := rfl

/-- The rows that are fine are taken in, one after the other, and the rest of the file is read. -/
theorem read_rows (value : List Char → Option β) (rest : List (List Char)) : ∀ (rows : List Row) (lineno : Nat) (m : List (Nat × β)), (∀ r ∈ rows, r.fine ∧ ∀ a b c t, r = .entry a b c t → (value t).isSome) →
    m.Pairwise (fun x y => x.1 < y.1) →
    ∃ m', read value lineno m (rows.map Row.written ++ rest) = read value (lineno + rows.length) m' rest ∧ m'.Pairwise (fun x y => x.1 < y.1) ∧
      ∀ k, m'.lookup k = ((rows.reverse.findSome? (Row.says value k)).or (m.lookup k)) := by
  intro rows
  induction rows with
  | nil => intro lineno m _ hm; exact ⟨m, rfl, hm, fun k => rfl⟩
  | cons r rs ih =>
    intro lineno m h hm
    obtain ⟨hr, hv⟩ := h r (by simp)
    cases r with
    | blank n =>
      obtain ⟨m', e1, e2, e3⟩ := ih (lineno + 1) m (fun x hx => h x (List.mem_cons_of_mem _ hx)) hm
      refine ⟨m', ?_, e2, ?_⟩
      · rw [List.map_cons, List.cons_append, read_cons]
        have : (Row.blank n).written.dropWhile (· == ' ') = [] := by
          have := dropSpaces n []
          rwa [List.append_nil] at this
        simp only [this, if_true]
        rw [e1, List.length_cons, show lineno + 1 + rs.length = lineno + (rs.length + 1) by omega]
      · intro k
        rw [e3 k, List.reverse_cons, List.findSome?_append]
        simp [Row.says]
    | entry lead frame gap text =>
      obtain ⟨h1, h2, h3⟩ := hr
      obtain ⟨v, hv⟩ := Option.isSome_iff_exists.mp (hv _ _ _ _ rfl)
      obtain ⟨m', e1, e2, e3⟩ := ih (lineno + 1) (put frame v m) (fun x hx => h x (List.mem_cons_of_mem _ hx)) (put_sorted _ _ _ hm)
      obtain ⟨p1, p2, p3, p4⟩ := entry_parts lead frame gap text h3
      have a := atoi_digits frame h1 [] (by simp)
      rw [List.append_nil] at a
      refine ⟨m', ?_, e2, ?_⟩
      · rw [List.map_cons, List.cons_append, read_cons]
        simp only [if_neg p1, if_pos p2, p3, p4, a, hv, Option.bind_eq_bind, Option.bind_some, toSize_natCast h1]
        rw [e1, List.length_cons, show lineno + 1 + rs.length = lineno + (rs.length + 1) by omega]
      · intro k
        rw [e3 k, List.reverse_cons, List.findSome?_append, put_lookup, Option.or_assoc]
        congr 1
        simp only [List.findSome?_cons, List.findSome?_nil, Row.says]
        by_cases hk : frame = k
        · rw [if_pos hk, if_pos hk.symm, hv]; rfl
        · rw [if_neg hk, if_neg (Ne.symm hk)]; rfl

/-- **C128**: a map file is read as it is written, whatever spaces are before and between the columns, whatever lines are empty, in whatever order the rows are, and whether or not there is an end of line at the end: each frame is
mapped to what the last row for it says, no others are, and the map is in order.  `value` is what is made of the second column. -/
theorem C128 (value : List Char → Option β) (rows : List Row) (h : ∀ r ∈ rows, r.fine ∧ ∀ a b c t, r = .entry a b c t → (value t).isSome) :
    ∃ m, read value 0 [] (lines (written rows)) = some (.ok m) ∧ m.Pairwise (fun x y => x.1 < y.1) ∧ ∀ k, m.lookup k = rows.reverse.findSome? (Row.says value k) := by
  by_cases hne : rows = []
  · subst hne
    exact ⟨[], rfl, List.Pairwise.nil, fun k => rfl⟩
  · rw [lines_written rows hne fun r hr => (h r hr).1]
    obtain ⟨m, e1, e2, e3⟩ := read_rows value [] rows 0 [] h List.Pairwise.nil
    rw [List.append_nil] at e1
    refine ⟨m, e1, e2, fun k => ?_⟩
    rw [e3 k]
    simp

/-- **C128**, for the time map: the second column is a frame number too; after it there may be anything that is not a digit. -/
theorem C128_time (rows : List (Nat × Nat × Nat × Nat × List Char)) (h : ∀ r ∈ rows, r.2.1 < 2 ^ 31 ∧ r.2.2.2.1 < 2 ^ 31 ∧ '\n' ∉ r.2.2.2.2 ∧ ∀ c, r.2.2.2.2.head? = some c → c.isDigit = false) :
    ∃ m, timeMap (written (rows.map fun r => .entry r.1 r.2.1 r.2.2.1 (Nat.toDigits 10 r.2.2.2.1 ++ r.2.2.2.2))) = some (.ok m) ∧ m.Pairwise (fun x y => x.1 < y.1) ∧
      ∀ k, m.lookup k = rows.reverse.findSome? fun r => if r.2.1 = k then some r.2.2.2.1 else none := by
  have hval : ∀ r ∈ rows, (atoi (Nat.toDigits 10 r.2.2.2.1 ++ r.2.2.2.2)).map toSize = some r.2.2.2.1 := by
    intro r hr
    obtain ⟨_, h2, _, h4⟩ := h r hr
    rw [atoi_digits _ h2 _ h4, Option.map_some, toSize_natCast h2]
  obtain ⟨m, e1, e2, e3⟩ := C128 (fun l => (atoi l).map toSize) (rows.map fun r => .entry r.1 r.2.1 r.2.2.1 (Nat.toDigits 10 r.2.2.2.1 ++ r.2.2.2.2)) (by
    intro r hr
    obtain ⟨x, hx, rfl⟩ := List.mem_map.mp hr
    obtain ⟨h1, h2, h3, h4⟩ := h x hx
    refine ⟨⟨h1, ?_, ?_⟩, ?_⟩
    · rw [List.mem_append, not_or]
      exact ⟨fun hm => (digit_ne (toDigits_digit hm)).2.1 rfl, h3⟩
    · intro c hc
      cases e : Nat.toDigits 10 x.2.2.2.1 with
      | nil => exact absurd e Nat.toDigits_ne_nil
      | cons d ds =>
        rw [e] at hc
        cases hc
        exact (digit_ne (toDigits_digit (n := x.2.2.2.1) (by rw [e]; exact List.mem_cons_self))).1
    · intro a b c t ht
      cases ht
      rw [hval x hx]
      rfl)
  refine ⟨m, e1, e2, fun k => ?_⟩
  rw [e3 k, ← List.map_reverse, List.findSome?_map]
  have : ∀ l : List (Nat × Nat × Nat × Nat × List Char), (∀ r ∈ l, r ∈ rows) →
      l.findSome? (Row.says (fun l => (atoi l).map toSize) k ∘ fun r => .entry r.1 r.2.1 r.2.2.1 (Nat.toDigits 10 r.2.2.2.1 ++ r.2.2.2.2)) =
        l.findSome? fun r => if r.2.1 = k then some r.2.2.2.1 else none := by
    intro l
    induction l with
    | nil => intro _; rfl
    | cons r l ih =>
      intro hl
      rw [List.findSome?_cons, List.findSome?_cons, ih fun x hx => hl x (List.mem_cons_of_mem _ hx)]
      simp only [Function.comp, Row.says, hval r (hl r (by simp))]
  exact this _ fun r hr => List.mem_reverse.mp hr

/-- **C128**, for the frequency map and the pitch map: each frame is mapped to the scale made of the number in the last row for it. -/
theorem C128_freq {K : Type} (atof : List Char → K) (convert : K → K) (rows : List Row) (h : ∀ r ∈ rows, r.fine) :
    ∃ m, freqMap atof convert (written rows) = some (.ok m) ∧ m.Pairwise (fun x y => x.1 < y.1) ∧ ∀ k, m.lookup k = rows.reverse.findSome? (Row.says (fun t => some (convert (atof t))) k) :=
  C128 (fun t => some (convert (atof t))) rows fun r hr => ⟨h r hr, fun _ _ _ _ _ => rfl⟩

/-! ## C129 -/

/-- As the help says (main.cpp:263-268): two frame numbers separated by spaces; spaces and a carriage return at the end are let pass, and so are empty lines. -/
def WellFormed (line : List Char) : Prop :=
  (∀ c ∈ line, isSpace c = true) ∨ ∃ lead frame gap target trail, (∀ c ∈ trail, isSpace c = true) ∧ line = (Row.entry lead frame gap (Nat.toDigits 10 target ++ trail)).written

/-- **C129**: a time map of one line that is not as the help says is refused. -/
def C129_statement : Prop := ∀ line : List Char, '\n' ∉ line → ¬ WellFormed line → ∃ k, timeMap line = some (.malformed k)

theorem C129_violated : ¬ C129_statement := by
  intro h
  obtain ⟨k, hk⟩ := h "abc def".toList (by decide) (by
    rintro (h | ⟨lead, frame, gap, target, trail, _, e⟩)
    · exact absurd (h 'a' (by decide)) (by decide)
    · cases lead with
      | zero =>
        have e := congrArg List.head? e
        cases e2 : Nat.toDigits 10 frame with
        | nil => exact absurd e2 Nat.toDigits_ne_nil
        | cons d ds =>
          have hd := toDigits_digit (n := frame) (c := d) (by rw [e2]; exact List.mem_cons_self)
          simp only [Row.written, e2, List.replicate_zero, List.nil_append, List.cons_append, List.head?_cons] at e
          have : 'a' = d := by
            have e3 : "abc def".toList.head? = some 'a' := by decide
            rw [e3] at e
            exact Option.some.inj e
          rw [← this] at hd
          revert hd
          decide
      | succ n =>
        have e := congrArg List.head? e
        simp only [Row.written, List.replicate_succ, List.cons_append, List.head?_cons] at e
        revert e
        decide)
  have e : timeMap "abc def".toList = some (.ok [(0, 0)]) := by decide +kernel
  rw [e] at hk
  cases hk

theorem atoi_negative (n : Nat) (h : n ≤ 2 ^ 31) : atoi ('-' :: Nat.toDigits 10 n) = some (-(n : Int)) := by
  have hd := number_digits n [] (fun c hc => by cases hc)
  rw [List.append_nil] at hd
  have hs : signed ('-' :: Nat.toDigits 10 n) = -(n : Int) := by
    show -(number (Nat.toDigits 10 n) : Int) = _
    rw [hd]
  unfold atoi
  rw [List.dropWhile_cons_of_neg (by decide), hs]
  simp only
  rw [if_pos (by omega)]

/-- Nor are negative frames refused, any of them: a line for the frame -`n` maps the frame 2^64 - `n`. -/
theorem C129_violated_negative (n target : Nat) (h0 : 0 < n) (h : n ≤ 2 ^ 31) (ht : target < 2 ^ 31) :
    timeMap ('-' :: Nat.toDigits 10 n ++ ' ' :: Nat.toDigits 10 target) = some (.ok [(2 ^ 64 - n, target)]) := by
  have hsp : ∀ c ∈ '-' :: Nat.toDigits 10 n, (c != ' ') = true := by
    intro c hc
    rcases List.mem_cons.mp hc with rfl | hc
    · decide
    · simpa using (digit_ne (toDigits_digit hc)).1
  have hline : '\n' ∉ '-' :: Nat.toDigits 10 n ++ ' ' :: Nat.toDigits 10 target := by
    intro hm
    rcases List.mem_append.mp hm with hm | hm
    · rcases List.mem_cons.mp hm with hm | hm
      · revert hm; decide
      · exact (digit_ne (toDigits_digit hm)).2.1 rfl
    · rcases List.mem_cons.mp hm with hm | hm
      · revert hm; decide
      · exact (digit_ne (toDigits_digit hm)).2.1 rfl
  have htake : ('-' :: Nat.toDigits 10 n ++ ' ' :: Nat.toDigits 10 target).takeWhile (· != ' ') = '-' :: Nat.toDigits 10 n := by
    rw [List.takeWhile_append_of_pos hsp, List.takeWhile_cons_of_neg (by decide), List.append_nil]
  have hdrop : (('-' :: Nat.toDigits 10 n ++ ' ' :: Nat.toDigits 10 target).dropWhile (· != ' ')).dropWhile (· == ' ') = Nat.toDigits 10 target := by
    rw [List.dropWhile_append_of_pos hsp, List.dropWhile_cons_of_neg (by decide), List.dropWhile_cons_of_pos (by decide)]
    cases e : Nat.toDigits 10 target with
    | nil => rfl
    | cons d ds =>
      have := (digit_ne (toDigits_digit (n := target) (c := d) (by rw [e]; exact List.mem_cons_self))).1
      rw [List.dropWhile_cons_of_neg (by simpa using this)]
  have h1 := atoi_negative n h
  have h2 := atoi_digits target ht [] (fun c hc => by cases hc)
  rw [List.append_nil] at h2
  have h3 : toSize (-(n : Int)) = 2 ^ 64 - n := by
    unfold toSize
    omega
  unfold timeMap
  rw [lines_one _ hline]
  unfold read
  rw [List.cons_append, List.dropWhile_cons_of_neg (by decide), ← List.cons_append]
  simp only
  rw [if_neg (by simp), if_pos (by simp), htake, hdrop, h1, h2]
  simp only [Option.bind_eq_bind, Option.bind_some, Option.map_some, toSize_natCast ht, h3]
  rfl

example : "-5 7".toList = '-' :: Nat.toDigits 10 5 ++ ' ' :: Nat.toDigits 10 7 := by decide +kernel

/-- **C129 (partial)**: a line that is not empty and has no second column is refused, wherever it is, and the utility tells of that line, counted from 0.  Missing: lines whose columns are not numbers, which are taken for 0
(`C129_violated`). -/
theorem C129_partial (value : List Char → Option β) (rows : List Row) (h : ∀ r ∈ rows, r.fine ∧ ∀ a b c t, r = .entry a b c t → (value t).isSome) (spaces : Nat) {word : List Char} (hw : word ≠ []) (hs : ' ' ∉ word) (hn : '\n' ∉ word)
    (rest : List (List Char)) (hr : ∀ l ∈ rest, '\n' ∉ l) :
    read value 0 [] (lines (List.intercalate ['\n'] (rows.map Row.written ++ (List.replicate spaces ' ' ++ word) :: rest))) = some (.malformed rows.length) := by
  have hl : ∀ ls : List (List Char), ls ≠ [] → (∀ l ∈ ls, '\n' ∉ l) → lines (List.intercalate ['\n'] ls) = ls := by
    intro ls
    induction ls with
    | nil => intro h; exact absurd rfl h
    | cons l ls ih =>
      intro _ h
      cases ls with
      | nil => simpa [List.intercalate] using lines_one l (h l (by simp))
      | cons l' ls =>
        have := ih (by simp) fun x hx => h x (List.mem_cons_of_mem _ hx)
        have e : List.intercalate ['\n'] (l :: l' :: ls) = l ++ '\n' :: List.intercalate ['\n'] (l' :: ls) := by simp [List.intercalate, List.intersperse]
        rw [e, lines_append _ _ (h l (by simp)), this]
  rw [hl _ (by simp) (by
    intro l hl
    rcases List.mem_append.mp hl with hl | hl
    · obtain ⟨r, hr, rfl⟩ := List.mem_map.mp hl
      exact row_line (h r hr).1
    · rcases List.mem_cons.mp hl with rfl | hl
      · rw [List.mem_append, not_or]
        exact ⟨fun hm => by have := List.eq_of_mem_replicate hm; revert this; decide, hn⟩
      · exact hr l hl)]
  obtain ⟨m, e1, _⟩ := read_rows value ((List.replicate spaces ' ' ++ word) :: rest) rows 0 [] h List.Pairwise.nil
  rw [e1, read_cons]
  have hd : (List.replicate spaces ' ' ++ word).dropWhile (· == ' ') = word := by
    rw [dropSpaces]
    cases word with
    | nil => exact absurd rfl hw
    | cons c word =>
      rw [List.dropWhile_cons_of_neg]
      rw [List.mem_cons, not_or] at hs
      simpa using Ne.symm hs.1
  simp only [hd, if_neg hw, if_neg hs, Nat.zero_add]

/-! ## Examples -/

/-- C128: spaces, an empty line, rows out of order and one that is replaced, an end of line of two characters. -/
example : timeMap "  100 300\r\n\n0   0\n100 200\n".toList = some (.ok [(0, 0), (100, 200)]) := by decide +kernel

example : written [.entry 2 100 0 "300\r".toList, .blank 0, .entry 0 0 2 ['0'], .entry 0 100 0 "200".toList, .blank 0] = "  100 300\r\n\n0   0\n100 200\n".toList := by decide +kernel

/-- C129: columns separated by a tabulator. -/
example : timeMap "0 0\n  100\t200\n".toList = some (.malformed 1) := by decide +kernel

end Verif.CliMaps
