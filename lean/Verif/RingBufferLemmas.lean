import Verif.RingBufferSpec
namespace Verif.RingBuffer
variable {α : Type}

/-- Representation invariant. -/
structure Inv (b : RB α) : Prop where
  len : b.buf.length = b.size
  w : b.writer < b.size
  r : b.reader < b.size

/-- Unread samples, oldest first. -/
def contents (b : RB α) : List α :=
  if b.reader ≤ b.writer then (b.buf.drop b.reader).take (b.writer - b.reader)
  else b.buf.drop b.reader ++ b.buf.take b.writer

theorem wrapLoop_eq (size : Nat) (h : 0 < size) (fuel i : Nat) (hf : i ≤ fuel) :
    wrapLoop size fuel i = i % size := by
  induction fuel generalizing i with
  | zero => simp [wrapLoop, show i = 0 by omega]
  | succ fuel ih =>
    unfold wrapLoop
    split
    · rename_i hc
      rw [ih (i - size) (by omega), ← Nat.mod_eq_sub_mod hc]
    · rw [Nat.mod_eq_of_lt (by omega)]

theorem wrap_eq (size i : Nat) (h : 0 < size) : wrap size i = i % size :=
  wrapLoop_eq size h i i (Nat.le_refl _)

theorem wrap_lt_two (size i : Nat) (h : i < 2 * size) :
    wrap size i = if size ≤ i then i - size else i := by
  rw [wrap_eq _ _ (by omega)]
  split
  · rename_i hc
    rw [Nat.mod_eq_sub_mod hc, Nat.mod_eq_of_lt (by omega)]
  · rw [Nat.mod_eq_of_lt (by omega)]

theorem contents_length {b : RB α} (h : Inv b) :
    (contents b).length = getReadSpace b := by
  obtain ⟨hl, hw, hr⟩ := h
  unfold contents getReadSpace readSpaceFor
  split <;> simp <;> split <;> (try split) <;> omega

theorem space_sum {b : RB α} (h : Inv b) :
    getReadSpace b + getWriteSpace b = b.size - 1 := by
  obtain ⟨hl, hw, hr⟩ := h
  unfold getReadSpace getWriteSpace readSpaceFor writeSpaceFor
  simp only
  split <;> (try split) <;> (try split) <;> omega

theorem init_inv (n : Nat) (junk : List α) (hj : junk.length = n + 1) :
    Inv (init n junk) := ⟨hj, by simp [init], by simp [init]⟩

theorem contents_init (n : Nat) (junk : List α) : contents (init n junk) = [] := by
  simp [contents, init]

theorem copyOut_eq {b : RB α} (h : Inv b) (n : Nat) (hn : n ≤ getReadSpace b) :
    copyOut b n = some ((contents b).take n) := by
  obtain ⟨hl, hw, hr⟩ := h
  unfold getReadSpace readSpaceFor at hn
  unfold copyOut contents load
  simp only [ge_iff_le]
  by_cases hle : b.reader ≤ b.writer
  · have hn' : n ≤ b.writer - b.reader := by split at hn <;> (try split at hn) <;> omega
    rw [if_pos (by omega), if_pos (by omega), if_pos hle]
    simp [List.take_take, Nat.min_eq_left hn']
  · have hn' : n ≤ b.writer + b.size - b.reader := by
      split at hn <;> (try split at hn) <;> omega
    rw [if_neg hle]
    by_cases hh : n ≤ b.size - b.reader
    · rw [if_pos hh, if_pos (by omega), List.take_append_of_le_length (by simp; omega)]
    · rw [if_neg hh, if_pos (by omega), if_pos (by omega)]
      simp only [List.drop_zero, Option.pure_def, Option.bind_eq_bind, Option.bind_some,
        Option.some.injEq]
      rw [List.take_append]
      congr 1
      · rw [List.take_of_length_le (by simp; omega), List.take_of_length_le (by simp; omega)]
      · rw [List.take_take]
        congr 1
        simp
        omega

theorem advance_inv {b : RB α} (h : Inv b) (n : Nat) :
    Inv { b with reader := wrap b.size (b.reader + n) } := by
  obtain ⟨hl, hw, hr⟩ := h
  refine ⟨hl, hw, ?_⟩
  simp only
  rw [wrap_eq _ _ (by omega)]
  exact Nat.mod_lt _ (by omega)

theorem contents_getElem? {b : RB α} (h : Inv b) (i : Nat) :
    (contents b)[i]? = if i < getReadSpace b then
      b.buf[if b.size ≤ b.reader + i then b.reader + i - b.size else b.reader + i]? else none := by
  obtain ⟨hl, hw, hr⟩ := h
  unfold contents getReadSpace readSpaceFor
  grind

theorem contents_advance {b : RB α} (h : Inv b) (n : Nat) (hn : n ≤ getReadSpace b) :
    contents { b with reader := wrap b.size (b.reader + n) } = (contents b).drop n := by
  have ha := advance_inv h n
  have hw' : wrap b.size (b.reader + n) = if b.size ≤ b.reader + n then b.reader + n - b.size else b.reader + n := by
    apply wrap_lt_two
    obtain ⟨hl, hw, hr⟩ := h
    unfold getReadSpace readSpaceFor at hn
    grind
  rw [hw'] at ha ⊢
  apply List.ext_getElem?
  intro i
  rw [List.getElem?_drop, contents_getElem? ha, contents_getElem? h]
  obtain ⟨hl, hw, hr⟩ := h
  unfold getReadSpace readSpaceFor at *
  simp only at *
  grind

theorem store_length {m m' : List α} {base : Nat} {v : List α}
    (h : store m base v = some m') : m'.length = m.length := by
  unfold store at h
  split at h
  · simp at h; subst h; simp; omega
  · simp at h

theorem store_getElem? {m m' : List α} {base : Nat} {v : List α}
    (h : store m base v = some m') (i : Nat) :
    m'[i]? = if base ≤ i ∧ i < base + v.length then v[i - base]? else m[i]? := by
  unfold store at h
  split at h
  · simp at h; subst h; grind
  · simp at h

/-- What writing `vals` does. -/
theorem copyIn_eq {b : RB α} (h : Inv b) (vals : List α) (hn : vals.length ≤ getWriteSpace b) :
    ∃ m, copyIn b vals = some m ∧
      Inv { b with buf := m, writer := wrap b.size (b.writer + vals.length) } ∧
      contents { b with buf := m, writer := wrap b.size (b.writer + vals.length) }
        = contents b ++ vals := by
  have h0 := h
  have hsum := space_sum h
  have hclen := contents_length h
  obtain ⟨hl, hw, hr⟩ := h
  have hw' : wrap b.size (b.writer + vals.length) =
      if b.size ≤ b.writer + vals.length then b.writer + vals.length - b.size
      else b.writer + vals.length := wrap_lt_two _ _ (by omega)
  rw [hw']
  have key : ∃ m, copyIn b vals = some m ∧ m.length = b.size ∧
      ∀ j, j < b.size → m[j]? =
        if b.writer ≤ j then (if j - b.writer < vals.length then vals[j - b.writer]? else b.buf[j]?)
        else if j + b.size - b.writer < vals.length then vals[j + b.size - b.writer]?
        else b.buf[j]? := by
    unfold copyIn
    simp only [ge_iff_le]
    by_cases hh : vals.length ≤ b.size - b.writer
    · rw [if_pos hh]
      obtain ⟨m, hm⟩ : ∃ m, store b.buf b.writer vals = some m := by
        unfold store; rw [if_pos (by omega)]; exact ⟨_, rfl⟩
      refine ⟨m, hm, by rw [store_length hm, hl], ?_⟩
      intro j hj
      rw [store_getElem? hm]
      grind
    · rw [if_neg hh]
      obtain ⟨m, hm⟩ : ∃ m, store b.buf b.writer (vals.take (b.size - b.writer)) = some m := by
        unfold store; rw [if_pos (by simp; omega)]; exact ⟨_, rfl⟩
      have hml := store_length hm
      obtain ⟨m2, hm2⟩ : ∃ m2, store m 0 (vals.drop (b.size - b.writer)) = some m2 := by
        unfold store; rw [if_pos (by simp; omega)]; exact ⟨_, rfl⟩
      refine ⟨m2, by rw [hm]; exact hm2, by rw [store_length hm2, hml, hl], ?_⟩
      intro j hj
      rw [store_getElem? hm2, store_getElem? hm]
      grind
  obtain ⟨m, hm, hml, hmj⟩ := key
  have hinv : Inv { b with buf := m, writer := if b.size ≤ b.writer + vals.length then
      b.writer + vals.length - b.size else b.writer + vals.length } :=
    ⟨hml, by simp only; split <;> omega, hr⟩
  refine ⟨m, hm, hinv, ?_⟩
  apply List.ext_getElem?
  intro i
  rw [List.getElem?_append, contents_getElem? hinv, contents_getElem? h0, hclen]
  unfold getReadSpace getWriteSpace readSpaceFor writeSpaceFor at *
  simp only at *
  by_cases hi : i < b.size
  · have := hmj (if b.size ≤ b.reader + i then b.reader + i - b.size else b.reader + i)
      (by split <;> omega)
    rw [this]
    grind
  · grind

theorem store_zero {dest data : List α} (h : data.length ≤ dest.length) :
    store dest 0 data = some (data ++ dest.drop data.length) := by
  unfold store
  rw [if_pos (by omega)]
  simp

theorem ite_min (a b : Nat) : (if a > b then b else a) = min a b := by
  split <;> omega

/-- One call refines the queue. -/
theorem step_refines [Zero α] [Add α] {b : RB α} (h : Inv b) (op : Op α) (ho : op.Ok) :
    ∃ b', step b op = some (b', (Queue.step (b.size - 1) (contents b) op).2) ∧
      Inv b' ∧ b'.size = b.size ∧
      contents b' = (Queue.step (b.size - 1) (contents b) op).1 := by
  have hlen := contents_length h
  have hsum := space_sum h
  have hrs : readSpaceFor b.size b.writer b.reader = (contents b).length := by
    rw [hlen]; rfl
  have hws : writeSpaceFor b.size b.writer b.reader = b.size - 1 - (contents b).length := by
    show getWriteSpace b = _
    omega
  cases op with
  | write xs =>
    simp only [step, write, Queue.step, ite_min, hws]
    by_cases hz : min xs.length (b.size - 1 - (contents b).length) = 0
    · rw [if_pos hz]
      refine ⟨b, by simp [hz], h, rfl, by simp [hz]⟩
    · rw [if_neg hz]
      obtain ⟨m, hm, hi, hc⟩ := copyIn_eq h
        (xs.take (min xs.length (b.size - 1 - (contents b).length))) (by simp; omega)
      have hl : (xs.take (min xs.length (b.size - 1 - (contents b).length))).length
          = min xs.length (b.size - 1 - (contents b).length) := by simp
      rw [hl] at hi hc
      refine ⟨_, by rw [hm]; rfl, hi, rfl, hc⟩
  | zero n =>
    simp only [step, zero, Queue.step, ite_min, hws]
    by_cases hz : min n (b.size - 1 - (contents b).length) = 0
    · rw [if_pos hz]
      refine ⟨b, by simp [hz], h, rfl, by simp [hz]⟩
    · rw [if_neg hz]
      obtain ⟨m, hm, hi, hc⟩ := copyIn_eq h
        (List.replicate (min n (b.size - 1 - (contents b).length)) (0 : α)) (by simp; omega)
      rw [List.length_replicate] at hi hc
      refine ⟨_, by rw [hm]; rfl, hi, rfl, hc⟩
  | read d n =>
    simp only [Op.Ok] at ho
    simp only [step, read, Queue.step, ite_min, hrs]
    by_cases hz : min n (contents b).length = 0
    · rw [if_pos hz]
      refine ⟨b, by simp [hz], h, rfl, by simp [hz]⟩
    · rw [if_neg hz, copyOut_eq h _ (by omega)]
      have hl : ((contents b).take (min n (contents b).length)).length
          = min n (contents b).length := by simp
      refine ⟨{ b with reader := wrap b.size (b.reader + min n (contents b).length) }, ?_,
        advance_inv h _, rfl, contents_advance h _ (by omega)⟩
      simp only [Option.bind_eq_bind, Option.bind_some]
      rw [store_zero (by rw [hl]; omega), hl]
      rfl
  | readAdding d n =>
    simp only [Op.Ok] at ho
    simp only [step, readAdding, Queue.step, ite_min, hrs]
    by_cases hz : min n (contents b).length = 0
    · rw [if_pos hz]
      refine ⟨b, by simp [hz], h, rfl, by simp [hz]⟩
    · rw [if_neg hz, copyOut_eq h _ (by omega)]
      refine ⟨{ b with reader := wrap b.size (b.reader + min n (contents b).length) }, ?_,
        advance_inv h _, rfl, contents_advance h _ (by omega)⟩
      simp only [Option.bind_eq_bind, Option.bind_some]
      unfold load
      rw [if_pos (by omega)]
      simp only [Option.bind_some, List.drop_zero]
      have hl : (List.zipWith (· + ·) (d.take (min n (contents b).length))
          ((contents b).take (min n (contents b).length))).length
          = min n (contents b).length := by simp; omega
      rw [store_zero (by rw [hl]; omega), hl]
      rfl
  | readOne =>
    simp only [step, readOne, Queue.step]
    by_cases hz : b.writer = b.reader
    · rw [if_pos hz]
      have : contents b = [] := by simp [contents, hz]
      refine ⟨b, by simp [this], h, rfl, by simp [this]⟩
    · rw [if_neg hz]
      have hpos : 1 ≤ getReadSpace b := by
        obtain ⟨hl, hw, hr⟩ := h
        unfold getReadSpace readSpaceFor
        split <;> (try split) <;> omega
      have h1 := copyOut_eq h 1 hpos
      have hadv := contents_advance h 1 hpos
      have hsz : (if b.reader + 1 = b.size then 0 else b.reader + 1)
          = wrap b.size (b.reader + 1) := by
        obtain ⟨hl, hw, hr⟩ := h
        rw [wrap_lt_two _ _ (by omega)]
        split <;> split <;> omega
      rw [hsz]
      cases hc : contents b with
      | nil => rw [hc] at hlen; simp at hlen; omega
      | cons x q =>
        have hx : b.buf[b.reader]? = some x := by
          have : copyOut b 1 = some [x] := by rw [h1, hc]; rfl
          unfold copyOut load at this
          have hr := h.r
          have hl := h.len
          simp only [ge_iff_le] at this
          rw [if_pos (by omega), if_pos (by omega)] at this
          simp only [Option.some.injEq] at this
          have := congrArg (fun l => l[0]?) this
          simpa using this
        refine ⟨{ b with reader := wrap b.size (b.reader + 1) }, ?_, advance_inv h 1, rfl, ?_⟩
        · rw [hx]; rfl
        · rw [hadv, hc]; rfl
  | peek d n =>
    simp only [Op.Ok] at ho
    simp only [step, peek, Queue.step, ite_min, hrs]
    by_cases hz : min n (contents b).length = 0
    · rw [if_pos hz]
      refine ⟨b, by simp [hz], h, rfl, rfl⟩
    · rw [if_neg hz, copyOut_eq h _ (by omega)]
      have hl : ((contents b).take (min n (contents b).length)).length
          = min n (contents b).length := by simp
      refine ⟨b, ?_, h, rfl, rfl⟩
      simp only [Option.bind_eq_bind, Option.bind_some]
      rw [store_zero (by rw [hl]; omega), hl]
      rfl
  | peekOne =>
    simp only [step, peekOne, Queue.step]
    by_cases hz : b.writer = b.reader
    · rw [if_pos hz]
      have : contents b = [] := by simp [contents, hz]
      refine ⟨b, by simp [this], h, rfl, by simp [this]⟩
    · rw [if_neg hz]
      have hpos : 1 ≤ getReadSpace b := by
        obtain ⟨hl, hw, hr⟩ := h
        unfold getReadSpace readSpaceFor
        split <;> (try split) <;> omega
      have h1 := copyOut_eq h 1 hpos
      cases hc : contents b with
      | nil => rw [hc] at hlen; simp at hlen; omega
      | cons x q =>
        have hx : b.buf[b.reader]? = some x := by
          have : copyOut b 1 = some [x] := by rw [h1, hc]; rfl
          unfold copyOut load at this
          have hr := h.r
          have hl := h.len
          simp only [ge_iff_le] at this
          rw [if_pos (by omega), if_pos (by omega)] at this
          simp only [Option.some.injEq] at this
          have := congrArg (fun l => l[0]?) this
          simpa using this
        refine ⟨b, by rw [hx]; rfl, h, rfl, hc⟩
  | skip n =>
    simp only [step, skip, Queue.step, ite_min, hrs]
    by_cases hz : min n (contents b).length = 0
    · rw [if_pos hz]
      refine ⟨b, by simp [hz], h, rfl, by simp [hz]⟩
    · rw [if_neg hz]
      exact ⟨_, rfl, advance_inv h _, rfl, contents_advance h _ (by omega)⟩
  | reset =>
    refine ⟨reset b, rfl, ⟨h.len, h.r, h.r⟩, rfl, ?_⟩
    simp [reset, contents, Queue.step]
  | getReadSpace =>
    exact ⟨b, by simp [step, Queue.step, hlen], h, rfl, rfl⟩
  | getWriteSpace =>
    refine ⟨b, ?_, h, rfl, rfl⟩
    simp only [step, Queue.step]
    rw [show getWriteSpace b = b.size - 1 - (contents b).length by omega]
  | getSize => exact ⟨b, rfl, h, rfl, rfl⟩

theorem run_refines [Zero α] [Add α] (ops : List (Op α)) {b : RB α} (h : Inv b)
    (ho : ∀ op ∈ ops, op.Ok) :
    ∃ b', run b ops = some (b', (Queue.run (b.size - 1) (contents b) ops).2) ∧
      Inv b' ∧ b'.size = b.size ∧
      contents b' = (Queue.run (b.size - 1) (contents b) ops).1 := by
  induction ops generalizing b with
  | nil => exact ⟨b, rfl, h, rfl, rfl⟩
  | cons op ops ih =>
    obtain ⟨b1, hs, hi, hz, hc⟩ := step_refines h op (ho op (by simp))
    obtain ⟨b2, hs2, hi2, hz2, hc2⟩ := ih hi (fun o hoo => ho o (by simp [hoo]))
    refine ⟨b2, ?_, hi2, hz2.trans hz, ?_⟩
    · simp only [run, hs, Option.bind_eq_bind, Option.bind_some, hs2, Queue.run, hz, hc]
      rfl
    · rw [hc2, hz, hc]; rfl

/-! ### resized -/

theorem write_one {b : RB α} (h : Inv b) (v : α) :
    ∃ b', write b [v] = some (b', min 1 (b.size - 1 - (contents b).length)) ∧ Inv b' ∧
      b'.size = b.size ∧
      contents b' = contents b ++ [v].take (b.size - 1 - (contents b).length) := by
  have hlen := contents_length h
  have hsum := space_sum h
  have hws : writeSpaceFor b.size b.writer b.reader = b.size - 1 - (contents b).length := by
    show getWriteSpace b = _
    omega
  simp only [write, ite_min, hws, List.length_singleton]
  by_cases hz : min 1 (b.size - 1 - (contents b).length) = 0
  · rw [if_pos hz]
    refine ⟨b, rfl, h, rfl, ?_⟩
    rw [show b.size - 1 - (contents b).length = 0 by omega]
    simp
  · rw [if_neg hz]
    have e : min 1 (b.size - 1 - (contents b).length) = 1 := by omega
    rw [e]
    obtain ⟨m, hm, hi, hc⟩ := copyIn_eq h ([v].take 1) (by simp; omega)
    have hl : ([v].take 1).length = 1 := by simp
    rw [hl] at hi hc
    refine ⟨_, by rw [hm]; rfl, hi, rfl, ?_⟩
    rw [hc, List.take_of_length_le (l := [v]) (by simp),
      List.take_of_length_le (l := [v]) (by simp; omega)]

theorem resizedLoop_eq {b : RB α} (hb : Inv b) :
    ∀ (fuel r : Nat) (nb : RB α), r < b.size → Inv nb →
      getReadSpace { b with reader := r } ≤ fuel →
      ∃ nb', resizedLoop b fuel r nb = some nb' ∧ Inv nb' ∧ nb'.size = nb.size ∧
        contents nb' = contents nb ++
          (contents { b with reader := r }).take (nb.size - 1 - (contents nb).length) := by
  intro fuel
  induction fuel with
  | zero =>
    intro r nb hr hi hf
    have hbr : Inv { b with reader := r } := ⟨hb.len, hb.w, hr⟩
    have : r = b.writer := by
      unfold getReadSpace readSpaceFor at hf
      simp only at hf
      have := hb.w
      split at hf <;> (try split at hf) <;> omega
    refine ⟨nb, by unfold resizedLoop; rw [if_pos this], hi, rfl, ?_⟩
    simp [contents, this]
  | succ fuel ih =>
    intro r nb hr hi hf
    have hbr : Inv { b with reader := r } := ⟨hb.len, hb.w, hr⟩
    by_cases hz : r = b.writer
    · refine ⟨nb, by unfold resizedLoop; rw [if_pos hz], hi, rfl, ?_⟩
      simp [contents, hz]
    · unfold resizedLoop
      rw [if_neg hz]
      have hpos : 1 ≤ getReadSpace { b with reader := r } := by
        obtain ⟨hl, hw, hr⟩ := hbr
        unfold getReadSpace readSpaceFor
        simp only
        split <;> (try split) <;> omega
      have hlen := contents_length hbr
      have hadv := contents_advance hbr 1 hpos
      have h1 := copyOut_eq hbr 1 hpos
      simp only at hadv
      have hsz : (if r + 1 = b.size then 0 else r + 1) = wrap b.size (r + 1) := by
        rw [wrap_lt_two _ _ (by omega)]
        split <;> split <;> omega
      cases hc : contents { b with reader := r } with
      | nil => rw [hc] at hlen; simp at hlen; omega
      | cons x q =>
        have hx : b.buf[r]? = some x := by
          have : copyOut { b with reader := r } 1 = some [x] := by rw [h1, hc]; rfl
          unfold copyOut load at this
          have hl := hb.len
          simp only [ge_iff_le] at this
          rw [if_pos (by omega), if_pos (by omega)] at this
          simp only [Option.some.injEq] at this
          have := congrArg (fun l => l[0]?) this
          simpa using this
        obtain ⟨nb1, hw1, hi1, hz1, hc1⟩ := write_one hi x
        simp only [hx, Option.bind_eq_bind, Option.bind_some, hw1, hsz]
        have hlt : wrap b.size (r + 1) < b.size := by
          rw [wrap_eq _ _ (by omega)]; exact Nat.mod_lt _ (by omega)
        have hi2 : Inv { b with reader := wrap b.size (r + 1) } := ⟨hb.len, hb.w, hlt⟩
        have hlen2 := contents_length hi2
        rw [hadv, hc] at hlen2
        simp only [List.drop_succ_cons, List.drop_zero] at hlen2
        rw [hc] at hlen
        simp only [List.length_cons] at hlen
        obtain ⟨nb', hl', hi', hz', hc'⟩ := ih (wrap b.size (r + 1)) nb1 hlt hi1
          (by rw [← hlen2]; omega)
        refine ⟨nb', hl', hi', hz'.trans hz1, ?_⟩
        rw [hc', hadv, hc, hc1, hz1]
        simp only [List.drop_succ_cons, List.drop_zero, List.length_append, List.length_take,
          List.length_singleton, List.append_assoc]
        congr 1
        rcases hk : nb.size - 1 - (contents nb).length with _ | k
        · simp
          left; omega
        · simp
          congr 1
          omega

end Verif.RingBuffer
