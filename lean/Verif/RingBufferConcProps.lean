import Verif.RingBufferConcLemmas
/-!
# Ring buffer with one writer and one reader thread: properties C02, C03
-/
namespace Verif.RingBuffer.Conc
variable {α : Type}

/-- **C02.**  In every state reachable by any schedule of any two programs: no
access has left an array; every completed read or peek obtained exactly the next
samples, in order, of the stream accepted by *completed* writes (so nothing is
lost, repeated, reordered or seen early); no more is taken than was accepted,
and no more is accepted than the capacity `n` allows beyond what was taken. -/
theorem C02_safe {n : Nat} {junk : List α} (hj : junk.length = n + 1) {s : St α}
    (h : Reachable n junk s) :
    s.fault = false ∧ Faithful (stream s.wlog) s.rlog ∧
    taken s.rlog ≤ (stream s.wlog).length ∧
    (stream s.wlog).length ≤ taken s.rlog + n := by
  have hs : s.size = n + 1 := by
    induction h with
    | start => rfl
    | step _ hst ih =>
      cases hst <;> (try exact ih)
      · rename_i c w _; cases c <;> simp only [wLoadR] <;> (try split) <;> (try split) <;> exact ih
      · simp only [wCopy]; split <;> (try split) <;> exact ih
      · rename_i c w _; cases c <;> simp only [rLoadR] <;> (try split) <;> (try split) <;> exact ih
      · simp only [rCopy]; split <;> exact ih
      · simp only [rCopy]; split <;> exact ih
  have c := cinv_reachable hj h
  have := c.le
  have := c.lt
  exact ⟨c.nofault, c.faithful, by omega, by omega⟩

/-- **C02, nothing lost.**  In every reachable state (even while the writer is in
the middle of copying) a look into the buffer from the reader's side finds
exactly the accepted samples not yet taken: this is what the sequential `peek`
would return on the current shared memory. -/
theorem C02_nothing_lost {n : Nat} {junk : List α} (hj : junk.length = n + 1) {s : St α}
    (h : Reachable n junk s) (dest : List α)
    (hd : dest.length = (stream s.wlog).length - taken s.rlog) :
    peek ⟨s.buf, s.writer, s.reader, s.size⟩ dest dest.length =
      some ((stream s.wlog).drop (taken s.rlog), dest.length) := by
  have c := cinv_reachable hj h
  have hle := c.le
  have hlt := c.lt
  have hinv : Inv (⟨s.buf, s.writer, s.reader, s.size⟩ : RB α) :=
    ⟨c.len, by simp only [c.hw]; exact Nat.mod_lt _ c.szpos,
      by simp only [c.hr]; exact Nat.mod_lt _ c.szpos⟩
  have hrs : getReadSpace (⟨s.buf, s.writer, s.reader, s.size⟩ : RB α) = dest.length := by
    simp only [getReadSpace, c.hw, c.hr, hd]
    exact readSpace_mod _ _ _ (by omega) (by omega)
  have hc : contents (⟨s.buf, s.writer, s.reader, s.size⟩ : RB α)
      = (stream s.wlog).drop (taken s.rlog) := by
    apply List.ext_getElem?
    intro i
    rw [contents_getElem? hinv, hrs, List.getElem?_drop]
    split
    · rename_i hi
      rw [← c.data (taken s.rlog + i) (by omega) (by omega)]
      congr 1
      simp only [c.hr]
      rw [← Nat.mod_add_mod (taken s.rlog) s.size i]
      have hm : taken s.rlog % s.size < s.size := Nat.mod_lt _ c.szpos
      have hi' : i < s.size := by omega
      generalize taken s.rlog % s.size = m at *
      split
      · rw [Nat.mod_eq_sub_mod (by omega), Nat.mod_eq_of_lt (by omega)]
      · rw [Nat.mod_eq_of_lt (by omega)]
    · rename_i hi
      rw [List.getElem?_eq_none (by omega)]
  unfold peek
  simp only [ite_min]
  have hrs' : readSpaceFor s.size s.writer s.reader = dest.length := hrs
  rw [hrs', Nat.min_self]
  split
  · rename_i hz
    rw [List.drop_eq_nil_of_le (by omega), List.length_eq_zero_iff.mp hz]
  · rw [copyOut_eq hinv _ (by omega), hc]
    simp only [Option.bind_eq_bind, Option.bind_some]
    rw [List.take_of_length_le (by simp; omega), store_zero (by simp; omega)]
    simp
    omega

/-- **C02, no data race.**  In no reachable state are the two threads about to
access the same storage cell, one of them writing. -/
theorem C02_race_free {n : Nat} {junk : List α} (hj : junk.length = n + 1) {s : St α}
    (h : Reachable n junk s) : ¬ ∃ i, s.wpc.about s.size i ∧ s.rpc.about s.size i := by
  have c := cinv_reachable hj h
  have hle := c.le
  have hlt := c.lt
  rintro ⟨i, hwa, hra⟩
  have hwinv := c.winv
  have hrinv := c.rinv
  have key : ∀ (q r m : Nat) (got : Nat → Option α),
      RCopyInv s (stream s.wlog) (taken s.rlog) q r m got →
      ∀ j, j < m → slot s.size r j = i → False := by
    intro q r m got hc j hj' hs
    obtain ⟨rfl, a2, a3, a4, a5, a6⟩ := hc
    cases hp : s.wpc with
    | idle => simp [hp, WPC.about] at hwa
    | loaded _ _ => simp [hp, WPC.about] at hwa
    | copying xs w k wrote =>
      simp only [hp, WPC.about] at hwa
      obtain ⟨j', hj1, _, hs1⟩ := hwa
      simp only [WInv, hp] at hwinv
      obtain ⟨rfl, b2, b3, b4, b5, b6⟩ := hwinv
      rw [c.hr, slot_mod _ _ _ (by omega)] at hs
      rw [c.hw, slot_mod _ _ _ (by omega)] at hs1
      have := mod_inj (a := taken s.rlog + j) (b := (stream s.wlog).length + j') (size := s.size)
        (by omega) (by omega) (by rw [hs, hs1])
      omega
  cases hp : s.rpc with
  | idle => simp [hp, RPC.about] at hra
  | loaded _ _ => simp [hp, RPC.about] at hra
  | skipping _ _ _ => simp [hp, RPC.about] at hra
  | reading q r m got =>
    simp only [hp, RPC.about] at hra
    obtain ⟨j, h1, _, h3⟩ := hra
    simp only [RInv, hp] at hrinv
    exact key q r m got hrinv j h1 h3
  | peeking q r m got =>
    simp only [hp, RPC.about] at hra
    obtain ⟨j, h1, _, h3⟩ := hra
    simp only [RInv, hp] at hrinv
    exact key q r m got hrinv j h1 h3

/-- **C03, reader.**  Whenever the reading thread's completed calls contain a
`getReadSpace` that returned `k` directly followed by a `read` (or `peek`, or
`skip`) of at most `k` samples, that call transferred all the samples asked for,
whatever the writer did in between. -/
theorem C03_read_space {n : Nat} {junk : List α} (hj : junk.length = n + 1) {s : St α}
    (h : Reachable n junk s) (newer older : List (RRes α)) (k m : Nat) :
    (∀ got, s.rlog = newer ++ .read m got :: .space k :: older → m ≤ k → got.length = m) ∧
    (∀ got, s.rlog = newer ++ .peek m got :: .space k :: older → m ≤ k → got.length = m) ∧
    (∀ c, s.rlog = newer ++ .skip m c :: .space k :: older → m ≤ k → c = m) := by
  have hh := (cinv_reachable hj h).rhon
  have tail : ∀ (l l' : List (RRes α)), RHonoured (l ++ l') → RHonoured l' := by
    intro l
    induction l with
    | nil => intro l' h; exact h
    | cons x l ih =>
      intro l' h
      apply ih
      cases x <;> simp only [List.cons_append, RHonoured] at h <;> first | exact h.2 | exact h
  refine ⟨?_, ?_, ?_⟩ <;>
  · intro got he hle
    rw [he] at hh
    exact (tail _ _ hh).1 hle

/-- **C03, writer.**  Symmetrically for `getWriteSpace` followed by a `write`. -/
theorem C03_write_space {n : Nat} {junk : List α} (hj : junk.length = n + 1) {s : St α}
    (h : Reachable n junk s) (newer older : List (WRes α)) (k c : Nat) (xs : List α)
    (he : s.wlog = newer ++ .write xs c :: .space k :: older) (hle : xs.length ≤ k) :
    c = xs.length := by
  have hh := (cinv_reachable hj h).whon
  have tail : ∀ (l l' : List (WRes α)), WHonoured (l ++ l') → WHonoured l' := by
    intro l
    induction l with
    | nil => intro l' h; exact h
    | cons x l ih =>
      intro l' h
      apply ih
      cases x <;> simp only [List.cons_append, WHonoured] at h <;> first | exact h.2 | exact h
  rw [he] at hh
  exact (tail _ _ hh).1 hle

/-- **C02, no waiting.**  A thread in the middle of a call can always take a step
of that call, whatever the other thread does (there are no locks or waits). -/
theorem C02_no_waiting (s : St α) :
    (∀ c w, s.wpc = .loaded c w → ∃ s', Step s s' ∧ s'.rpc = s.rpc) ∧
    (∀ xs w n wr, s.wpc = .copying xs w n wr → ∃ s', Step s s' ∧ s'.rpc = s.rpc) ∧
    (s.rpc ≠ .idle → ∃ s', Step s s' ∧ s'.wpc = s.wpc) := by
  refine ⟨?_, ?_, ?_⟩
  · intro c w h
    refine ⟨_, .wLoadR h, ?_⟩
    cases c <;> simp only [wLoadR] <;> (try split) <;> (try split) <;> rfl
  · intro xs w n wr h
    by_cases ha : ∀ j, j < n → wr j = true
    · exact ⟨_, .wPublish h ha, rfl⟩
    · have : ∃ j, j < n ∧ wr j = false := by
        apply Classical.byContradiction
        intro hc
        apply ha
        intro j hj
        cases hw : wr j with
        | true => rfl
        | false => exact absurd ⟨j, hj, hw⟩ hc
      obtain ⟨j, hj, hw⟩ := this
      refine ⟨_, .wCopy j h hj hw, ?_⟩
      simp only [wCopy]; split <;> (try split) <;> rfl
  · intro hne
    have pick : ∀ (n : Nat) (got : Nat → Option α), (¬ ∀ j, j < n → got j ≠ none) →
        ∃ j, j < n ∧ got j = none := by
      intro n got ha
      apply Classical.byContradiction
      intro hc
      exact ha (fun j hj hn => hc ⟨j, hj, hn⟩)
    cases h : s.rpc with
    | idle => exact absurd h hne
    | loaded c w =>
      refine ⟨_, .rLoadR h, ?_⟩
      cases c <;> simp only [rLoadR] <;> (try split) <;> (try split) <;> rfl
    | skipping q r n => exact ⟨_, .rSkip h, rfl⟩
    | reading q r n got =>
      by_cases ha : ∀ j, j < n → got j ≠ none
      · exact ⟨_, .rPublish h ha, rfl⟩
      · obtain ⟨j, hj, hg⟩ := pick n got ha
        refine ⟨_, .rCopy j h hj hg, ?_⟩
        simp only [rCopy]; split <;> rfl
    | peeking q r n got =>
      by_cases ha : ∀ j, j < n → got j ≠ none
      · exact ⟨_, .rPeekEnd h ha, rfl⟩
      · obtain ⟨j, hj, hg⟩ := pick n got ha
        refine ⟨_, .rPeekCopy j h hj hg, ?_⟩
        simp only [rCopy]; split <;> rfl

/-- A reachable state: the reader asks for space while a write of two samples is
being copied, sees none, asks again after publication, and reads one sample
while the writer has begun its next call.  Its logs meet the hypotheses of the
theorems above. -/
example : ∃ s : St Int, Reachable 2 [0, 0, 0] s ∧
    s.rlog = [.read 1 [7], .space 2, .space 0] ∧ s.wlog = [.write [7, 8] 2, .space 2] := by
  have h0 : Reachable 2 [0, 0, 0] (start 2 [0, 0, 0] : St Int) := .start
  have h1 : Reachable 2 [0, 0, 0]
    (⟨[0, 0, 0], 0, 0, 3, .loaded .space 0, .idle, [], [], false⟩ : St Int) := by
    have e := h0.step (.wStart .space rfl)
    exact e
  have h2 : Reachable 2 [0, 0, 0]
    (⟨[0, 0, 0], 0, 0, 3, .idle, .idle, [.space 2], [], false⟩ : St Int) := by
    have e := h1.step (.wLoadR rfl)
    exact e
  have h3 : Reachable 2 [0, 0, 0]
    (⟨[0, 0, 0], 0, 0, 3, .loaded (.write [7, 8]) 0, .idle, [.space 2], [], false⟩ : St Int) := by
    have e := h2.step (.wStart (.write [7, 8]) rfl)
    exact e
  have h4 : Reachable 2 [0, 0, 0]
    (⟨[0, 0, 0], 0, 0, 3, .copying [7, 8] 0 2 (fun _ => false), .idle, [.space 2], [], false⟩ : St Int) := by
    have e := h3.step (.wLoadR rfl)
    exact e
  have h5 : Reachable 2 [0, 0, 0]
    (⟨[0, 8, 0], 0, 0, 3, .copying [7, 8] 0 2 (fun i => if i = 1 then true else false), .idle, [.space 2], [], false⟩ : St Int) := by
    have e := h4.step (.wCopy 1 rfl (by decide) rfl)
    exact e
  have h6 : Reachable 2 [0, 0, 0]
    (⟨[0, 8, 0], 0, 0, 3, .copying [7, 8] 0 2 (fun i => if i = 1 then true else false), .loaded .space 0, [.space 2], [], false⟩ : St Int) := by
    have e := h5.step (.rStart .space rfl)
    exact e
  have h7 : Reachable 2 [0, 0, 0]
    (⟨[0, 8, 0], 0, 0, 3, .copying [7, 8] 0 2 (fun i => if i = 1 then true else false), .idle, [.space 2], [.space 0], false⟩ : St Int) := by
    have e := h6.step (.rLoadR rfl)
    exact e
  have h8 : Reachable 2 [0, 0, 0]
    (⟨[7, 8, 0], 0, 0, 3, .copying [7, 8] 0 2 (fun i => if i = 0 then true else if i = 1 then true else false), .idle, [.space 2], [.space 0], false⟩ : St Int) := by
    have e := h7.step (.wCopy 0 rfl (by decide) rfl)
    exact e
  have h9 : Reachable 2 [0, 0, 0]
    (⟨[7, 8, 0], 2, 0, 3, .idle, .idle, [.write [7, 8] 2, .space 2], [.space 0], false⟩ : St Int) := by
    have e := h8.step (.wPublish rfl (by decide))
    exact e
  have h10 : Reachable 2 [0, 0, 0]
    (⟨[7, 8, 0], 2, 0, 3, .idle, .loaded .space 2, [.write [7, 8] 2, .space 2], [.space 0], false⟩ : St Int) := by
    have e := h9.step (.rStart .space rfl)
    exact e
  have h11 : Reachable 2 [0, 0, 0]
    (⟨[7, 8, 0], 2, 0, 3, .idle, .idle, [.write [7, 8] 2, .space 2], [.space 2, .space 0], false⟩ : St Int) := by
    have e := h10.step (.rLoadR rfl)
    exact e
  have h12 : Reachable 2 [0, 0, 0]
    (⟨[7, 8, 0], 2, 0, 3, .idle, .loaded (.read 1) 2, [.write [7, 8] 2, .space 2], [.space 2, .space 0], false⟩ : St Int) := by
    have e := h11.step (.rStart (.read 1) rfl)
    exact e
  have h13 : Reachable 2 [0, 0, 0]
    (⟨[7, 8, 0], 2, 0, 3, .loaded (.write [9]) 2, .loaded (.read 1) 2, [.write [7, 8] 2, .space 2], [.space 2, .space 0], false⟩ : St Int) := by
    have e := h12.step (.wStart (.write [9]) rfl)
    exact e
  have h14 : Reachable 2 [0, 0, 0]
    (⟨[7, 8, 0], 2, 0, 3, .loaded (.write [9]) 2, .reading 1 0 1 (fun _ => none), [.write [7, 8] 2, .space 2], [.space 2, .space 0], false⟩ : St Int) := by
    have e := h13.step (.rLoadR rfl)
    exact e
  have h15 : Reachable 2 [0, 0, 0]
    (⟨[7, 8, 0], 2, 0, 3, .loaded (.write [9]) 2, .reading 1 0 1 (fun i => if i = 0 then some 7 else none), [.write [7, 8] 2, .space 2], [.space 2, .space 0], false⟩ : St Int) := by
    have e := h14.step (.rCopy 0 rfl (by decide) rfl)
    exact e
  have h16 : Reachable 2 [0, 0, 0]
    (⟨[7, 8, 0], 2, 1, 3, .loaded (.write [9]) 2, .idle, [.write [7, 8] 2, .space 2], [.read 1 [7], .space 2, .space 0], false⟩ : St Int) := by
    have e := h15.step (.rPublish rfl (by decide))
    exact e
  exact ⟨_, h16, rfl, rfl⟩

end Verif.RingBuffer.Conc
