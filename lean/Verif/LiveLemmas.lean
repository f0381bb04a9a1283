import Verif.Live
import Verif.R3Limits
import Verif.MathMiscSimple
import Mathlib.Tactic.Linarith
/-!
# Lemmas on the flow of samples in the live shifter
-/
namespace Verif.Live

/-! ## The counting resampler -/

/-- Parameters a resampler can have. -/
structure Rs.Ok (R : Rs) : Prop where
  num : 0 < R.num
  den : 0 < R.den
  phase : R.phase < R.num

variable {R : Rs}

theorem due_mono (_h : R.Ok) {n m : Nat} (hnm : n ≤ m) : R.due n ≤ R.due m := by
  unfold Rs.due
  split
  · omega
  · rw [if_neg (by omega)]
    have : (n - R.reach - 1) * R.num ≤ (m - R.reach - 1) * R.num := Nat.mul_le_mul_right _ (by omega)
    have := Nat.div_le_div_right (c := R.den) (by omega : (n - R.reach - 1) * R.num + R.phase ≤ (m - R.reach - 1) * R.num + R.phase)
    omega

theorem due_zero {n : Nat} (h : n ≤ R.reach) : R.due n = 0 := by
  unfold Rs.due; rw [if_pos h]

/-- From `m` frames more come at most `q`, if `m * num ≤ q * den`. -/
theorem due_add_le (h : R.Ok) {m q : Nat} (hq : m * R.num ≤ q * R.den) (n : Nat) : R.due (n + m) ≤ R.due n + q := by
  have hd := h.den
  unfold Rs.due
  split
  · omega
  · rename_i hm
    split
    · rename_i hn
      have h1 : n + m - R.reach - 1 + 1 ≤ m := by omega
      have h2 : (n + m - R.reach - 1 + 1) * R.num ≤ m * R.num := Nat.mul_le_mul_right _ h1
      rw [Nat.add_mul] at h2
      have hp := h.phase
      have h3 : (n + m - R.reach - 1) * R.num + R.phase < q * R.den := by omega
      have := (Nat.div_lt_iff_lt_mul hd).mpr h3
      omega
    · rename_i hn
      have e : n + m - R.reach - 1 = (n - R.reach - 1) + m := by omega
      rw [e, Nat.add_mul]
      have : ((n - R.reach - 1) * R.num + m * R.num + R.phase) / R.den ≤
          ((n - R.reach - 1) * R.num + R.phase + q * R.den) / R.den := Nat.div_le_div_right (by omega)
      rw [Nat.add_mul_div_right _ _ hd] at this
      omega

/-- From `m` frames more come at least `q`, if `q * den ≤ m * num`, once the filter is full. -/
theorem due_add_ge (h : R.Ok) {m q : Nat} (hq : q * R.den ≤ m * R.num) {n : Nat} (hn : R.reach < n) :
    R.due n + q ≤ R.due (n + m) := by
  have hd := h.den
  unfold Rs.due
  rw [if_neg (by omega), if_neg (by omega)]
  have e : n + m - R.reach - 1 = (n - R.reach - 1) + m := by omega
  rw [e, Nat.add_mul]
  have : ((n - R.reach - 1) * R.num + R.phase + q * R.den) / R.den ≤
      ((n - R.reach - 1) * R.num + m * R.num + R.phase) / R.den := Nat.div_le_div_right (by omega)
  rw [Nat.add_mul_div_right _ _ hd] at this
  omega

theorem takes_le (goal : Nat) : ∀ m n, R.takes goal m n ≤ m := by
  intro m
  induction m with
  | zero => intro n; simp [Rs.takes]
  | succ m ih =>
    intro n
    unfold Rs.takes
    split
    · omega
    · have := ih (n + 1); omega

/-- All the input is taken if before the last frame of it the output was not full. -/
theorem takes_all (h : R.Ok) {goal : Nat} : ∀ {m n : Nat}, R.due (n + m - 1) < goal → R.takes goal m n = m := by
  intro m
  induction m with
  | zero => intro n _; simp [Rs.takes]
  | succ m ih =>
    intro n hg
    have h1 : R.due n ≤ R.due (n + (m + 1) - 1) := due_mono h (by omega)
    unfold Rs.takes
    rw [if_neg (by omega), ih (by rw [show n + 1 + m - 1 = n + (m + 1) - 1 by omega]; exact hg)]

theorem call_all (h : R.Ok) {s : Pos} {m sp : Nat} (hg : R.due (s.taken + m - 1) < s.made + sp) :
    R.call s m sp = (⟨s.taken + m, s.made + min sp (R.due (s.taken + m) - s.made)⟩,
      min sp (R.due (s.taken + m) - s.made)) := by
  unfold Rs.call
  rw [takes_all h hg]

/-! ## Reading out -/

/-- Everything that could be given has been given. -/
def Drained (R : Rs) (s : Pos) : Prop := s.made = R.due s.taken

/-- Nothing more could have been left untaken: without the last frame taken, too few could have been given. -/
def Tight (R : Rs) (s : Pos) : Prop := 1 ≤ s.taken ∧ R.due (s.taken - 1) < s.made ∧ s.made ≤ R.due s.taken

theorem tail_spec (h : R.Ok) : ∀ (outbuf fuel : Nat) (pos : Pos) (count lost : Nat), Drained R pos → count < blockSize →
    outbuf + 1 ≤ fuel →
    ∃ o, tailLoop R fuel ⟨outbuf, pos, count, lost⟩ = some o ∧ o.lost = lost ∧ o.outbuf ≤ outbuf ∧
      o.pos.taken = pos.taken + (outbuf - o.outbuf) ∧ o.pos.made = pos.made + (o.count - count) ∧ count ≤ o.count ∧
      ((o.count = blockSize ∧ Tight R o.pos) ∨ (o.count < blockSize ∧ o.outbuf = 0 ∧ Drained R o.pos)) := by
  intro outbuf
  induction outbuf with
  | zero =>
    intro fuel pos count lost hd hc hf
    cases fuel with
    | zero => omega
    | succ fuel =>
      unfold tailLoop
      simp only
      rw [if_pos hc]
      have hcall : R.call pos 0 (blockSize - count) = (pos, 0) := by
        unfold Drained at hd
        unfold Rs.call
        simp only [Rs.takes, Nat.add_zero, hd, Nat.sub_self, Nat.min_zero]
        cases pos
        simp only at hd
        rw [hd]
      have hr : readRound R 1 ⟨0, pos, count, lost⟩ = (⟨0, pos, count, lost⟩, false) := by
        unfold readRound
        simp [hcall]
      rw [hr]
      exact ⟨_, rfl, rfl, by simp, by simp, by simp, Nat.le_refl _, Or.inr ⟨hc, rfl, hd⟩⟩
  | succ outbuf ih =>
    intro fuel pos count lost hd hc hf
    cases fuel with
    | zero => omega
    | succ fuel =>
      unfold tailLoop
      simp only
      rw [if_pos hc]
      have hcall := call_all h (s := pos) (m := 1) (sp := blockSize - count) (by
        rw [Nat.add_sub_cancel]; unfold Drained at hd; omega)
      have hm := due_mono h (Nat.le_succ pos.taken)
      unfold Drained at hd
      generalize hk : min (blockSize - count) (R.due (pos.taken + 1) - pos.made) = k at hcall
      have hr : readRound R 1 ⟨outbuf + 1, pos, count, lost⟩ =
          (⟨outbuf, ⟨pos.taken + 1, pos.made + k⟩, count + k, lost⟩, true) := by
        unfold readRound
        simp only [show min 1 (outbuf + 1) = 1 by omega, hcall]
        simp
      rw [hr]
      simp only
      by_cases hfull : count + k < blockSize
      · have hdr : Drained R ⟨pos.taken + 1, pos.made + k⟩ := by
          unfold Drained
          simp only
          simp only [Nat.succ_eq_add_one] at hm
          omega
        obtain ⟨o, o1, o2, o3, o4, o5, o6, o7⟩ := ih fuel ⟨pos.taken + 1, pos.made + k⟩ (count + k) lost hdr hfull (by omega)
        simp only at o4 o5
        exact ⟨o, o1, o2, by omega, by omega, by omega, by omega, o7⟩
      · refine ⟨⟨outbuf, ⟨pos.taken + 1, pos.made + k⟩, count + k, lost⟩, ?_, rfl, by simp, by simp, by simp, by simp, Or.inl ?_⟩
        · cases fuel with
          | zero => omega
          | succ fuel =>
            unfold tailLoop
            simp only
            rw [if_neg hfull]
        · have hk1 : k ≤ blockSize - count := by omega
          refine ⟨by simp only; omega, ?_⟩
          unfold Tight
          simp only [Nat.succ_eq_add_one] at hm
          simp only [Nat.add_sub_cancel]
          omega

/-- What the ratio of the second resampler must be for a block to need the number of frames the shifter thinks. -/
structure Fits (R : Rs) (need feed : Nat) : Prop where
  ok : R.Ok
  up : R.den ≤ R.num
  feed_pos : 1 ≤ feed
  feed_le : feed ≤ need
  below : feed * R.num ≤ blockSize * R.den
  above : blockSize * R.den ≤ need * R.num

/-- Before a call of `readOut`. -/
def Ready (R : Rs) (s : Pos) : Prop := Drained R s ∨ Tight R s

theorem read_spec {need feed : Nat} (h : Fits R need feed) {outbuf fuel : Nat} {pos : Pos} (hp : Ready R pos)
    (hf : outbuf + 2 ≤ fuel) (ho : need ≤ outbuf) :
    ∃ o, readLoop R feed fuel ⟨outbuf, pos, 0, 0⟩ = some o ∧ o.lost = 0 ∧ o.outbuf ≤ outbuf - feed ∧
      o.pos.taken = pos.taken + (outbuf - o.outbuf) ∧ o.pos.made = pos.made + o.count ∧
      ((o.count = blockSize ∧ Tight R o.pos) ∨ (o.count < blockSize ∧ o.outbuf = 0 ∧ Drained R o.pos)) := by
  have h1 := h.feed_pos
  have h2 := h.feed_le
  have hbs : blockSize = 512 := rfl
  -- before the last frame fed the block is not full
  have hroom : R.due (pos.taken + feed - 1) < pos.made + blockSize := by
    rcases hp with hd | ht
    · unfold Drained at hd
      have hstep : (feed - 1) * R.num ≤ (blockSize - 1) * R.den := by
        have e1 : feed * R.num = (feed - 1) * R.num + R.num := by
          obtain ⟨f, rfl⟩ := Nat.exists_eq_add_of_le h1
          rw [Nat.add_comm 1 f, Nat.add_sub_cancel, Nat.add_mul, Nat.one_mul]
        have := h.below
        have := h.up
        rw [hbs] at *
        omega
      have := due_add_le h.ok hstep pos.taken
      rw [show pos.taken + (feed - 1) = pos.taken + feed - 1 by omega] at this
      rw [hd]
      omega
    · obtain ⟨t1, t2, t3⟩ := ht
      have := due_add_le h.ok h.below (pos.taken - 1)
      rw [show pos.taken - 1 + feed = pos.taken + feed - 1 by omega] at this
      omega
  have hge : pos.made ≤ R.due (pos.taken + feed) := by
    have hm := due_mono h.ok (Nat.le_add_right pos.taken feed)
    rcases hp with hd | ht
    · unfold Drained at hd; omega
    · exact Nat.le_trans ht.2.2 hm
  have hcall := call_all h.ok (s := pos) (m := feed) (sp := blockSize) hroom
  generalize hk : min blockSize (R.due (pos.taken + feed) - pos.made) = k at hcall
  have hr : readRound R feed ⟨outbuf, pos, 0, 0⟩ = (⟨outbuf - feed, ⟨pos.taken + feed, pos.made + k⟩, k, 0⟩, true) := by
    unfold readRound
    simp only [show min feed outbuf = feed by omega, Nat.sub_zero, hcall]
    simp
    omega
  unfold readLoop
  rw [hr]
  simp only
  by_cases hfull : k < blockSize
  · obtain ⟨o, o1, o2, o3, o4, o5, o6, o7⟩ := tail_spec h.ok (outbuf - feed) fuel ⟨pos.taken + feed, pos.made + k⟩ k 0
      (by unfold Drained; simp only; omega) hfull (by omega)
    simp only at o4 o5
    exact ⟨o, o1, o2, o3, by omega, by omega, o7⟩
  · refine ⟨⟨outbuf - feed, ⟨pos.taken + feed, pos.made + k⟩, k, 0⟩, ?_, rfl, by simp, by simp; omega, by simp, Or.inl ?_⟩
    · cases fuel with
      | zero => omega
      | succ fuel =>
        unfold tailLoop
        simp only
        rw [if_neg hfull]
    · refine ⟨by simp only; omega, ?_⟩
      unfold Tight
      simp only
      omega

/-- Once the filter is full, a block is. -/
theorem read_full {need feed : Nat} (h : Fits R need feed) {outbuf fuel : Nat} {pos : Pos} (hp : Ready R pos)
    (hf : outbuf + 2 ≤ fuel) (ho : need ≤ outbuf) (hreach : R.reach < pos.taken) :
    ∃ o, readLoop R feed fuel ⟨outbuf, pos, 0, 0⟩ = some o ∧ o.lost = 0 ∧ o.outbuf ≤ outbuf - feed ∧
      R.reach < o.pos.taken ∧ o.count = blockSize ∧ Ready R o.pos := by
  obtain ⟨o, o1, o2, o3, o4, o5, o6⟩ := read_spec h hp hf ho
  refine ⟨o, o1, o2, o3, by omega, ?_, ?_⟩
  · rcases o6 with o6 | ⟨o6, o7, o8⟩
    · exact o6.1
    · unfold Drained at o8
      have hle : pos.made ≤ R.due pos.taken := by
        rcases hp with hd | ht
        · exact Nat.le_of_eq hd
        · exact ht.2.2
      have := due_add_ge h.ok h.above hreach
      have := due_mono h.ok (show pos.taken + need ≤ o.pos.taken by omega)
      omega
  · rcases o6 with o6 | o6
    · exact Or.inr o6.2
    · exact Or.inl o6.2.2

end Verif.Live
