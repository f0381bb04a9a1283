import Verif.RingBufferConcSpec
import Verif.RingBufferLemmas
namespace Verif.RingBuffer.Conc
variable {α : Type}

theorem slot_mod (size a j : Nat) (hj : j < size) :
    slot size (a % size) j = (a + j) % size := by
  have hm : a % size < size := Nat.mod_lt _ (by omega)
  have : (a + j) % size = (a % size + j) % size := by simp
  rw [this]
  clear this
  generalize a % size = m at *
  unfold slot
  split
  · rw [Nat.mod_eq_of_lt (by omega)]
  · rw [Nat.mod_eq_sub_mod (by omega), Nat.mod_eq_of_lt (by omega)]
    omega

theorem mod_inj {a b size : Nat} (hab : a ≤ b) (hb : b < a + size)
    (h : a % size = b % size) : a = b := by
  have h1 := Nat.div_add_mod a size
  have h2 := Nat.div_add_mod b size
  have hd : a / size ≤ b / size := Nat.div_le_div_right hab
  rcases Nat.lt_or_ge (a / size) (b / size) with hlt | hge
  · have : size * (a / size + 1) ≤ size * (b / size) := Nat.mul_le_mul_left _ hlt
    rw [Nat.mul_add] at this
    omega
  · have : a / size = b / size := by omega
    rw [this] at h1
    omega

theorem readSpace_mod (size w r : Nat) (h1 : r ≤ w) (h2 : w < r + size) :
    readSpaceFor size (w % size) (r % size) = w - r := by
  obtain ⟨d, rfl⟩ : ∃ d, w = r + d := ⟨w - r, by omega⟩
  have hm : r % size < size := Nat.mod_lt _ (by omega)
  rw [← Nat.mod_add_mod r size d, Nat.add_sub_cancel_left]
  have hd : d < size := by omega
  clear h1 h2
  generalize r % size = m at *
  unfold readSpaceFor
  by_cases h : m + d < size
  · rw [Nat.mod_eq_of_lt h]; split <;> (try split) <;> omega
  · rw [Nat.mod_eq_sub_mod (by omega), Nat.mod_eq_of_lt (by omega)]
    split <;> (try split) <;> omega

theorem writeSpace_mod (size w r : Nat) (h1 : r ≤ w) (h2 : w < r + size) :
    writeSpaceFor size (w % size) (r % size) = size - 1 - (w - r) := by
  obtain ⟨d, rfl⟩ : ∃ d, w = r + d := ⟨w - r, by omega⟩
  have hm : r % size < size := Nat.mod_lt _ (by omega)
  rw [← Nat.mod_add_mod r size d, Nat.add_sub_cancel_left]
  have hd : d < size := by omega
  clear h1 h2
  generalize r % size = m at *
  unfold writeSpaceFor
  simp only
  by_cases h : m + d < size
  · rw [Nat.mod_eq_of_lt h]; split <;> omega
  · rw [Nat.mod_eq_sub_mod (by omega), Nat.mod_eq_of_lt (by omega)]
    split <;> omega

/-- A recent observation of read space by the reader. -/
def lastR : List (RRes α) → Nat
  | .space k :: _ => k
  | _ => 0

/-- A recent observation of write space by the writer. -/
def lastW : List (WRes α) → Nat
  | .space k :: _ => k
  | _ => 0

/-- Every read right after a space report honours it. -/
def RHonoured : List (RRes α) → Prop
  | [] => True
  | .read n got :: older => (n ≤ lastR older → got.length = n) ∧ RHonoured older
  | .peek n got :: older => (n ≤ lastR older → got.length = n) ∧ RHonoured older
  | .skip n c :: older => (n ≤ lastR older → c = n) ∧ RHonoured older
  | .space _ :: older => RHonoured older

def WHonoured : List (WRes α) → Prop
  | [] => True
  | .write xs c :: older => (xs.length ≤ lastW older → c = xs.length) ∧ WHonoured older
  | .space _ :: older => WHonoured older

/-- Invariant of the writing thread's position. -/
def WInv (s : St α) (wa ra : Nat) : Prop :=
  match s.wpc with
  | .idle => True
  | .loaded _ w => w = s.writer
  | .copying xs w n wrote =>
    w = s.writer ∧ 0 < n ∧ n ≤ xs.length ∧ wa + n < ra + s.size ∧
    (xs.length ≤ lastW s.wlog → n = xs.length) ∧
    ∀ j, j < n → wrote j = true → s.buf[(wa + j) % s.size]? = xs[j]?

/-- A copy in progress in the reader. -/
def RCopyInv (s : St α) (str : List α) (ra q r n : Nat) (got : Nat → Option α) : Prop :=
  r = s.reader ∧ 0 < n ∧ n ≤ q ∧ ra + n ≤ str.length ∧ (q ≤ lastR s.rlog → n = q) ∧
  ∀ j v, j < n → got j = some v → str[ra + j]? = some v

/-- Invariant of the reading thread's position. -/
def RInv (s : St α) (str : List α) (ra : Nat) : Prop :=
  match s.rpc with
  | .idle => True
  | .loaded _ w => ∃ w0, ra + lastR s.rlog ≤ w0 ∧ w0 ≤ str.length ∧ w = w0 % s.size
  | .reading q r n got => RCopyInv s str ra q r n got
  | .peeking q r n got => RCopyInv s str ra q r n got
  | .skipping q r n => r = s.reader ∧ 0 < n ∧ n ≤ q ∧ ra + n ≤ str.length ∧
      (q ≤ lastR s.rlog → n = q)

structure CInv (s : St α) : Prop where
  szpos : 0 < s.size
  len : s.buf.length = s.size
  hw : s.writer = (stream s.wlog).length % s.size
  hr : s.reader = taken s.rlog % s.size
  le : taken s.rlog + lastR s.rlog ≤ (stream s.wlog).length
  lt : (stream s.wlog).length + lastW s.wlog < taken s.rlog + s.size
  data : ∀ k, taken s.rlog ≤ k → k < (stream s.wlog).length →
    s.buf[k % s.size]? = (stream s.wlog)[k]?
  nofault : s.fault = false
  winv : WInv s (stream s.wlog).length (taken s.rlog)
  rinv : RInv s (stream s.wlog) (taken s.rlog)
  faithful : Faithful (stream s.wlog) s.rlog
  rhon : RHonoured s.rlog
  whon : WHonoured s.wlog

theorem cinv_start (n : Nat) (junk : List α) (hj : junk.length = n + 1) :
    CInv (start n junk) := by
  constructor <;> simp [start, stream, taken, lastR, lastW, WInv, RInv, Faithful, RHonoured,
    WHonoured, hj]

theorem faithful_append (str ext : List α) : ∀ (l : List (RRes α)), taken l ≤ str.length →
    Faithful str l → Faithful (str ++ ext) l := by
  intro l
  induction l with
  | nil => intros; trivial
  | cons r l ih =>
    intro ht h
    cases r with
    | read n got =>
      simp only [taken] at ht
      obtain ⟨h1, h2, h3⟩ := h
      refine ⟨?_, h2, ih (by omega) h3⟩
      rw [List.drop_append_of_le_length (by omega), List.take_append_of_le_length (by simp; omega)]
      exact h1
    | peek n got =>
      simp only [taken] at ht
      obtain ⟨h1, h2, h3⟩ := h
      refine ⟨?_, h2, ih (by omega) h3⟩
      have hl := congrArg List.length h1
      simp at hl
      rw [List.drop_append_of_le_length (by omega), List.take_append_of_le_length (by simp; omega)]
      exact h1
    | skip n c => simp only [taken] at ht; exact ⟨h.1, ih (by omega) h.2⟩
    | space k => exact ih ht h

theorem gathered_eq (str : List α) (ra n : Nat) (got : Nat → Option α)
    (hle : ra + n ≤ str.length) (hall : ∀ j, j < n → got j ≠ none)
    (hg : ∀ j v, j < n → got j = some v → str[ra + j]? = some v) :
    gathered n got = (str.drop ra).take n := by
  induction n with
  | zero => simp [gathered]
  | succ n ih =>
    have ih := ih (by omega) (fun j hj => hall j (by omega)) (fun j v hj => hg j v (by omega))
    unfold gathered at *
    rw [List.range_succ, List.filterMap_append, ih, List.take_succ]
    congr 1
    cases hgn : got n with
    | none => exact absurd hgn (hall n (by omega))
    | some v =>
      have := hg n v (by omega) hgn
      simp [hgn, this]

theorem cinv_step {s s' : St α} (h : CInv s) (hs : Step s s') : CInv s' := by
  have h0 := h
  obtain ⟨szpos, len, hw, hr, le, lt, data, nofault, winv, rinv, faithful, rhon, whon⟩ := h
  have hra : taken s.rlog ≤ (stream s.wlog).length := by omega
  have hrs := readSpace_mod s.size (stream s.wlog).length (taken s.rlog) hra (by omega)
  have hws := writeSpace_mod s.size (stream s.wlog).length (taken s.rlog) hra (by omega)
  cases hs with
  | wStart c hpc =>
    exact ⟨szpos, len, hw, hr, le, lt, data, nofault, by simp [WInv], rinv, faithful, rhon, whon⟩
  | wLoadR hpc =>
    rename_i c w
    simp only [WInv, hpc] at winv
    subst winv
    rw [← hw, ← hr] at hws
    cases c with
    | write xs =>
      simp only [wLoadR, ite_min]
      split
      · rename_i hz
        refine ⟨szpos, len, ?_, hr, ?_, ?_, ?_, nofault, by simp [WInv], ?_, ?_, rhon, ?_⟩
        · simpa [stream] using hw
        · simpa [stream] using le
        · simp [stream, lastW]; omega
        · simpa [stream] using data
        · simpa [stream, RInv, RCopyInv] using rinv
        · simpa [stream] using faithful
        · refine ⟨?_, whon⟩
          intro hle
          omega
      · rename_i hz
        refine ⟨szpos, len, hw, hr, le, lt, data, nofault, ?_, rinv, faithful, rhon, whon⟩
        simp only [WInv]
        refine ⟨trivial, by omega, by omega, by omega, ?_, by simp⟩
        intro hle
        omega
    | space =>
      simp only [wLoadR]
      refine ⟨szpos, len, hw, hr, le, ?_, data, nofault, by simp [WInv], ?_, faithful, rhon, whon⟩
      · simp only [stream, lastW]; omega
      · simpa [stream, RInv, RCopyInv] using rinv
  | wCopy j hpc hj hwrote =>
    rename_i xs w n wrote
    simp only [WInv, hpc] at winv
    obtain ⟨rfl, hn, hnx, hlt, hlast, hdone⟩ := winv
    have hjx : xs[j]? = some (xs[j]'(by omega)) := List.getElem?_eq_getElem _
    have hslot : slot s.size s.writer j = ((stream s.wlog).length + j) % s.size := by
      rw [hw]; exact slot_mod _ _ _ (by omega)
    have hslt : slot s.size s.writer j < s.buf.length := by
      rw [hslot, len]; exact Nat.mod_lt _ szpos
    unfold wCopy
    rw [hjx]
    simp only [if_pos hslt]
    refine ⟨szpos, by simpa using len, hw, hr, le, lt, ?_, nofault, ?_, rinv, faithful, rhon, whon⟩
    · intro k hk1 hk2
      simp only
      rw [List.getElem?_set_ne, data k hk1 hk2]
      rw [hslot]
      intro he
      simp only at hk1 hk2
      have := mod_inj (a := k) (by omega) (by omega) he.symm
      omega
    · simp only [WInv]
      refine ⟨trivial, hn, hnx, hlt, hlast, ?_⟩
      intro i hi hwi
      by_cases hij : i = j
      · subst hij
        rw [hslot, List.getElem?_set_self (by rw [len]; exact Nat.mod_lt _ szpos), hjx]
      · rw [if_neg hij] at hwi
        rw [List.getElem?_set_ne, hdone i hi hwi]
        rw [hslot]
        intro he
        rcases Nat.lt_or_ge i j with hlt' | hge
        · have := mod_inj (a := (stream s.wlog).length + i) (by omega) (by omega) he.symm
          omega
        · have := mod_inj (a := (stream s.wlog).length + j) (by omega) (by omega) he
          omega
  | wPublish hpc hall =>
    rename_i xs w n wrote
    simp only [WInv, hpc] at winv
    obtain ⟨rfl, hn, hnx, hlt, hlast, hdone⟩ := winv
    have hsl : (stream (WRes.write xs n :: s.wlog)).length = (stream s.wlog).length + n := by
      simp [stream]; omega
    refine ⟨szpos, len, ?_, hr, ?_, ?_, ?_, nofault, by simp [wPublish, WInv], ?_, ?_, rhon, ?_⟩
    · simp only [wPublish]
      rw [wrap_eq _ _ szpos, hsl, hw]
      simp
    · simp only [wPublish, hsl]; omega
    · simp only [wPublish, hsl, lastW]; omega
    · intro k hk1 hk2
      simp only [wPublish, hsl] at hk1 hk2 ⊢
      simp only [stream]
      by_cases hk : k < (stream s.wlog).length
      · rw [List.getElem?_append_left hk, data k hk1 hk]
      · rw [List.getElem?_append_right (by omega), List.getElem?_take_of_lt (by omega)]
        have := hdone (k - (stream s.wlog).length) (by omega) (hall _ (by omega))
        rw [← this]
        congr 2
        omega
    · have key : ∀ q r m got, RCopyInv s (stream s.wlog) (taken s.rlog) q r m got →
        RCopyInv (wPublish s xs s.writer n) (stream s.wlog ++ xs.take n) (taken s.rlog) q r m got := by
        intro q r m got hh
        obtain ⟨a1, a2, a3, a4, a5, a6⟩ := hh
        refine ⟨a1, a2, a3, by simp; omega, a5, ?_⟩
        intro j v hj hv
        rw [List.getElem?_append_left (by omega)]
        exact a6 j v hj hv
      simp only [RInv, wPublish, stream] at *
      split <;> rename_i he <;> simp only [he] at rinv
      · trivial
      · obtain ⟨w0, b1, b2, b3⟩ := rinv
        exact ⟨w0, b1, by simp; omega, b3⟩
      · exact key _ _ _ _ rinv
      · exact key _ _ _ _ rinv
      · obtain ⟨a1, a2, a3, a4, a5⟩ := rinv
        exact ⟨a1, a2, a3, by simp; omega, a5⟩
    · exact faithful_append _ _ _ hra faithful
    · refine ⟨?_, whon⟩
      intro hle
      exact hlast hle
  | rStart c hpc =>
    refine ⟨szpos, len, hw, hr, le, lt, data, nofault, winv, ?_, faithful, rhon, whon⟩
    simp only [RInv]
    exact ⟨_, le, Nat.le_refl _, hw⟩
  | rLoadR hpc =>
    rename_i c w
    simp only [RInv, hpc] at rinv
    obtain ⟨w0, b1, b2, b3⟩ := rinv
    subst b3
    have hrs := readSpace_mod s.size w0 (taken s.rlog) (by omega) (by omega)
    rw [← hr] at hrs
    cases c with
    | read req =>
      simp only [rLoadR, ite_min, hrs]
      split
      · refine ⟨szpos, len, hw, hr, ?_, ?_, ?_, nofault, ?_, by simp [RInv], ?_, ?_, whon⟩
        · simp [taken, lastR]; omega
        · simpa [taken] using lt
        · simpa [taken] using data
        · simpa [taken, WInv] using winv
        · simp [Faithful, faithful]
        · simp only [RHonoured]; refine ⟨?_, rhon⟩; intro hle; simp; omega
      · refine ⟨szpos, len, hw, hr, le, lt, data, nofault, winv, ?_, faithful, rhon, whon⟩
        simp only [RInv, RCopyInv]
        exact ⟨trivial, by omega, by omega, by omega, fun _ => by omega, by simp⟩
    | peek req =>
      simp only [rLoadR, ite_min, hrs]
      split
      · refine ⟨szpos, len, hw, hr, ?_, ?_, ?_, nofault, ?_, by simp [RInv], ?_, ?_, whon⟩
        · simp [taken, lastR]; omega
        · simpa [taken] using lt
        · simpa [taken] using data
        · simpa [taken, WInv] using winv
        · simp [Faithful, faithful]
        · simp only [RHonoured]; refine ⟨?_, rhon⟩; intro hle; simp; omega
      · refine ⟨szpos, len, hw, hr, le, lt, data, nofault, winv, ?_, faithful, rhon, whon⟩
        simp only [RInv, RCopyInv]
        exact ⟨trivial, by omega, by omega, by omega, fun _ => by omega, by simp⟩
    | skip req =>
      simp only [rLoadR, ite_min, hrs]
      split
      · refine ⟨szpos, len, hw, hr, ?_, ?_, ?_, nofault, ?_, by simp [RInv], ?_, ?_, whon⟩
        · simp [taken, lastR]; omega
        · simpa [taken] using lt
        · simpa [taken] using data
        · simpa [taken, WInv] using winv
        · simp [Faithful, faithful]
        · simp only [RHonoured]; refine ⟨?_, rhon⟩; intro hle; omega
      · refine ⟨szpos, len, hw, hr, le, lt, data, nofault, winv, ?_, faithful, rhon, whon⟩
        simp only [RInv]
        exact ⟨trivial, by omega, by omega, by omega, fun _ => by omega⟩
    | space =>
      simp only [rLoadR, hrs]
      refine ⟨szpos, len, hw, hr, ?_, ?_, ?_, nofault, ?_, by simp [RInv], ?_, ?_, whon⟩
      · simp only [taken, lastR]; omega
      · simpa [taken] using lt
      · simpa [taken] using data
      · simpa [taken, WInv] using winv
      · simpa [Faithful] using faithful
      · simpa [RHonoured] using rhon
  | rCopy j hpc hj hgot =>
    rename_i q r n got
    simp only [RInv, hpc] at rinv
    obtain ⟨rfl, a2, a3, a4, a5, a6⟩ := rinv
    have hslot : slot s.size s.reader j = (taken s.rlog + j) % s.size := by
      rw [hr]; exact slot_mod _ _ _ (by omega)
    have hd := data (taken s.rlog + j) (by omega) (by omega)
    unfold rCopy
    rw [hslot, hd, List.getElem?_eq_getElem (by omega)]
    refine ⟨szpos, len, hw, hr, le, lt, data, nofault, winv, ?_, faithful, rhon, whon⟩
    simp only [RInv]
    refine ⟨rfl, a2, a3, a4, a5, ?_⟩
    intro i v hi hv
    simp only at hv
    split at hv
    · rename_i hij
      subst hij
      rw [← hv, List.getElem?_eq_getElem]
    · exact a6 i v hi hv
  | rPeekCopy j hpc hj hgot =>
    rename_i q r n got
    simp only [RInv, hpc] at rinv
    obtain ⟨rfl, a2, a3, a4, a5, a6⟩ := rinv
    have hslot : slot s.size s.reader j = (taken s.rlog + j) % s.size := by
      rw [hr]; exact slot_mod _ _ _ (by omega)
    have hd := data (taken s.rlog + j) (by omega) (by omega)
    unfold rCopy
    rw [hslot, hd, List.getElem?_eq_getElem (by omega)]
    refine ⟨szpos, len, hw, hr, le, lt, data, nofault, winv, ?_, faithful, rhon, whon⟩
    simp only [RInv]
    refine ⟨rfl, a2, a3, a4, a5, ?_⟩
    intro i v hi hv
    simp only at hv
    split at hv
    · rename_i hij
      subst hij
      rw [← hv, List.getElem?_eq_getElem]
    · exact a6 i v hi hv
  | rPublish hpc hall =>
    rename_i q r n got
    simp only [RInv, hpc] at rinv
    obtain ⟨rfl, a2, a3, a4, a5, a6⟩ := rinv
    have hg := gathered_eq _ _ _ _ a4 hall a6
    have hgl : (gathered n got).length = n := by rw [hg]; simp; omega
    refine ⟨szpos, len, hw, ?_, ?_, ?_, ?_, nofault, ?_, by simp [RInv], ?_, ?_, whon⟩
    · simp only [taken, hgl]
      rw [wrap_eq _ _ szpos, hr]
      simp
    · simp only [taken, lastR, hgl]; omega
    · simp only [taken, hgl]; omega
    · intro k hk1 hk2
      simp only [taken, hgl] at hk1
      exact data k (by omega) hk2
    · simp only [WInv, taken, hgl] at *
      split <;> rename_i he <;> simp only [he] at winv
      · trivial
      · exact winv
      · obtain ⟨c1, c2, c3, c4, c5, c6⟩ := winv
        exact ⟨c1, c2, c3, by omega, c5, c6⟩
    · refine ⟨?_, by omega, faithful⟩
      rw [hgl]; exact hg
    · refine ⟨?_, rhon⟩
      rw [hgl]; exact a5
  | rPeekEnd hpc hall =>
    rename_i q r n got
    simp only [RInv, hpc] at rinv
    obtain ⟨rfl, a2, a3, a4, a5, a6⟩ := rinv
    have hg := gathered_eq _ _ _ _ a4 hall a6
    have hgl : (gathered n got).length = n := by rw [hg]; simp; omega
    refine ⟨szpos, len, hw, hr, ?_, lt, data, nofault, winv, by simp [RInv], ?_, ?_, whon⟩
    · simp only [taken, lastR]; omega
    · refine ⟨?_, by omega, faithful⟩
      rw [hgl]; exact hg
    · refine ⟨?_, rhon⟩
      rw [hgl]; exact a5
  | rSkip hpc =>
    rename_i q r n
    simp only [RInv, hpc] at rinv
    obtain ⟨rfl, a2, a3, a4, a5⟩ := rinv
    refine ⟨szpos, len, hw, ?_, ?_, ?_, ?_, nofault, ?_, by simp [RInv], ?_, ?_, whon⟩
    · simp only [taken]
      rw [wrap_eq _ _ szpos, hr]
      simp
    · simp only [taken, lastR]; omega
    · simp only [taken]; omega
    · intro k hk1 hk2
      simp only [taken] at hk1
      exact data k (by omega) hk2
    · simp only [WInv, taken] at *
      split <;> rename_i he <;> simp only [he] at winv
      · trivial
      · exact winv
      · obtain ⟨c1, c2, c3, c4, c5, c6⟩ := winv
        exact ⟨c1, c2, c3, by omega, c5, c6⟩
    · exact ⟨a3, faithful⟩
    · exact ⟨a5, rhon⟩

theorem cinv_reachable {n : Nat} {junk : List α} (hj : junk.length = n + 1) {s : St α}
    (h : Reachable n junk s) : CInv s := by
  induction h with
  | start => exact cinv_start n junk hj
  | step _ hs ih => exact cinv_step ih hs

end Verif.RingBuffer.Conc
