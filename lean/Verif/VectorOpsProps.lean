import Verif.VectorOpsLemmas
/-!
# Reordering helpers: property C44
-/
namespace Verif.VectorOps
open Verif.RingBuffer (load store)
variable {α : Type}

/-- **C44 (interleaving).**  For every number of channels and frames: interleaving puts
sample `i` of channel `j` at place `i * c + j` and writes nothing beyond `n * c`. -/
theorem C44_interleave {src : List (List α)} {c n : Nat} (hs : src.length = c)
    (hl : ∀ ch ∈ src, n ≤ ch.length) (dst : List α) (hd : n * c ≤ dst.length) :
    ∃ dst', v_interleave dst src c n = some dst' ∧ dst'.length = dst.length ∧
      (∀ i j, i < n → j < c → dst'[i * c + j]? = (src[j]?).bind (·[i]?)) ∧
      ∀ k, n * c ≤ k → dst'[k]? = dst[k]? := by
  obtain ⟨d, a1, a2, a3, a4⟩ := v_interleave_spec hs hl dst hd
  refine ⟨d, a1, a2, ?_, a4⟩
  intro i j hi hj
  have : (i + 1) * c ≤ n * c := Nat.mul_le_mul_right c (by omega)
  rw [Nat.add_mul, Nat.one_mul] at this
  rw [a3 _ (by omega), ilv_frame src i hj]

/-- **C44 (round trip).**  Interleaving any channels and deinterleaving the result gives
the channels back: in each destination channel the first `n` samples are those of the
source channel, and the rest is what was there before. -/
theorem C44_round_trip {src : List (List α)} {c n : Nat} (hs : src.length = c)
    (hl : ∀ ch ∈ src, n ≤ ch.length) (mid : List α) (hm : n * c ≤ mid.length)
    (dst : List (List α)) (hd : dst.length = c) (hdl : ∀ ch ∈ dst, n ≤ ch.length) :
    (do let m ← v_interleave mid src c n
        v_deinterleave dst m c n)
      = some (List.zipWith (fun s d => s.take n ++ d.drop n) src dst) := by
  obtain ⟨m, a1, a2, a3, _⟩ := C44_interleave hs hl mid hm
  obtain ⟨d', b1, b2, b3⟩ := v_deinterleave_spec (src := m) (c := c) (n := n) (by omega) dst hd hdl
  simp only [a1, Option.bind_eq_bind, Option.bind_some, b1]
  congr 1
  apply List.ext_getElem?
  intro j
  by_cases hj : j < c
  · obtain ⟨ch', e1, e2, e3, e4⟩ := b3 j (by omega)
    have hjs : j < src.length := by omega
    have hjd : j < dst.length := by omega
    have hls := hl _ (List.getElem_mem hjs)
    have hld := hdl _ (List.getElem_mem hjd)
    rw [e1, List.getElem?_zipWith, List.getElem?_eq_getElem hjs, List.getElem?_eq_getElem hjd]
    simp only
    congr 1
    apply List.ext_getElem?
    intro t
    by_cases ht : t < n
    · rw [e4 t ht, a3 t j ht hj, List.getElem?_eq_getElem hjs]
      simp only [Option.bind_some]
      rw [List.getElem?_append_left (by simp; omega), List.getElem?_take_of_lt ht]
    · rw [e3 t (by omega), List.getElem?_append_right (by simp; omega), List.getElem?_drop]
      congr 1
      simp
      omega
  · rw [List.getElem?_eq_none (by omega), List.getElem?_eq_none (by simp; omega)]

example : (do let m ← v_interleave [0, 0, 0, 0, 0, 0, 9] [[1, 2], [3, 4], [5, 6]] 3 2
              v_deinterleave [[0, 0], [0, 0, 7], [0, 0]] m 3 2)
    = some [[1, 2], [3, 4, 7], [5, 6]] := by decide
example : v_interleave [0, 0, 0, 0, 0, 0, 9] [[1, 2], [3, 4], [5, 6]] 3 2
    = some [1, 3, 5, 2, 4, 6, 9] := by decide

/-- **C44 (FFT shift).**  The shift exchanges the two halves of the first `count` values,
leaves a middle value of an odd count at its end and everything beyond alone, and
doing it twice gives the original. -/
theorem C44_fftshift (ptr : List α) (count : Nat) (h : count ≤ ptr.length) :
    ∃ p', v_fftshift ptr count = some p' ∧ p'.length = ptr.length ∧
      (∀ k, k < count / 2 → p'[k]? = ptr[k + count / 2]? ∧ p'[k + count / 2]? = ptr[k]?) ∧
      (∀ k, 2 * (count / 2) ≤ k → p'[k]? = ptr[k]?) ∧
      v_fftshift p' count = some ptr := by
  have hl : 2 * (count / 2) ≤ ptr.length := by omega
  obtain ⟨p', a1, a2, a3, a4⟩ := fftshiftLoop_spec (count / 2) ptr hl (count / 2) 0 ptr (by omega) rfl
    (fun k h => by omega) (fun _ _ => rfl)
  refine ⟨p', a1, a2, a3, a4, ?_⟩
  obtain ⟨q, b1, b2, b3, b4⟩ := fftshiftLoop_spec (count / 2) p' (by omega) (count / 2) 0 p' (by omega)
    rfl (fun k h => by omega) (fun _ _ => rfl)
  unfold v_fftshift
  rw [b1]
  congr 1
  apply List.ext_getElem?
  intro k
  rcases Nat.lt_or_ge k (count / 2) with h1 | h1
  · rw [(b3 k h1).1, (a3 k h1).2]
  · rcases Nat.lt_or_ge k (2 * (count / 2)) with h2 | h2
    · obtain ⟨m, rfl⟩ : ∃ m, k = m + count / 2 := ⟨k - count / 2, by omega⟩
      rw [(b3 m (by omega)).2, (a3 m (by omega)).1]
    · rw [b4 k h2, a4 k h2]

example : v_fftshift [1, 2, 3, 4, 5, 6, 7] 6 = some [4, 5, 6, 1, 2, 3, 7] := by decide

/-- The windowed frame: the first `window.length` values of `src` times the window. -/
def cutFrame [Mul α] (src window : List α) : List α :=
  List.zipWith (· * ·) (src.take window.length) window

theorem filter_zipIdx_single (P : Nat → Bool) (i0 : Nat) : ∀ (l : List α) (o : Nat),
    (∀ i, o ≤ i → i < o + l.length → (P i = true ↔ i = i0)) → (h0 : o ≤ i0) →
    (h : i0 < o + l.length) → ((l.zipIdx o).filter (fun x => P x.2)).map (·.1) = [l[i0 - o]'(by omega)] := by
  intro l
  induction l with
  | nil => intro o _ h1 h2; simp at h2; omega
  | cons a l ih =>
    intro o hP h1 h2
    rw [List.zipIdx_cons, List.filter_cons]
    by_cases ho : o = i0
    · subst ho
      rw [if_pos ((hP o (Nat.le_refl o) (by simp)).mpr rfl)]
      have : (l.zipIdx (o + 1)).filter (fun x => P x.2) = [] := by
        rw [List.filter_eq_nil_iff]
        intro x hx
        have hb := List.mem_zipIdx hx
        intro hp
        have := (hP x.2 (by omega) (by simp; omega)).mp hp
        omega
      rw [this]
      simp
    · have hf : ¬ P o = true := fun h => ho ((hP o (Nat.le_refl o) (by simp)).mp h)
      rw [if_neg hf, ih (o + 1) (fun i hi1 hi2 => hP i (by omega) (by simp; omega)) (by omega)
        (by simp at h2; omega)]
      congr 1
      have : i0 - o = (i0 - (o + 1)) + 1 := by omega
      simp [this]

/-- **C44 (folding).**  For every window of at least two values, every positive target
size (even if equal to the window's, as all FFT sizes are) and every frame: value `m`
of the target is the sum of the windowed values `i` with `i - windowSize / 2` congruent
to `m` modulo the target size, so the window's centre lands on 0; nothing beyond the
target size is written; and the sum of the windowed frame is preserved. -/
theorem C44_fold [AddCommMonoid α] [Mul α] (target src window : List α) (ts : Nat) (hts : 0 < ts)
    (hw : 2 ≤ window.length) (hsrc : window.length ≤ src.length) (ht : ts ≤ target.length)
    (heven : window.length = ts → ts % 2 = 0) :
    ∃ t', cutShiftAndFold target ts src window = some t' ∧ t'.length = target.length ∧
      (∀ m, m < ts → t'[m]? = some
        ((((cutFrame src window).zipIdx.filter
            (fun x => decide (((x.2 : Int) - ((window.length / 2 : Nat) : Int)) % ts = m))).map (·.1)).sum)) ∧
      (∀ m, ts ≤ m → t'[m]? = target[m]?) ∧
      (t'.take ts).sum = (cutFrame src window).sum := by
  have hF : (cutFrame src window).length = window.length := by
    unfold cutFrame; simp; omega
  unfold cutShiftAndFold
  have hload : load src 0 window.length = some (src.take window.length) := by
    unfold load; rw [if_pos (by omega)]; simp
  simp only [hload, Option.bind_eq_bind, Option.bind_some]
  rw [show List.zipWith (· * ·) (src.take window.length) window = cutFrame src window from rfl]
  generalize hG : cutFrame src window = F at hF ⊢
  generalize hR : src.drop window.length = R
  generalize hws : window.length = ws at *
  clear hload hG hR
  by_cases heq : ws = ts
  · rw [if_pos heq]
    have he := heven heq
    subst heq
    have hl1 : load (F ++ R) (ws / 2) (ws / 2) = some (F.drop (ws / 2)) := by
      unfold load
      rw [if_pos (by simp; omega), List.drop_append_of_le_length (by omega),
        List.take_append_of_le_length (by simp; omega), List.take_of_length_le (by simp; omega)]
    have hl2 : load (F ++ R) 0 (ws / 2) = some (F.take (ws / 2)) := by
      unfold load
      rw [if_pos (by simp; omega), List.drop_zero, List.take_append_of_le_length (by omega)]
    simp only [hl1, hl2, Option.bind_some, store]
    rw [if_pos (by simp; omega)]
    simp only [Option.bind_some]
    rw [if_pos (by simp; omega)]
    have hres : (List.take (ws / 2) (List.take 0 target ++ F.drop (ws / 2) ++
          List.drop (0 + (F.drop (ws / 2)).length) target) ++ F.take (ws / 2) ++
        List.drop (ws / 2 + (F.take (ws / 2)).length) (List.take 0 target ++ F.drop (ws / 2) ++
          List.drop (0 + (F.drop (ws / 2)).length) target))
        = F.drop (ws / 2) ++ F.take (ws / 2) ++ target.drop ws := by
      have hd : (F.drop (ws / 2)).length = ws / 2 := by simp; omega
      have htk : (F.take (ws / 2)).length = ws / 2 := by simp; omega
      rw [List.take_zero, List.nil_append, Nat.zero_add, hd, htk,
        List.take_append_of_le_length (by omega), List.take_of_length_le (by omega),
        List.drop_append, List.drop_eq_nil_of_le (as := F.drop (ws / 2)) (i := ws / 2 + ws / 2)
          (by omega), hd, List.nil_append, List.drop_drop]
      congr 2
      omega
    rw [hres]
    have hlen : (F.drop (ws / 2) ++ F.take (ws / 2)).length = ws := by simp; omega
    refine ⟨_, rfl, by simp; omega, ?_, ?_, ?_⟩
    · intro m hm
      have key := filter_zipIdx_single (fun i => decide (((i : Int) - ((ws / 2 : Nat) : Int)) % (ws : Int) = m))
        ((m + ws / 2) % ws) F 0 (by
          intro i _ hi
          rw [decide_eq_true_iff]
          rcases Nat.lt_or_ge (m + ws / 2) ws with h | h
          · rw [Nat.mod_eq_of_lt h]
            constructor
            · intro hh
              rcases Int.lt_or_le ((i : Int) - ((ws / 2 : Nat) : Int)) 0 with h' | h'
              · rw [← Int.add_emod_right, Int.emod_eq_of_lt (by omega) (by omega)] at hh; omega
              · rw [Int.emod_eq_of_lt (by omega) (by omega)] at hh; omega
            · intro hh
              rw [Int.emod_eq_of_lt (by omega) (by omega)]; omega
          · rw [Nat.mod_eq_sub_mod h, Nat.mod_eq_of_lt (by omega)]
            constructor
            · intro hh
              rcases Int.lt_or_le ((i : Int) - ((ws / 2 : Nat) : Int)) 0 with h' | h'
              · rw [← Int.add_emod_right, Int.emod_eq_of_lt (by omega) (by omega)] at hh; omega
              · rw [Int.emod_eq_of_lt (by omega) (by omega)] at hh; omega
            · intro hh
              rw [← Int.add_emod_right, Int.emod_eq_of_lt (by omega) (by omega)]; omega)
        (Nat.zero_le _) (by have := Nat.mod_lt (m + ws / 2) hts; omega)
      rw [key, List.getElem?_append_left (by omega)]
      have hmod : (m + ws / 2) % ws = if m + ws / 2 < ws then m + ws / 2 else m - ws / 2 := by
        split
        · rename_i h; rw [Nat.mod_eq_of_lt h]
        · rw [Nat.mod_eq_sub_mod (by omega), Nat.mod_eq_of_lt (by omega)]; omega
      have hlt := Nat.mod_lt (m + ws / 2) hts
      simp only [Nat.sub_zero, List.sum_singleton]
      rw [← List.getElem?_eq_getElem]
      rw [hmod]
      split
      · rw [List.getElem?_append_left (by simp; omega), List.getElem?_drop]
        congr 1; omega
      · rw [List.getElem?_append_right (by simp; omega), List.getElem?_take_of_lt (by simp; omega)]
        congr 1; simp; omega
    · intro m hm
      rw [List.getElem?_append_right (by omega), List.getElem?_drop]
      congr 1; omega
    · rw [List.take_append_of_le_length (by omega), List.take_of_length_le (by omega),
        List.sum_append, add_comm, ← List.sum_append, List.take_append_drop]
  · rw [if_neg heq]
    have hst : store target 0 (List.replicate ts (0 : α)) = some (List.replicate ts 0 ++ target.drop ts) := by
      unfold store
      rw [if_pos (by simp; omega)]
      simp
    simp only [hst, Option.bind_some]
    obtain ⟨r, a1, a2, a3, k, a4⟩ := raise_spec hts ws ((ts : Int) - ((ws / 2 : Nat) : Int)) (by
      have : (ws : Int) * 1 ≤ ws * ts := Int.mul_le_mul_of_nonneg_left (by omega) (by omega)
      rw [Int.neg_mul]
      omega)
    have hr : r < ts := by
      rcases Int.lt_or_le ((ts : Int) - ((ws / 2 : Nat) : Int)) 0 with h | h
      · exact a3 h
      · have := a2 h; omega
    simp only [a1, Option.bind_some]
    obtain ⟨t', b1, b2, b3, b4, b5⟩ := foldLoop_spec (F ++ R) (n := ws) (base := r) hts
      (by simp; omega) ws 0 (List.replicate ts 0 ++ target.drop ts) (by omega) (by simp) (by
        intro m hm
        rw [List.getElem?_append_left (by simpa using hm), List.getElem?_replicate_of_lt hm]
        simp [landing])
    rw [Nat.add_zero, Nat.mod_eq_of_lt hr] at b1
    have htake : (F ++ R).take ws = F := by
      rw [List.take_append_of_le_length (by omega), List.take_of_length_le (by omega)]
    refine ⟨t', b1, by rw [b2]; simp; omega, ?_, ?_, ?_⟩
    · intro m hm
      rw [b3 m hm]
      unfold landing
      rw [htake]
      congr 3
      apply List.filter_congr
      intro x _
      rw [decide_eq_decide]
      have e : ((x.2 : Int) - ((ws / 2 : Nat) : Int)) % ts = ((r + x.2 : Nat) : Int) % ts := by
        rw [Nat.cast_add, a4]
        have : (ts : Int) - ((ws / 2 : Nat) : Int) + k * ts + x.2
          = (x.2 - ((ws / 2 : Nat) : Int)) + ts * (k + 1) := by ring
        rw [this, Int.add_mul_emod_self_left]
      rw [e]
      constructor
      · intro h; rw [← h]; norm_cast
      · intro h; exact_mod_cast h
    · intro m hm
      rw [b4 m hm, List.getElem?_append_right (by simpa using hm), List.getElem?_drop]
      congr 1; simp; omega
    · rw [b5, htake, List.drop_zero, List.take_append_of_le_length (by simp),
        List.take_of_length_le (by simp)]
      simp

example : cutShiftAndFold [0, 0, 0, 0, 9] 4 [1, 2, 3, 4, 5, 6] [1, 1, 1, 1, 1, (1 : Int)]
    = some [4, 1 + 5, 2 + 6, 3, 9] := by decide
example : cutShiftAndFold [0, 0, 0, 0, 9] 4 [1, 2, 3, 4, 5, 6] [1, 2, 1, (1 : Int)]
    = some [3, 4, 1, 4, 9] := by decide

end Verif.VectorOps
