import Verif.Classifier
/-!
# The classification of bins: C63
-/
namespace Verif.Classifier
open Verif.MovingMedian Verif.Segmenter

/-! ## Specification -/

/-- The frames classified since the last reset, the last given first. -/
def frames : List Call → List (List Rat)
  | [] => []
  | .classify mag :: cs => mag :: frames cs
  | .reset :: _ => []

/-- The values of a bin in the latest frames, as many as the horizontal filter is long, the latest last. -/
def column (p : Params) (fs : List (List Rat)) (i : Nat) : List Rat := ((fs.take p.hLength).map fun m => m.getD i 0).reverse

/-- The bins around bin `i`, as many as the vertical filter is long, that exist. -/
def around (p : Params) (m : List Rat) (i : Nat) : List Rat := ((m.take p.bins).take (i + p.vLength / 2 + 1)).drop (i + p.vLength / 2 + 1 - p.vLength)

/-- The lower median of the values. -/
def IsMedian (w : List Rat) (x : Rat) : Prop := IsRank w ((w.length - 1) / 2) x

/-- What the magnitude along time is compared with: the median across the bins around, in the frame `lag` earlier, or 0 if there was none. -/
def IsReference (p : Params) (fs : List (List Rat)) (i : Nat) (v : Rat) : Prop :=
  match fs[p.lag]? with
  | none => v = 0
  | some m => IsMedian (around p m i) v

/-! ## Lemmas -/

theorem rank_fifty (n : Nat) : rank 50 n = (n - 1) / 2 := by unfold rank; rw [if_pos rfl]

theorem pushAll_spec {L : Nat} (hL : 1 ≤ L) : ∀ (fs : List (MM Rat)) (xs : List Rat) (W : Nat → List Rat), fs.length ≤ xs.length →
    (∀ i f, fs[i]? = some f → FInv L f (W i) ∧ f.percentile = 50) →
    ∃ fs' hs, pushAll fs xs = some (fs', hs) ∧ fs'.length = fs.length ∧ hs.length = fs.length ∧
      (∀ i f, fs'[i]? = some f → FInv L f (windowStep L (W i) (.push xs[i]?)) ∧ f.percentile = 50) ∧
      ∀ i h, hs[i]? = some h → IsMedian (windowStep L (W i) (.push xs[i]?)) h := by
  intro fs
  induction fs with
  | nil => intro xs W _ _; exact ⟨[], [], rfl, rfl, rfl, fun i f h => by simp at h, fun i f h => by simp at h⟩
  | cons f fs ih =>
    intro xs W hl hW
    cases xs with
    | nil => simp at hl
    | cons x xs =>
      obtain ⟨h1, h2⟩ := hW 0 f rfl
      obtain ⟨f', p1, p2, p3⟩ := push_spec hL h1 (some x)
      have hne : windowStep L (W 0) (.push (some x)) ≠ [] := by simp [windowStep]
      obtain ⟨v, g1, g2⟩ := get_spec p3 hne (by rw [p2, h2]; norm_num) (by rw [p2, h2]; norm_num)
      obtain ⟨fs', hs, a1, a2, a3, a4, a5⟩ := ih xs (fun i => W (i + 1)) (by simpa using hl) (fun i f hf => hW (i + 1) f hf)
      refine ⟨f' :: fs', v :: hs, ?_, by simp [a2], by simp [a3], ?_, ?_⟩
      · unfold pushAll
        simp only [p1, g1, a1, Option.bind_eq_bind, Option.bind_some]
        rfl
      · intro i g hg
        cases i with
        | zero => cases hg; exact ⟨p3, by rw [p2, h2]⟩
        | succ i => exact a4 i g hg
      · intro i h hh
        cases i with
        | zero =>
          cases hh
          rw [p2, h2, rank_fifty] at g2
          exact g2
        | succ i => exact a5 i h hh

/-- What is so after a history. -/
structure Inv (p : Params) (cs : List Call) (s : BC) : Prop where
  count : s.hFilters.length = p.bins
  filters : ∀ i f, s.hFilters[i]? = some f → FInv p.hLength f (column p (frames cs) i) ∧ f.percentile = 50
  vertical : s.vFilter.percentile = 50 ∧ ∃ w, FInv p.vLength s.vFilter w
  queue : s.queue.length = p.lag
  queued : ∀ k q, s.queue[k]? = some q → q.length = p.bins ∧ ∀ i v, q[i]? = some v →
    match (frames cs)[p.lag - 1 - k]? with
    | none => v = 0
    | some m => IsMedian (around p m i) v

theorem create_inv (p : Params) : Inv p [] (create p) := by
  refine ⟨List.length_replicate, ?_, ⟨rfl, [], init_spec _ _⟩, List.length_replicate, ?_⟩
  · intro i f h
    have := List.eq_of_mem_replicate (List.mem_of_getElem? h)
    subst this
    exact ⟨by simpa [column, frames] using init_spec (α := Rat) p.hLength 50, rfl⟩
  · intro k q h
    have := List.eq_of_mem_replicate (List.mem_of_getElem? h)
    subst this
    exact ⟨List.length_replicate, fun i v hv => List.eq_of_mem_replicate (List.mem_of_getElem? hv)⟩

theorem reset_inv {p : Params} {cs : List Call} {s : BC} (h : Inv p cs s) : Inv p (.reset :: cs) (reset p s) := by
  refine ⟨by simp [reset, h.count], ?_, h.vertical, List.length_replicate, ?_⟩
  · intro i f hf
    simp only [reset, List.getElem?_map, Option.map_eq_some_iff] at hf
    obtain ⟨g, g1, rfl⟩ := hf
    have := h.filters i g g1
    exact ⟨by simpa [frames, column] using reset_spec this.1, this.2⟩
  · intro k q h
    have := List.eq_of_mem_replicate (List.mem_of_getElem? h)
    subst this
    exact ⟨List.length_replicate, fun i v hv => List.eq_of_mem_replicate (List.mem_of_getElem? hv)⟩

theorem column_step (p : Params) (hL : 1 ≤ p.hLength) (mag : List Rat) (fs : List (List Rat)) (i : Nat) (hi : i < mag.length) :
    windowStep p.hLength (column p fs i) (.push mag[i]?) = column p (mag :: fs) i := by
  obtain ⟨L, hL'⟩ : ∃ L, p.hLength = L + 1 := ⟨p.hLength - 1, by omega⟩
  unfold column windowStep
  rw [hL', List.take_succ_cons, List.map_cons, List.reverse_cons, List.getElem?_eq_getElem hi, List.getD_eq_getElem?_getD, List.getElem?_eq_getElem hi]
  show (if (List.map (fun m => m.getD i 0) (List.take (L + 1) fs)).reverse.length = L + 1 then _ else _) ++ _ = _
  congr 1
  split
  · rename_i hf
    rw [List.length_reverse, List.length_map, List.length_take] at hf
    rw [List.tail_reverse, List.dropLast_eq_take, List.length_map, List.length_take, ← List.map_take, List.take_take]
    congr 3
    omega
  · rename_i hf
    rw [List.length_reverse, List.length_map, List.length_take] at hf
    rw [List.take_of_length_le (by omega), List.take_of_length_le (by omega)]

/-- A frame classified, from any state reached. -/
theorem classify_spec {p : Params} (hL : 1 ≤ p.hLength) (hV : 1 ≤ p.vLength) {cs : List Call} {s : BC} (h : Inv p cs s) (mag : List Rat) (hm : p.bins ≤ mag.length) :
    ∃ s' out, classify p s mag = some (s', out) ∧ Inv p (.classify mag :: cs) s' ∧ out.length = p.bins ∧
      ∀ i, i < p.bins → ∃ hf vf, out[i]? = some (classOf p hf vf) ∧ IsMedian (column p (mag :: frames cs) i) hf ∧ IsReference p (mag :: frames cs) i vf := by
  obtain ⟨fs, hs, a1, a2, a3, a4, a5⟩ := pushAll_spec hL s.hFilters mag (column p (frames cs)) (by rw [h.count]; exact hm) h.filters
  obtain ⟨w, hw⟩ := h.vertical.2
  obtain ⟨vF, vf, b1, b2, b3, b4, b5⟩ := filter_spec hV hw h.vertical.1 (by norm_num) (by norm_num) (mag.take p.bins)
  have hbl : (mag.take p.bins).length = p.bins := by rw [List.length_take]; omega
  rw [hbl] at b2 b3
  have hcol : ∀ i, i < p.bins → windowStep p.hLength (column p (frames cs) i) (.push mag[i]?) = column p (mag :: frames cs) i :=
    fun i hi => column_step p hL mag (frames cs) i (by omega)
  have hvf : ∀ i v, vf[i]? = some v → IsMedian (around p mag i) v := by
    intro i v hv
    have hi : i < p.bins := by
      have := (List.getElem?_eq_some_iff.mp hv).1
      omega
    obtain ⟨x, x1, x2⟩ := b3 i hi
    rw [x1] at hv
    cases hv
    rw [rank_fifty] at x2
    exact x2
  have hd : ∃ queue out, delay p.lag s.queue vf = some (queue, out) ∧ queue.length = p.lag ∧
      (∀ k q, queue[k]? = some q → q.length = p.bins ∧ ∀ i v, q[i]? = some v →
        match (frames (.classify mag :: cs))[p.lag - 1 - k]? with
        | none => v = 0
        | some m => IsMedian (around p m i) v) ∧
      out.length = p.bins ∧ ∀ i v, out[i]? = some v → IsReference p (mag :: frames cs) i v := by
    have hq := h.queue
    have hqd := h.queued
    unfold delay
    by_cases hlag : p.lag > 0
    · rw [if_pos hlag]
      cases hs : s.queue with
      | nil =>
        rw [hs] at hq
        simp at hq
        omega
      | cons q qs =>
        rw [hs] at hq hqd
        rw [List.length_cons] at hq
        simp only
        rw [if_pos (by omega)]
        refine ⟨_, _, rfl, by simp; omega, ?_, (hqd 0 q rfl).1, ?_⟩
        · intro k g hg
          by_cases hk : k < qs.length
          · rw [List.getElem?_append_left hk] at hg
            have := hqd (k + 1) g hg
            have e : p.lag - 1 - k = (p.lag - 1 - (k + 1)) + 1 := by omega
            rw [e]
            exact this
          · rw [List.getElem?_append_right (by omega)] at hg
            have hk2 : k - qs.length = 0 := by
              have := (List.getElem?_eq_some_iff.mp hg).1
              simp at this
              omega
            rw [hk2] at hg
            cases hg
            refine ⟨b2, ?_⟩
            have e : p.lag - 1 - k = 0 := by omega
            rw [e]
            exact hvf
        · intro i v hv
          have := (hqd 0 q rfl).2 i v hv
          have e : p.lag = (p.lag - 1 - 0) + 1 := by omega
          unfold IsReference
          rw [e]
          exact this
    · rw [if_neg hlag]
      have hz : p.lag = 0 := by omega
      have hqn : s.queue = [] := List.eq_nil_of_length_eq_zero (by omega)
      refine ⟨_, _, rfl, hq, ?_, b2, ?_⟩
      · intro k g hg
        rw [hqn] at hg
        simp at hg
      · intro i v hv
        unfold IsReference
        rw [hz]
        exact hvf i v hv
  obtain ⟨queue, out, d1, d2, d3, d4, d5⟩ := hd
  refine ⟨⟨fs, vF, queue⟩, List.zipWith (classOf p) hs out, ?_, ⟨by rw [a2, h.count], ?_, ⟨b4, b5⟩, d2, d3⟩, ?_, ?_⟩
  · unfold classify
    simp only [a1, b1, d1, Option.bind_eq_bind, Option.bind_some]
    rfl
  · intro i f hf
    have hi : i < p.bins := by
      have := (List.getElem?_eq_some_iff.mp hf).1
      have := h.count
      simp only at *
      omega
    have := a4 i f hf
    rw [hcol i hi] at this
    exact this
  · rw [List.length_zipWith, a3, d4, h.count, Nat.min_self]
  · intro i hi
    have i1 : i < hs.length := by rw [a3, h.count]; exact hi
    have i2 : i < out.length := by rw [d4]; exact hi
    refine ⟨hs[i], out[i], ?_, ?_, d5 i _ (List.getElem?_eq_getElem i2)⟩
    · rw [List.getElem?_zipWith, List.getElem?_eq_getElem i1, List.getElem?_eq_getElem i2]
    · have := a5 i hs[i] (List.getElem?_eq_getElem i1)
      rw [hcol i hi] at this
      exact this

/-- The frames of a history have enough bins. -/
def Fits (p : Params) (cs : List Call) : Prop := ∀ mag, Call.classify mag ∈ cs → p.bins ≤ mag.length

theorem run_inv {p : Params} (hL : 1 ≤ p.hLength) (hV : 1 ≤ p.vLength) : ∀ cs : List Call, Fits p cs → ∃ s, run p cs = some s ∧ Inv p cs s := by
  intro cs
  induction cs with
  | nil => intro _; exact ⟨_, rfl, create_inv p⟩
  | cons c cs ih =>
    intro hf
    obtain ⟨s, h1, h2⟩ := ih (fun mag h => hf mag (by simp [h]))
    cases c with
    | reset => exact ⟨_, by unfold run; rw [h1]; rfl, reset_inv h2⟩
    | classify mag =>
      obtain ⟨s', out, k1, k2, _⟩ := classify_spec hL hV h2 mag (hf mag (by simp))
      exact ⟨s', by unfold run; rw [h1, Option.bind_some]; simp only [call, k1, Option.map_some], k2⟩

/-! ## C63 -/

/-- **C63**: whatever was classified before, each bin of a frame is classified by comparing the median of its magnitudes over the latest frames since the last reset (at most the
filter length) with the median over the bins around it in the frame `lag` before (0 if there has been none since the reset); no access leaves an array. -/
theorem C63_classify (p : Params) (hL : 1 ≤ p.hLength) (hV : 1 ≤ p.vLength) (cs : List Call) (hf : Fits p cs) (mag : List Rat) (hm : p.bins ≤ mag.length) :
    ∃ s s' out, run p cs = some s ∧ classify p s mag = some (s', out) ∧ out.length = p.bins ∧
      ∀ i, i < p.bins → ∃ h v, IsMedian (column p (mag :: frames cs) i) h ∧ IsReference p (mag :: frames cs) i v ∧ out[i]? = some (classOf p h v) := by
  obtain ⟨s, h1, h2⟩ := run_inv hL hV cs hf
  obtain ⟨s', out, k1, _, k3, k4⟩ := classify_spec hL hV h2 mag hm
  refine ⟨s, s', out, h1, k1, k3, fun i hi => ?_⟩
  obtain ⟨a, b, c1, c2, c3⟩ := k4 i hi
  exact ⟨a, b, c2, c3, c1⟩

theorem isMedian_unique {w : List Rat} {x y : Rat} (hx : IsMedian w x) (hy : IsMedian w y) : x = y := C07_rank_unique hx hy

theorem isReference_unique {p : Params} {fs : List (List Rat)} {i : Nat} {x y : Rat} (hx : IsReference p fs i x) (hy : IsReference p fs i y) : x = y := by
  unfold IsReference at hx hy
  cases h : fs[p.lag]? with
  | none => rw [h] at hx hy; simp only at hx hy; rw [hx, hy]
  | some m => rw [h] at hx hy; exact isMedian_unique hx hy

/-- **C63**, the past before a reset: two classifiers, whatever each was given before, classify alike a sequence of frames after a reset. -/
theorem C63_reset (p : Params) (hL : 1 ≤ p.hLength) (hV : 1 ≤ p.vLength) (a b c : List Call) (ha : Fits p a) (hb : Fits p b) (hc : Fits p c) (mag : List Rat) (hm : p.bins ≤ mag.length) :
    ∃ s t s' t' out, run p (c ++ .reset :: a) = some s ∧ run p (c ++ .reset :: b) = some t ∧ classify p s mag = some (s', out) ∧ classify p t mag = some (t', out) := by
  have hfr : ∀ a c : List Call, frames (c ++ .reset :: a) = frames c := by
    intro a c
    induction c with
    | nil => rfl
    | cons x xs ih =>
      cases x with
      | reset => rfl
      | classify m => simp [frames, ih]
  have fit : ∀ a, Fits p a → Fits p (c ++ .reset :: a) := by
    intro a ha m hm
    rcases List.mem_append.mp hm with h | h
    · exact hc m h
    · rcases List.mem_cons.mp h with h | h
      · cases h
      · exact ha m h
  obtain ⟨s, s', o1, h1, h2, h3, h4⟩ := C63_classify p hL hV _ (fit a ha) mag hm
  obtain ⟨t, t', o2, k1, k2, k3, k4⟩ := C63_classify p hL hV _ (fit b hb) mag hm
  have : o1 = o2 := by
    apply List.ext_getElem?
    intro i
    by_cases hi : i < p.bins
    · obtain ⟨x, y, x1, x2, x3⟩ := h4 i hi
      obtain ⟨x', y', y1, y2, y3⟩ := k4 i hi
      rw [hfr] at x1 x2 y1 y2
      rw [x3, y3, isMedian_unique x1 y1, isReference_unique x2 y2]
    · rw [List.getElem?_eq_none (by omega), List.getElem?_eq_none (by omega)]
  subst this
  exact ⟨s, t, s', t', o1, h1, k1, h2, k2⟩

/-- **C63**, the thresholds: with magnitudes not below 0 and the thresholds the engines use (2 and 2), a bin is harmonic exactly if the one median is more than twice the other (and
a little), percussive exactly if the other is more than twice the one, and the two exclude each other. -/
theorem C63_thresholds (p : Params) (h2 : p.harmonicThreshold = 2) (p2 : p.percussiveThreshold = 2) (h v : Rat) (hh : 0 ≤ h) (hv : 0 ≤ v) :
    (classOf p h v = .harmonic ↔ 2 * (v + 1 / 10000000) < h) ∧ (classOf p h v = .percussive ↔ 2 * (h + 1 / 10000000) < v) := by
  unfold classOf
  rw [h2, p2]
  have e1 : h / (v + 1 / 10000000) > 2 ↔ 2 * (v + 1 / 10000000) < h := by rw [gt_iff_lt, lt_div_iff₀ (by linarith)]
  have e2 : v / (h + 1 / 10000000) > 2 ↔ 2 * (h + 1 / 10000000) < v := by rw [gt_iff_lt, lt_div_iff₀ (by linarith)]
  constructor
  · constructor
    · intro hc
      by_contra hn
      rw [if_neg (by rw [e1]; exact hn)] at hc
      split at hc <;> cases hc
    · intro hc
      rw [if_pos (e1.mpr hc)]
  · constructor
    · intro hc
      by_contra hn
      split at hc
      · cases hc
      · rw [if_neg (by rw [e2]; exact hn)] at hc
        cases hc
    · intro hc
      rw [if_neg (by rw [e1]; intro h'; linarith), if_pos (e2.mpr hc)]

/-- A tone that goes on and a click, after a reset: three bins, filters of length 3, lag 1. -/
example : ((run ⟨3, 3, 1, 3, 2, 2⟩ [.classify [0, 5, 0], .classify [0, 5, 0], .reset, .classify [9, 9, 9]]).bind fun s =>
    (classify ⟨3, 3, 1, 3, 2, 2⟩ s [0, 5, 0]).map fun r => r.2) = some [.residual, .harmonic, .residual] := by decide +kernel

example : ((run ⟨3, 3, 1, 3, 2, 2⟩ [.classify [5, 5, 5], .classify [0, 0, 0], .classify [0, 0, 0]]).bind fun s =>
    (classify ⟨3, 3, 1, 3, 2, 2⟩ s [0, 0, 0]).map fun r => r.2) = some [.percussive, .percussive, .percussive] := by decide +kernel

end Verif.Classifier
