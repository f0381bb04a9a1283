import Verif.HistogramFilterLemmas
/-!
# Histogram filter: properties C09, C10
-/
namespace Verif.HistogramFilter
open Verif.MovingMedian (IsRank)

/-- **C09.**  After any history of `push`, `drop`, `reset` and `getMode` calls on a
filter of length `L ≥ 1`, with values in the range it was made for, no access has
left the histogram, the window holds the at most `L` most recent values not
dropped, and if it is not empty `getMedian` is the lower median of it. -/
theorem C09_median (N L : Nat) (hL : 1 ≤ L) (hN : 1 ≤ N) (ops : List Op) (hr : InRange N ops) :
    ∃ f, run (init N L) ops = some f ∧ (window L [] ops).length ≤ L ∧
      (window L [] ops ≠ [] →
        IsRank (window L [] ops) (((window L [] ops).length + 1) / 2 - 1) (getMedian f)) := by
  obtain ⟨f, h1, h2, _⟩ := run_inv hL hN ops (init_inv N L) hr
  exact ⟨f, h1, h2.le, fun hne => getMedian_spec h2 hne⟩

/-- **C09.**  `medianFilter` puts at each place `i` of an array the lower median of
the original elements `i + h - L + 1 .. i + h`, `h = L / 2`, inside the array. -/
theorem C09_medianFilter (N L : Nat) (hL : 1 ≤ L) (hN : 1 ≤ N) (ops : List Op)
    (hr : InRange N ops) (v : List Nat) (hv : ∀ x ∈ v, x < N) :
    ∃ f f' v', run (init N L) ops = some f ∧ filter false f v = some (f', v') ∧
      v'.length = v.length ∧
      ∀ i, i < v.length → ∃ x, v'[i]? = some x ∧
        let centred := (v.take (i + L / 2 + 1)).drop (i + L / 2 + 1 - L)
        IsRank centred ((centred.length + 1) / 2 - 1) x := by
  obtain ⟨f, h1, h2, _⟩ := run_inv hL hN ops (init_inv N L) hr
  obtain ⟨f', v', k1, k2, k3, _⟩ := filter_spec hL hN false h2 v hv
  refine ⟨f, f', v', h1, k1, k2, ?_⟩
  intro i hi
  obtain ⟨x, x1, x2⟩ := k3 i hi
  exact ⟨x, x1, x2.2.1 rfl⟩

/-- A filter of length 3 over values 0..9. -/
example : InRange 10 [.push 9, .push 1, .getMode, .push 4, .push 0] ∧
    window 3 [] [.push 9, .push 1, .getMode, .push 4, .push 0] = [1, 4, 0] ∧
    ((run (init 10 3) [.push 9, .push 1, .getMode, .push 4, .push 0]).map getMedian) = some 1 := by
  refine ⟨?_, by decide, by decide⟩
  intro v hv
  simp at hv
  omega

example : ((filter false (init 4 3) [1, 2, 3, 0]).map (·.2)) = some [1, 2, 2, 0] := by decide +kernel

/-- **C10**, as claimed: `getMode` on a non-empty window is its most frequent value,
the smallest if there are several. -/
def C10_statement : Prop :=
  ∀ (N L : Nat), 1 ≤ L → 1 ≤ N → ∀ ops : List Op, InRange N ops → window L [] ops ≠ [] →
    ∃ f, run (init N L) ops = some f ∧ IsMode (window L [] ops) (getMode f).2

/-- C10 does not hold: `push` onto a full window does not forget the cached mode
when it pushes out one of its occurrences. -/
theorem C10_violated : ¬ C10_statement := by
  intro h
  obtain ⟨f, h1, h2⟩ := h 3 4 (by decide) (by decide)
    [.push 0, .push 0, .push 1, .push 1, .getMode, .push 2]
    (by intro v hv; simp at hv; omega) (by decide)
  have hg : ((run (init 3 4) [.push 0, .push 0, .push 1, .push 1, .getMode, .push 2]).map
      (fun f => (getMode f).2)) = some 0 := by decide
  rw [h1] at hg
  have hg' : (getMode f).2 = 0 := by simpa using hg
  rw [hg'] at h2
  exact absurd (h2.2 1).1 (by decide)

/-- The same through `modalFilter`, as `BinSegmenter` uses it: place 2 of the result
is 0 although the window there is 0, 1, 1, 2. -/
theorem C10_violated_modalFilter :
    (filter true (init 3 4) [0, 0, 1, 1, 2]).map (·.2) = some [0, 0, 0, 1, 1] ∧
      ¬ IsMode [0, 1, 1, 2] 0 := by
  refine ⟨by decide +kernel, ?_⟩
  intro h
  exact absurd (h.2 1).1 (by decide)

/-- **C10**, for histories in which no push onto a full window pushes out an
occurrence of the window's mode.  Missing: the other histories, for which
the claim is false (`C10_violated`). -/
theorem C10_partial (N L : Nat) (hL : 1 ≤ L) (hN : 1 ≤ N) (ops : List Op) (hr : InRange N ops)
    (hne : window L [] ops ≠ []) (hd : ModeNeverDisplaced L [] ops) :
    ∃ f, run (init N L) ops = some f ∧ IsMode (window L [] ops) (getMode f).2 := by
  obtain ⟨f, h1, h2, h3⟩ := run_inv hL hN ops (init_inv N L) hr
  exact ⟨f, h1, getMode_isMode h2 (h3 (Or.inl rfl) hd) hne⟩

/-- In every history, whatever was displaced: a filter that has nothing cached, as
after construction or a drop of the mode, finds the mode; and the value returned
is always within the range of values. -/
theorem C10_range_partial (N L : Nat) (hL : 1 ≤ L) (hN : 1 ≤ N) (ops : List Op)
    (hr : InRange N ops) :
    ∃ f, run (init N L) ops = some f ∧ (getMode f).2 < N ∧
      (f.mode = -1 → window L [] ops ≠ [] → IsMode (window L [] ops) (getMode f).2) := by
  obtain ⟨f, h1, h2, _⟩ := run_inv hL hN ops (init_inv N L) hr
  refine ⟨f, h1, ?_, fun hm hne => getMode_isMode h2 (Or.inr (Or.inl hm)) hne⟩
  have := getMode_inv h2 hN
  have h3 := this.1.mrange.1
  rw [this.2] at h3
  omega

/-- The mode survives pushes that displace other values. -/
example : ModeNeverDisplaced 3 [] [.push 2, .push 1, .push 1, .getMode, .push 0] ∧
    window 3 [] [.push 2, .push 1, .push 1, .getMode, .push 0] = [1, 1, 0] ∧
    ((run (init 3 3) [.push 2, .push 1, .push 1, .getMode, .push 0]).map
      (fun f => (getMode f).2)) = some 1 := by
  refine ⟨⟨?_, ?_, ?_, ?_, ?_, trivial⟩, by decide, by decide⟩ <;>
    (intro v x t h1 h2 h3)
  · simp at h2
  · simp [windowStep] at h2
  · simp [windowStep] at h2
  · cases h1
  · simp [windowStep] at h3
    intro hm
    have := (hm.2 1).1
    simp [windowStep, ← h3.1] at this

/-- **C10** for `modalFilter`: every output is in the range of values, and is the
mode of the window `i + h - L + 1 .. i + h` of original elements if in no window
the oldest element is the mode.  Missing: arrays in which it is. -/
theorem C10_modalFilter_partial (N L : Nat) (hL : 1 ≤ L) (hN : 1 ≤ N) (ops : List Op)
    (hr : InRange N ops) (v : List Nat) (hv : ∀ x ∈ v, x < N) :
    ∃ f f' v', run (init N L) ops = some f ∧ filter true f v = some (f', v') ∧
      v'.length = v.length ∧
      ∀ i, i < v.length → ∃ x, v'[i]? = some x ∧ x < N ∧
        ((∀ j, L ≤ j → j < v.length → ∀ o t, (v.take j).drop (j - L) = o :: t →
            ¬ IsMode ((v.take j).drop (j - L)) o) →
          IsMode ((v.take (i + L / 2 + 1)).drop (i + L / 2 + 1 - L)) x) := by
  obtain ⟨f, h1, h2, _⟩ := run_inv hL hN ops (init_inv N L) hr
  obtain ⟨f', v', k1, k2, k3, _⟩ := filter_spec hL hN true h2 v hv
  refine ⟨f, f', v', h1, k1, k2, ?_⟩
  intro i hi
  obtain ⟨x, x1, x2⟩ := k3 i hi
  exact ⟨x, x1, x2.1, fun ha => x2.2.2 rfl ha⟩

example : ((filter true (init 3 3) [2, 1, 1, 0]).map (·.2)) = some [1, 1, 1, 0] := by decide +kernel

end Verif.HistogramFilter
