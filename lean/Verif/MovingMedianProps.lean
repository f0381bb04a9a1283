import Verif.MovingMedianLemmas
/-!
# Moving median: properties C07, C08
-/
namespace Verif.MovingMedian
variable {α : Type} [LinearOrder α] [Zero α]

/-- **C07.**  After any history of `push` (NaN counting as zero), `drop`, `reset`
and `setPercentile` calls on a filter of length `L ≥ 1`, no access has left the
sort space, and if any values are held, `get` returns the one of the rank set
by the percentile (0..100) among the values of the window, which are the most
recent pushed ones not dropped, at most `L`. -/
theorem C07_get (L : Nat) (hL : 1 ≤ L) (p : Rat) (ops : List (Op α))
    (hp0 : 0 ≤ percentileAfter p ops) (hp1 : percentileAfter p ops ≤ 100)
    (hne : window L [] ops ≠ []) :
    ∃ f v, run (init L p) ops = some f ∧ get f = some v ∧
      IsRank (window L [] ops) (rank (percentileAfter p ops) (window L [] ops).length) v ∧
      (window L [] ops).length ≤ L := by
  obtain ⟨f, h1, h2, h3⟩ := run_spec hL ops (init_spec (α := α) L p)
  have h3' : f.percentile = percentileAfter p ops := h3
  rw [← h3'] at hp0 hp1 ⊢
  obtain ⟨v, h4, h5⟩ := get_spec h2 hne hp0 hp1
  exact ⟨f, v, h1, h4, h5, h2.le⟩

/-- Histories with empty windows are also free of out-of-range accesses. -/
theorem C07_no_fault (L : Nat) (hL : 1 ≤ L) (p : Rat) (ops : List (Op α)) :
    ∃ f, run (init L p : MM α) ops = some f := by
  obtain ⟨f, h1, _⟩ := run_spec hL ops (init_spec (α := α) L p)
  exact ⟨f, h1⟩

/-- The rank determines the value: two values of the same rank are equal. -/
theorem C07_rank_unique {w : List α} {k : Nat} {u v : α} (hu : IsRank w k u)
    (hv : IsRank w k v) : u = v := by
  obtain ⟨s, s1, s2, s3⟩ := hu
  obtain ⟨t, t1, t2, t3⟩ := hv
  have : s = t := List.Perm.eq_of_pairwise (le := (· ≤ ·))
    (fun a b _ _ h1 h2 => le_antisymm h1 h2) s2 t2 (s1.trans t1.symm)
  rw [this, t3] at s3
  exact (Option.some.inj s3).symm

/-- A filter of length 3 fed 5, 1, 4, NaN, 2 holds 4, 0, 2 with median 2. -/
example : window 3 [] [.push (some 5), .push (some 1), .push (some 4), .push none,
    .push (some (2 : Int))] = [4, 0, 2] := by decide

example : ((run (init 3 50) [.push (some 5), .push (some 1), .push (some 4), .push none,
    .push (some (2 : Int))]).bind get) = some 2 := by decide +kernel

/-- **C08.**  `filter` on an array `v` with a filter of length `L ≥ 1` in any
prior state puts at every place `i` the value of the set rank (the lower median
by default) of the *original* elements `i + h - L + 1 .. i + h`, `h = L / 2`, that
lie inside the array; it ends, and no access leaves an array. -/
theorem C08_filter (L : Nat) (hL : 1 ≤ L) (p : Rat) (ops : List (Op α))
    (hp0 : 0 ≤ percentileAfter p ops) (hp1 : percentileAfter p ops ≤ 100) (v : List α) :
    ∃ f f' v', run (init L p) ops = some f ∧ filter f v = some (f', v') ∧
      v'.length = v.length ∧
      ∀ i, i < v.length → ∃ x, v'[i]? = some x ∧
        let centred := (v.take (i + L / 2 + 1)).drop (i + L / 2 + 1 - L)
        IsRank centred (rank (percentileAfter p ops) centred.length) x := by
  obtain ⟨f, h1, h2, h3⟩ := run_spec hL ops (init_spec (α := α) L p)
  have h3' : f.percentile = percentileAfter p ops := h3
  have hr := reset_spec h2
  have hsz : getSize (reset f) = L := by simp [getSize, STRB.getSize, hr.bsize]
  obtain ⟨f', v', k1, k2, k3, _⟩ := filterLoop_spec hL v (percentileAfter p ops) hp0 hp1
    (v.length + L / 2) (-((L / 2 : Nat) : Int)) 0 (reset f) v (by simp) (by omega) (by omega)
    h3' (by simpa [heldAfter] using hr) rfl (fun _ _ => rfl) (fun k hk => by omega)
  refine ⟨f, f', v', h1, ?_, k2, ?_⟩
  · unfold filter
    simp only [hsz]
    exact k1
  · intro i hi
    exact k3 i hi

/-- Filtering in place with length 3 (compare TestSignalBits.cpp:43-49). -/
example : ((filter (init 3 50 : MM Int) [1, 2, 3, 0]).map (·.2)) = some [1, 2, 2, 0] := by
  decide +kernel

end Verif.MovingMedian
