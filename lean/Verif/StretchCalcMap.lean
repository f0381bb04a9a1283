import Verif.StretchCalcProfile
/-!
# The fixed points of the offline stretch profile: what `mapPeaks` returns
-/
namespace Verif.StretchCalc
open Verif.Round

/-! ## Interpolation -/

theorem interpolate_bounds (sc ec ts te c : Nat) :
    ((interpolate sc ec ts te c : Nat) : Rat) ≤ ts + ((c - sc : Nat) : Rat) / ((ec - sc : Nat) : Rat) * ((te - ts : Nat) : Rat) + 1 / 2 ∧
    ts + ((c - sc : Nat) : Rat) / ((ec - sc : Nat) : Rat) * ((te - ts : Nat) : Rat) - 1 / 2 ≤ ((interpolate sc ec ts te c : Nat) : Rat) := by
  unfold interpolate
  have h0 : 0 ≤ ((c - sc : Nat) : Rat) / ((ec - sc : Nat) : Rat) * ((te - ts : Nat) : Rat) := by positivity
  obtain ⟨b1, b2⟩ := lrint_bounds (((c - sc : Nat) : Rat) / ((ec - sc : Nat) : Rat) * ((te - ts : Nat) : Rat))
  have hn := lrint_nonneg h0
  have e : (((lrint (((c - sc : Nat) : Rat) / ((ec - sc : Nat) : Rat) * ((te - ts : Nat) : Rat))).toNat : Nat) : Rat) =
      (lrint (((c - sc : Nat) : Rat) / ((ec - sc : Nat) : Rat) * ((te - ts : Nat) : Rat)) : Rat) := by
    have : (((lrint (((c - sc : Nat) : Rat) / ((ec - sc : Nat) : Rat) * ((te - ts : Nat) : Rat))).toNat : Int) : Rat) =
      (lrint (((c - sc : Nat) : Rat) / ((ec - sc : Nat) : Rat) * ((te - ts : Nat) : Rat)) : Rat) := by
      rw [Int.toNat_of_nonneg hn]
    exact_mod_cast this
  push_cast [e] at *
  constructor <;> linarith

theorem interpolate_start (sc ec ts te : Nat) : interpolate sc ec ts te sc = ts := by
  unfold interpolate
  rw [Nat.sub_self, Nat.cast_zero, zero_div, zero_mul, show (0 : Rat) = ((0 : Int) : Rat) by simp, lrint_int]
  rfl

theorem interpolate_end {sc ec ts te : Nat} (hs : sc < ec) (ht : ts ≤ te) : interpolate sc ec ts te ec = te := by
  unfold interpolate
  have : ((ec - sc : Nat) : Rat) ≠ 0 := by
    have : 0 < ec - sc := by omega
    positivity
  rw [div_self this, one_mul, show ((te - ts : Nat) : Rat) = (((te - ts : Nat) : Int) : Rat) by simp, lrint_int]
  omega

theorem interpolate_mono {sc ec ts te a b : Nat} (h : a ≤ b) : interpolate sc ec ts te a ≤ interpolate sc ec ts te b := by
  unfold interpolate
  have : lrint (((a - sc : Nat) : Rat) / ((ec - sc : Nat) : Rat) * ((te - ts : Nat) : Rat)) ≤
      lrint (((b - sc : Nat) : Rat) / ((ec - sc : Nat) : Rat) * ((te - ts : Nat) : Rat)) := by
    apply lrint_mono
    have : ((a - sc : Nat) : Rat) ≤ ((b - sc : Nat) : Rat) := by exact_mod_cast (show a - sc ≤ b - sc by omega)
    gcongr
  omega

theorem interpolate_le {sc ec ts te c : Nat} (hs : sc < ec) (ht : ts ≤ te) (hc : c ≤ ec) : interpolate sc ec ts te c ≤ te := by
  have := interpolate_mono (sc := sc) (ec := ec) (ts := ts) (te := te) hc
  rwa [interpolate_end hs ht] at this

/-- Enough output for every increment of a segment to be positive: on average half the input increment and
a frame for each chunk. -/
def Ample (inc n dur : Nat) : Prop := n * (inc + 2) ≤ 2 * dur

theorem interpolate_dense {inc sc ec ts te : Nat} (hinc : 2 ≤ inc) (hs : sc < ec) (ha : Ample inc (ec - sc) (te - ts))
    {a b : Nat} (h1 : sc ≤ a) (h2 : a < b) (hard : Bool) :
    Dense inc hard (b - a) (interpolate sc ec ts te b - interpolate sc ec ts te a) := by
  obtain ⟨_, a2⟩ := interpolate_bounds sc ec ts te b
  obtain ⟨b1, _⟩ := interpolate_bounds sc ec ts te a
  have hm := interpolate_mono (sc := sc) (ec := ec) (ts := ts) (te := te) (le_of_lt h2)
  generalize hA : interpolate sc ec ts te a = A at *
  generalize hB : interpolate sc ec ts te b = B at *
  have hecp : (0 : Rat) < ((ec - sc : Nat) : Rat) := by exact_mod_cast (show 0 < ec - sc by omega)
  have hx : ((inc : Rat) + 2) / 2 ≤ ((te - ts : Nat) : Rat) / ((ec - sc : Nat) : Rat) := by
    rw [le_div_iff₀ hecp]
    have : (((ec - sc) * (inc + 2) : Nat) : Rat) ≤ ((2 * (te - ts) : Nat) : Rat) := by exact_mod_cast ha
    push_cast at this
    linarith
  generalize hX : ((te - ts : Nat) : Rat) / ((ec - sc : Nat) : Rat) = x at *
  have hx' : ∀ c : Nat, ((c - sc : Nat) : Rat) / ((ec - sc : Nat) : Rat) * ((te - ts : Nat) : Rat) = ((c - sc : Nat) : Rat) * x := by
    intro c; rw [← hX]; ring
  rw [hx'] at a2 b1
  have hcb : ((b - sc : Nat) : Rat) = ((a - sc : Nat) : Rat) + ((b - a : Nat) : Rat) := by
    exact_mod_cast (show b - sc = a - sc + (b - a) by omega)
  rw [hcb] at a2
  have hBA : ((B - A : Nat) : Rat) = (B : Rat) - A := by rw [Nat.cast_sub hm]
  have hlow : ((b - a : Nat) : Rat) * x - 1 ≤ ((B - A : Nat) : Rat) := by
    rw [hBA]; linarith
  have hinc2 : (2 : Rat) ≤ inc := by exact_mod_cast hinc
  have hnx : ((b - a : Nat) : Rat) * (((inc : Rat) + 2) / 2) ≤ ((b - a : Nat) : Rat) * x := mul_le_mul_of_nonneg_left hx (by positivity)
  have hlow2 : ((b - a : Nat) : Rat) * (((inc : Rat) + 2) / 2) - 1 ≤ ((B - A : Nat) : Rat) := by linarith
  have hlow3 : (b - a) * (inc + 2) ≤ 2 * (B - A) + 2 := by
    have : (((b - a) * (inc + 2) : Nat) : Rat) ≤ ((2 * (B - A) + 2 : Nat) : Rat) := by
      push_cast
      linarith
    exact_mod_cast this
  generalize hn : b - a = n at *
  generalize hD : B - A = D at *
  have hn1 : 1 ≤ n := by omega
  unfold Dense
  cases hard with
  | false =>
    simp only [Bool.false_eq_true, if_false]
    have : n * 4 ≤ n * (inc + 2) := Nat.mul_le_mul_left n (by omega)
    omega
  | true =>
    simp only [if_true]
    have hn4 : n * 4 ≤ n * (inc + 2) := Nat.mul_le_mul_left n (by omega)
    refine ⟨by omega, ?_⟩
    rcases Nat.lt_or_ge 1 n with c | c
    · right
      obtain ⟨k, rfl⟩ : ∃ k, n = k + 2 := ⟨n - 2, by omega⟩
      have e : (k + 2) * (inc + 2) = k * (inc + 2) + 2 * inc + 4 := by ring
      have : k * 4 ≤ k * (inc + 2) := Nat.mul_le_mul_left k (by omega)
      omega
    · left; omega

/-! ## Without a key-frame map -/

theorem target_eq (d n c : Nat) : (lrint (((c : Rat) * d) / n)).toNat = interpolate 0 n 0 d c := by
  unfold interpolate
  simp only [Nat.sub_zero, Nat.zero_add]
  congr 2
  ring

theorem free_chain (d n : Nat) (hz : n = 0 → d = 0) : ∀ (ps : List Peak) (sc : Nat), (ps.map (·.chunk)).Pairwise (· < ·) → (∀ p ∈ ps, p.chunk < n) →
    (∀ p ∈ ps, sc ≤ p.chunk) → sc ≤ n → Chain d n sc (interpolate 0 n 0 d sc) (ps.map fun p => (p, interpolate 0 n 0 d p.chunk)) := by
  intro ps
  induction ps with
  | nil =>
    intro sc _ _ _ h
    refine ⟨h, fun e => ?_⟩
    subst e
    rcases Nat.eq_zero_or_pos sc with c | c
    · rw [hz c]; exact Nat.zero_le _
    · rw [interpolate_end c (Nat.zero_le _)]
  | cons p ps ih =>
    intro sc h1 h2 h3 h4
    rw [List.map_cons, List.pairwise_cons] at h1
    refine ⟨h3 p (by simp), h2 p (by simp), interpolate_mono (h3 p (by simp)), fun e => by rw [e], ?_⟩
    exact ih p.chunk h1.2 (fun q hq => h2 q (by simp [hq])) (fun q hq => le_of_lt (h1.1 q.chunk (List.mem_map_of_mem hq)))
      (le_of_lt (h2 p (by simp)))

theorem free_dense {inc d n : Nat} (hinc : 2 ≤ inc) (ha : Ample inc n d) : ∀ (ps : List Peak) (sc : Nat) (hard : Bool),
    (ps.map (·.chunk)).Pairwise (· < ·) → (∀ p ∈ ps, p.chunk < n) → (∀ p ∈ ps, sc ≤ p.chunk) → sc < n →
    AllDense inc d n sc (interpolate 0 n 0 d sc) hard (ps.map fun p => (p, interpolate 0 n 0 d p.chunk)) := by
  intro ps
  induction ps with
  | nil =>
    intro sc hard _ _ _ h
    refine ⟨h, ?_⟩
    have hle := interpolate_le (c := sc) (show 0 < n by omega) (Nat.zero_le d) (le_of_lt h)
    rw [Nat.min_eq_left hle]
    have := interpolate_dense (sc := 0) (ec := n) (ts := 0) (te := d) hinc (show 0 < n by omega) (by simpa using ha) (Nat.zero_le sc) h hard
    rwa [interpolate_end (show 0 < n by omega) (Nat.zero_le d)] at this
  | cons p ps ih =>
    intro sc hard h1 h2 h3 h4
    rw [List.map_cons, List.pairwise_cons] at h1
    have hp := h2 p (by simp)
    refine ⟨fun hlt => ?_, ?_⟩
    · rw [Nat.min_eq_left (interpolate_le (show 0 < n by omega) (Nat.zero_le d) (le_of_lt hp)),
        Nat.min_eq_left (interpolate_le (show 0 < n by omega) (Nat.zero_le d) (le_of_lt h4))]
      exact interpolate_dense hinc (show 0 < n by omega) (by simpa using ha) (Nat.zero_le sc) hlt hard
    · exact ih p.chunk p.hard h1.2 (fun q hq => h2 q (by simp [hq])) (fun q hq => le_of_lt (h1.1 q.chunk (List.mem_map_of_mem hq))) hp

/-! ## With a key-frame map -/

/-- The newest fixed point, or the beginning. -/
def hdc : List (Peak × Nat) → Nat
  | [] => 0
  | (p, _) :: _ => p.chunk
def hdt : List (Peak × Nat) → Nat
  | [] => 0
  | (_, t) :: _ => t
def hdh : List (Peak × Nat) → Bool
  | [] => false
  | (p, _) :: _ => p.hard

/-- As `Chain`, newest first. -/
def RChain (d n : Nat) : List (Peak × Nat) → Prop
  | [] => True
  | (p, t) :: acc => hdc acc ≤ p.chunk ∧ p.chunk < n ∧ hdt acc ≤ t ∧ (hdc acc = p.chunk → min (hdt acc) d = min t d) ∧ RChain d n acc

/-- As `AllDense`, newest first and whatever the hardness. -/
def RDense (inc d : Nat) : List (Peak × Nat) → Prop
  | [] => True
  | (p, t) :: acc => (hdc acc < p.chunk → ∀ hard, Dense inc hard (p.chunk - hdc acc) (min t d - min (hdt acc) d)) ∧ RDense inc d acc

theorem rchain_chain {d n : Nat} : ∀ (acc l : List (Peak × Nat)), RChain d n acc → Chain d n (hdc acc) (hdt acc) l →
    Chain d n 0 0 (acc.reverse ++ l) := by
  intro acc
  induction acc with
  | nil => intro l _ h; exact h
  | cons a acc ih =>
    intro l h hl
    obtain ⟨p, t⟩ := a
    rw [List.reverse_cons, List.append_assoc]
    exact ih _ h.2.2.2.2 ⟨h.1, h.2.1, h.2.2.1, h.2.2.2.1, hl⟩

theorem rdense_dense {inc d n : Nat} : ∀ (acc l : List (Peak × Nat)), RDense inc d acc → AllDense inc d n (hdc acc) (hdt acc) (hdh acc) l →
    AllDense inc d n 0 0 false (acc.reverse ++ l) := by
  intro acc
  induction acc with
  | nil => intro l _ h; exact h
  | cons a acc ih =>
    intro l h hl
    obtain ⟨p, t⟩ := a
    rw [List.reverse_cons, List.append_assoc]
    exact ih _ h.2 ⟨fun hlt => h.1 hlt _, hl⟩

theorem harden_hd (acc : List (Peak × Nat)) : hdc (hardenLast acc) = hdc acc ∧ hdt (hardenLast acc) = hdt acc := by
  cases acc <;> exact ⟨rfl, rfl⟩

theorem harden_rchain {d n : Nat} {acc : List (Peak × Nat)} (h : RChain d n acc) : RChain d n (hardenLast acc) := by
  cases acc <;> exact h

theorem harden_rdense {inc d : Nat} {acc : List (Peak × Nat)} (h : RDense inc d acc) : RDense inc d (hardenLast acc) := by
  cases acc <;> exact h

/-- There is a fixed point at chunk `c` with target `t`. -/
def HasPoint (acc : List (Peak × Nat)) (c t : Nat) : Prop := ∃ a ∈ acc, a.1.chunk = c ∧ a.2 = t

theorem harden_point {acc : List (Peak × Nat)} {c t : Nat} (h : HasPoint acc c t) : HasPoint (hardenLast acc) c t := by
  cases acc with
  | nil => exact h
  | cons a acc =>
    obtain ⟨b, hb, h1, h2⟩ := h
    rcases List.mem_cons.mp hb with rfl | hb
    · exact ⟨_, List.mem_cons_self, h1, h2⟩
    · exact ⟨b, List.mem_cons_of_mem _ hb, h1, h2⟩

theorem lastTarget_eq (acc : List (Peak × Nat)) : lastTarget acc = hdt acc := by cases acc <;> rfl

theorem peakLoop_spec {inc d n sc ec ts te : Nat} (hs : sc < ec) (ht : ts ≤ te) : ∀ (qs : List Peak) (acc : List (Peak × Nat)),
    (qs.map (·.chunk)).Pairwise (· < ·) → (∀ q ∈ qs, q.chunk < n) → (∀ q ∈ qs, q.chunk ≤ sc ∨ hdc acc < q.chunk) →
    acc ≠ [] → RChain d n acc → sc ≤ hdc acc → hdc acc < ec → hdt acc ≤ te →
    ∃ qs' acc', peakLoop inc sc ec ts te qs acc = (qs', acc') ∧ (qs'.map (·.chunk)).Pairwise (· < ·) ∧ (∀ q ∈ qs', q.chunk < n) ∧
      (∀ q ∈ qs', ec ≤ q.chunk) ∧
      acc' ≠ [] ∧ RChain d n acc' ∧ sc ≤ hdc acc' ∧ hdc acc' < ec ∧ hdt acc' ≤ te ∧ (∀ c t, HasPoint acc c t → HasPoint acc' c t) ∧
      (2 ≤ inc → Ample inc (ec - sc) (te - ts) → te ≤ d → RDense inc d acc → hdt acc = interpolate sc ec ts te (hdc acc) →
        RDense inc d acc' ∧ hdt acc' = interpolate sc ec ts te (hdc acc')) ∧
      ((∀ a ∈ acc, a.2 ≤ te) → ∀ a ∈ acc', a.2 ≤ te) := by
  intro qs
  induction qs with
  | nil =>
    intro acc h1 h2 _ h4 h5 h6 h7 h8
    exact ⟨[], acc, rfl, h1, h2, by simp, h4, h5, h6, h7, h8, fun _ _ h => h, fun _ _ _ h h' => ⟨h, h'⟩, fun h => h⟩
  | cons q qs ih =>
    intro acc h1 h2 h3 h4 h5 h6 h7 h8
    rw [List.map_cons, List.pairwise_cons] at h1
    have hq := h2 q (by simp)
    have hqs2 : ∀ r ∈ qs, r.chunk < n := fun r hr => h2 r (by simp [hr])
    have hqs3 : ∀ r ∈ qs, r.chunk ≤ sc ∨ hdc acc < r.chunk := fun r hr => h3 r (by simp [hr])
    unfold peakLoop
    split_ifs with c1 c2 c3
    · exact ih acc h1.2 hqs2 hqs3 h4 h5 h6 h7 h8
    · obtain ⟨e1, e2⟩ := harden_hd acc
      obtain ⟨qs', acc', k1, k2, k3, k4, k5, k6, k7, k8, k9, k10, k11, k12⟩ := ih (hardenLast acc) h1.2 hqs2 (by rw [e1]; exact hqs3)
        (by cases acc with
          | nil => exact absurd rfl h4
          | cons a acc => simp [hardenLast]) (harden_rchain h5) (by rw [e1]; exact h6) (by rw [e1]; exact h7) (by rw [e2]; exact h8)
      refine ⟨qs', acc', k1, k2, k3, k4, k5, k6, k7, k8, k9, fun c t h => k10 c t (harden_point h), ?_, ?_⟩
      · intro x1 x2 x3 x4 x5
        exact k11 x1 x2 x3 (harden_rdense x4) (by rw [e1, e2]; exact x5)
      · intro hle
        apply k12
        cases acc with
        | nil => exact hle
        | cons a acc =>
          intro b hb
          rcases List.mem_cons.mp hb with rfl | hb
          · exact hle a (by simp)
          · exact hle b (by simp [hb])
    · refine ⟨q :: qs, acc, rfl, by rw [List.map_cons, List.pairwise_cons]; exact h1, h2, ?_, h4, h5, h6, h7, h8, fun _ _ h => h,
        fun _ _ _ h h' => ⟨h, h'⟩, fun h => h⟩
      intro r hr
      rcases List.mem_cons.mp hr with rfl | hr
      · exact c3
      · exact le_trans c3 (le_of_lt (h1.1 r.chunk (List.mem_map_of_mem hr)))
    · simp only
      rw [lastTarget_eq]
      split_ifs with c4
      · exact ih acc h1.2 hqs2 hqs3 h4 h5 h6 h7 h8
      · have hlt : hdc acc < q.chunk := by
          rcases h3 q (by simp) with h | h
          · omega
          · exact h
        have hte : interpolate sc ec ts te q.chunk ≤ te := interpolate_le hs ht (by omega)
        obtain ⟨qs', acc', k1, k2, k3, k4, k5, k6, k7, k8, k9, k10, k11, k12⟩ := ih ((q, interpolate sc ec ts te q.chunk) :: acc) h1.2 hqs2
          (fun r hr => Or.inr (h1.1 r.chunk (List.mem_map_of_mem hr))) (by simp)
          ⟨le_of_lt hlt, hq, by omega, by omega, h5⟩ (by show sc ≤ q.chunk; omega) (by show q.chunk < ec; omega) hte
        refine ⟨qs', acc', k1, k2, k3, k4, k5, k6, k7, k8, k9, ?_, ?_, ?_⟩
        · rintro c t ⟨a, ha, h⟩
          exact k10 c t ⟨a, List.mem_cons_of_mem _ ha, h⟩
        · intro x1 x2 x3 x4 x5
          refine k11 x1 x2 x3 ⟨fun _ hard => ?_, x4⟩ rfl
          rw [Nat.min_eq_left (le_trans hte x3), Nat.min_eq_left (le_trans h8 x3), x5]
          exact interpolate_dense x1 hs x2 h6 hlt hard
        · intro hle
          apply k12
          intro b hb
          rcases List.mem_cons.mp hb with rfl | hb
          · exact hte
          · exact hle b hb

/-- The end of the segment that begins with a key frame. -/
def segEnd (inc d n : Nat) : List (Nat × Nat) → Nat × Nat
  | [] => (n, d)
  | (src, tgt) :: _ => (src / inc, tgt)

theorem keyLoop_cons (inc d n src tgt : Nat) (rest : List (Nat × Nat)) (qs : List Peak) (acc : List (Peak × Nat)) :
    keyLoop inc d n ((src, tgt) :: rest) qs acc =
      if src / inc ≥ n ∨ src / inc ≥ (segEnd inc d n rest).1 ∨ tgt ≥ d ∨ tgt ≥ (segEnd inc d n rest).2 then keyLoop inc d n rest qs acc
      else keyLoop inc d n rest (peakLoop inc (src / inc) (segEnd inc d n rest).1 tgt (segEnd inc d n rest).2 qs
          ((⟨src / inc, false⟩, tgt) :: acc)).1
        (peakLoop inc (src / inc) (segEnd inc d n rest).1 tgt (segEnd inc d n rest).2 qs ((⟨src / inc, false⟩, tgt) :: acc)).2 := by
  cases rest with
  | nil => unfold keyLoop; rfl
  | cons a rest => obtain ⟨s, t⟩ := a; unfold keyLoop; rfl

/-- A key-frame map whose targets do not go down, and whose key frames in the first chunk map to the
beginning. -/
structure Rising (inc : Nat) (m : List (Nat × Nat)) : Prop where
  sources : (m.map (·.1)).Pairwise (· < ·)
  targets : (m.map (·.2)).Pairwise (· ≤ ·)
  first : ∀ k ∈ m, k.1 < inc → k.2 = 0

theorem Rising.tail {inc : Nat} {k : Nat × Nat} {m : List (Nat × Nat)} (h : Rising inc (k :: m)) : Rising inc m := by
  have h1 := h.sources
  have h2 := h.targets
  rw [List.map_cons, List.pairwise_cons] at h1 h2
  exact ⟨h1.2, h2.2, fun k hk => h.first k (by simp [hk])⟩

theorem keyLoop_chain {inc d n : Nat} (hinc : 0 < inc) : ∀ (m : List (Nat × Nat)) (qs : List Peak) (acc : List (Peak × Nat)), Rising inc m →
    (qs.map (·.chunk)).Pairwise (· < ·) → (∀ q ∈ qs, q.chunk < n) → RChain d n acc →
    (acc ≠ [] → ∀ q ∈ qs, hdc acc < q.chunk) → (acc ≠ [] → ∀ k ∈ m, hdc acc < k.1 / inc) → (∀ k ∈ m, hdt acc ≤ k.2) →
    RChain d n (keyLoop inc d n m qs acc) := by
  intro m
  induction m with
  | nil => intro qs acc _ _ _ h _ _ _; exact h
  | cons k m ih =>
    intro qs acc hm h1 h2 h3 h4 h5 h6
    obtain ⟨src, tgt⟩ := k
    rw [keyLoop_cons]
    split_ifs with c
    · exact ih qs acc hm.tail h1 h2 h3 h4 (fun h k hk => h5 h k (by simp [hk])) (fun k hk => h6 k (by simp [hk]))
    · push Not at c
      obtain ⟨c1, c2, c3, c4⟩ := c
      have hpush : RChain d n ((⟨src / inc, false⟩, tgt) :: acc) := by
        refine ⟨?_, c1, h6 (src, tgt) (by simp), ?_, h3⟩
        · cases hacc : acc with
          | nil => exact Nat.zero_le _
          | cons a acc' =>
            have := h5 (by simp [hacc]) (src, tgt) (by simp)
            rw [hacc] at this
            exact le_of_lt this
        · intro e
          cases hacc : acc with
          | nil =>
            rw [hacc] at e
            have : src < inc := by
              have e' : src / inc = 0 := e.symm
              rcases Nat.div_eq_zero_iff.mp e' with h | h
              · omega
              · exact h
            have : tgt = 0 := hm.first (src, tgt) (by simp) this
            rw [this]
            rfl
          | cons a acc' =>
            have := h5 (by simp [hacc]) (src, tgt) (by simp)
            change hdc acc = src / inc at e
            change hdc acc < src / inc at this
            omega
      obtain ⟨qs', acc', k1, k2, k3, k4, k5, k6, k7, k8, k9, _⟩ := peakLoop_spec (inc := inc) (d := d) (n := n) c2 (le_of_lt c4) qs
        ((⟨src / inc, false⟩, tgt) :: acc) h1 h2 (fun q _ => by
          show q.chunk ≤ src / inc ∨ src / inc < q.chunk
          omega) (by simp) hpush (le_refl _) (by show src / inc < _; omega) (le_of_lt c4)
      rw [k1]
      have hs := hm.sources
      have ht := hm.targets
      rw [List.map_cons, List.pairwise_cons] at hs ht
      refine ih qs' acc' hm.tail k2 k3 k6 (fun _ q hq => lt_of_lt_of_le k8 (k4 q hq)) ?_ ?_
      · intro _ k hk
        refine lt_of_lt_of_le k8 ?_
        cases m with
        | nil => simp at hk
        | cons k' m' =>
          obtain ⟨src', tgt'⟩ := k'
          show src' / inc ≤ k.1 / inc
          rcases List.mem_cons.mp hk with rfl | hk
          · exact le_refl _
          · have := hs.2
            rw [List.map_cons, List.pairwise_cons] at this
            exact Nat.div_le_div_right (le_of_lt (this.1 k.1 (List.mem_map_of_mem hk)))
      · intro k hk
        refine le_trans k9 ?_
        cases m with
        | nil => simp at hk
        | cons k' m' =>
          obtain ⟨src', tgt'⟩ := k'
          show tgt' ≤ k.2
          rcases List.mem_cons.mp hk with rfl | hk
          · exact le_refl _
          · have := ht.2
            rw [List.map_cons, List.pairwise_cons] at this
            exact this.1 k.2 (List.mem_map_of_mem hk)

/-- A key-frame map with a reasonable gap between key frames: each in a later chunk than the one before,
all within the input and the output, and each segment with ample output. -/
def Spaced (inc d n : Nat) : List (Nat × Nat) → Prop
  | [] => True
  | (src, tgt) :: rest => src / inc < n ∧ tgt < d ∧ src / inc < (segEnd inc d n rest).1 ∧ tgt < (segEnd inc d n rest).2 ∧
      Ample inc ((segEnd inc d n rest).1 - src / inc) ((segEnd inc d n rest).2 - tgt) ∧ Spaced inc d n rest

theorem Spaced.end_le {inc d n : Nat} {rest : List (Nat × Nat)} (h : Spaced inc d n rest) : (segEnd inc d n rest).2 ≤ d := by
  cases rest with
  | nil => exact le_refl _
  | cons a rest => obtain ⟨s, t⟩ := a; exact le_of_lt h.2.1

theorem keyLoop_dense {inc d n : Nat} (hinc : 2 ≤ inc) : ∀ (m : List (Nat × Nat)) (qs : List Peak) (acc : List (Peak × Nat)), Spaced inc d n m →
    (qs.map (·.chunk)).Pairwise (· < ·) → (∀ q ∈ qs, q.chunk < n) → RChain d n acc → RDense inc d acc →
    hdc acc ≤ (segEnd inc d n m).1 → hdt acc ≤ (segEnd inc d n m).2 →
    (hdc acc = (segEnd inc d n m).1 → min (hdt acc) d = min (segEnd inc d n m).2 d) →
    (hdc acc < (segEnd inc d n m).1 → ∀ hard, Dense inc hard ((segEnd inc d n m).1 - hdc acc) (min (segEnd inc d n m).2 d - min (hdt acc) d)) →
    (m = [] → hdc acc < n) → (∀ a ∈ acc, a.2 ≤ d) →
    RChain d n (keyLoop inc d n m qs acc) ∧ RDense inc d (keyLoop inc d n m qs acc) ∧
      hdc (keyLoop inc d n m qs acc) < n ∧ hdt (keyLoop inc d n m qs acc) ≤ d ∧
      (∀ hard, Dense inc hard (n - hdc (keyLoop inc d n m qs acc)) (d - min (hdt (keyLoop inc d n m qs acc)) d)) ∧
      (∀ a ∈ keyLoop inc d n m qs acc, a.2 ≤ d) ∧
      (∀ c t, HasPoint acc c t → HasPoint (keyLoop inc d n m qs acc) c t) ∧
      (∀ k ∈ m, HasPoint (keyLoop inc d n m qs acc) (k.1 / inc) k.2) := by
  intro m
  induction m with
  | nil =>
    intro qs acc _ _ _ h3 h4 h5 h6 h7 h8 h9 h10
    have hlt := h9 rfl
    have e : keyLoop inc d n [] qs acc = acc := rfl
    rw [e]
    refine ⟨h3, h4, hlt, h6, ?_, h10, fun _ _ h => h, by simp⟩
    intro hard
    have := h8 hlt hard
    simpa [segEnd] using this
  | cons k m ih =>
    intro qs acc hm h1 h2 h3 h4 h5 h6 h7 h8 _ h10
    obtain ⟨src, tgt⟩ := k
    obtain ⟨m1, m2, m3, m4, m5, m6⟩ := hm
    rw [keyLoop_cons, if_neg (by push Not; exact ⟨m1, m3, m2, m4⟩)]
    have hpush : RChain d n ((⟨src / inc, false⟩, tgt) :: acc) := ⟨h5, m1, h6, h7, h3⟩
    have hpush2 : RDense inc d ((⟨src / inc, false⟩, tgt) :: acc) := ⟨h8, h4⟩
    obtain ⟨qs', acc', k1, k2, k3, k4, k5, k6, k7, k8, k9, k10, k11, k12⟩ := peakLoop_spec (inc := inc) (d := d) (n := n) m3 (le_of_lt m4) qs
      ((⟨src / inc, false⟩, tgt) :: acc) h1 h2 (fun q _ => by
        show q.chunk ≤ src / inc ∨ src / inc < q.chunk
        omega) (by simp) hpush (le_refl _) m3 (le_of_lt m4)
    rw [k1]
    have hend := m6.end_le
    obtain ⟨r1, r2⟩ := k11 hinc m5 hend hpush2 (by
      show tgt = interpolate _ _ tgt _ (src / inc)
      rw [interpolate_start])
    have hd' : ∀ hard, Dense inc hard ((segEnd inc d n m).1 - hdc acc') (min (segEnd inc d n m).2 d - min (hdt acc') d) := by
      intro hard
      rw [Nat.min_eq_left hend, Nat.min_eq_left (le_trans k9 hend), r2]
      have := interpolate_dense hinc m3 m5 k7 k8 hard
      rwa [interpolate_end m3 (le_of_lt m4)] at this
    have hall : ∀ a ∈ acc', a.2 ≤ d := by
      intro a ha
      refine le_trans (k12 ?_ a ha) hend
      intro b hb
      rcases List.mem_cons.mp hb with rfl | hb
      · exact le_of_lt m4
      · have hb2 : ∀ (acc : List (Peak × Nat)), RChain d n acc → ∀ b ∈ acc, b.2 ≤ hdt acc := by
          intro acc
          induction acc with
          | nil => intro _ b hb; simp at hb
          | cons a acc ih =>
            intro h b hb
            obtain ⟨p, t⟩ := a
            rcases List.mem_cons.mp hb with rfl | hb
            · exact le_refl _
            · exact le_trans (ih h.2.2.2.2 b hb) h.2.2.1
        exact le_trans (hb2 acc h3 b hb) (le_trans h6 (le_of_lt m4))
    obtain ⟨j1, j2, j3, j4, j5, j6, j7, j8⟩ := ih qs' acc' m6 k2 k3 k6 r1 (le_of_lt k8) k9 (by omega) (fun _ => hd')
      (by intro e; subst e; exact k8) hall
    refine ⟨j1, j2, j3, j4, j5, j6, ?_, ?_⟩
    · rintro c t ⟨a, ha, h⟩
      exact j7 c t (k10 c t ⟨a, List.mem_cons_of_mem _ ha, h⟩)
    · intro k hk
      rcases List.mem_cons.mp hk with rfl | hk
      · exact j7 _ _ (k10 _ _ ⟨_, List.mem_cons_self, rfl, rfl⟩)
      · exact j8 k hk

end Verif.StretchCalc
