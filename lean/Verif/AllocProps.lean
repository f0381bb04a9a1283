import Verif.AllocLemmas
/-!
# Reallocating keeps what there was (C143), nothing is lost when there is no memory (C144), there is room for what was asked for (C145)
-/
namespace Verif.Alloc

variable {α : Type}

/-! ## C143 -/

/-- What may be given to the functions that reallocate: nothing, or a block with room for the old elements, which hold `f`. -/
def Given (h : Heap α) (w p old : Nat) (f : Nat → Cell α) : Prop := (p = 0 ∧ old = 0) ∨ ∃ d, h.block p = some d ∧ old * w ≤ d.bytes ∧ ∀ i < old, d.cells i = f i

/-- An exception, and all blocks are as before. -/
def Untouched (h : Heap α) (r : Option (Res α Nat)) : Prop := ∃ h', r = some (.thrown h') ∧ ∀ a, h'.block a = h.block a

/-- A new block with room for `count` elements, which hold `f` where that is given; the block at `p` is gone, and all others are as before. -/
def Moved (h : Heap α) (w p count : Nat) (f : Nat → Option (Cell α)) (r : Option (Res α Nat)) : Prop :=
  ∃ h' q b, r = some (.ok h' q) ∧ q ≠ 0 ∧ h.block q = none ∧ h'.block q = some b ∧ count * w ≤ b.bytes ∧ (∀ i < count, ∀ c, f i = some c → b.cells i = c) ∧ (∀ a, a ≠ q → a ≠ p → h'.block a = h.block a) ∧ h'.block p = none

theorem reallocate_run (sys : Sys) {w count : Nat} (hn : count * w < 2 ^ 64) {h : Heap α} (hf : Fresh h) {p old : Nat} {f : Nat → Cell α} (hg : Given h w p old f) :
    reallocate sys w p old count h = some (.thrown h.denied) ∨
      ∃ h' b, reallocate sys w p old count h = some (.ok h' (h.asked + 1)) ∧ h'.block (h.asked + 1) = some b ∧ count * w ≤ b.bytes ∧ (∀ i < count, i < old → b.cells i = f i) ∧
        (∀ a, a ≠ h.asked + 1 → a ≠ p → h'.block a = h.block a) ∧ h'.block p = none := by
  unfold reallocate
  rcases allocate_run sys hn h with e | e
  · left
    rw [bind_thrown e]
  · right
    rw [bind_ok e]
    rcases hg with ⟨rfl, rfl⟩ | ⟨d, d1, d2, d3⟩
    · refine ⟨h.grown ⟨count * w, fun _ => .raw⟩, _, rfl, grown_new _ _, le_refl _, fun i _ hi => absurd hi (by omega), fun a ha _ => grown_old _ _ ha, ?_⟩
      rw [grown_old _ _ (by omega)]
      exact hf.1
    · have hp0 : p ≠ 0 := by rintro rfl; rw [hf.1] at d1; cases d1
      have hpa : h.asked + 1 ≠ p := by rintro rfl; rw [hf.2 _ (by omega)] at d1; cases d1
      have d1' : (h.grown ⟨count * w, fun _ => .raw⟩).block p = some d := by rw [grown_old _ _ hpa.symm]; exact d1
      have w1 := Nat.mul_le_mul_right w (Nat.min_le_left old count)
      have w2 := Nat.mul_le_mul_right w (Nat.min_le_right old count)
      have hcopy : upon (old ≠ 0 ∧ p ≠ 0) (copy w (h.asked + 1) p 0 (min old count)) (h.grown ⟨count * w, fun _ => .raw⟩) =
          some (.ok ((h.grown ⟨count * w, fun _ => .raw⟩).set (h.asked + 1) (some ((⟨count * w, fun _ => .raw⟩ : Block α).over 0 (min old count) d.cells))) ()) := by
        by_cases ho : old = 0
        · subst ho
          rw [upon_no (by simp), Nat.zero_min, over_none, Heap.set_self (grown_new _ _)]
          rfl
        · rw [upon_yes ⟨ho, hp0⟩, copy_run hpa (min old count) 0 (grown_new _ _) d1' (by rw [Nat.zero_add]; exact w2) (by rw [Nat.zero_add]; omega), Nat.zero_add]
      rw [bind_ok hcopy, upon_yes hp0]
      have d2' : ((h.grown ⟨count * w, fun _ => .raw⟩).set (h.asked + 1) (some ((⟨count * w, fun _ => .raw⟩ : Block α).over 0 (min old count) d.cells))).block p = some d := by
        rw [Heap.set_other _ _ hpa.symm]
        exact d1'
      rw [bind_ok (deallocate_run hp0 d2')]
      refine ⟨_, (⟨count * w, fun _ => .raw⟩ : Block α).over 0 (min old count) d.cells, rfl, ?_, ?_, ?_, ?_, Heap.set_same _ _ _⟩
      · rw [Heap.set_other _ _ hpa]
        exact Heap.set_same _ _ _
      · exact le_refl _
      · intro i h1 h2
        unfold Block.over
        simp only
        rw [if_pos (by omega)]
        exact d3 i h2
      · intro a h1 h2
        rw [Heap.set_other _ _ h2, Heap.set_other _ _ h1, grown_old _ _ h1]

/-- **C143**, `reallocate`: what there was is kept, as far as there is room. -/
theorem C143_reallocate (sys : Sys) {w count : Nat} (hn : count * w < 2 ^ 64) {h : Heap α} (hf : Fresh h) {p old : Nat} {f : Nat → Cell α} (hg : Given h w p old f) :
    Untouched h (reallocate sys w p old count h) ∨ Moved h w p count (fun i => if i < old then some (f i) else none) (reallocate sys w p old count h) := by
  rcases reallocate_run sys hn hf hg with e | ⟨h', b, e, e1, e2, e3, e4, e5⟩
  · exact Or.inl ⟨_, e, fun _ => rfl⟩
  · refine Or.inr ⟨h', _, b, e, by omega, hf.2 _ (by omega), e1, e2, fun i hi c hc => ?_, e4, e5⟩
    by_cases ho : i < old
    · simp only [ho, if_true, Option.some.injEq] at hc
      rw [← hc]
      exact e3 i hi ho
    · simp [ho] at hc

theorem filled {w p q count : Nat} {h h' : Heap α} {b : Block α} (c : Cell α) (i n : Nat) (hin : i + n = count) (e1 : h'.block q = some b) (e2 : count * w ≤ b.bytes) (e4 : ∀ a, a ≠ q → a ≠ p → h'.block a = h.block a)
    (hp : p ≠ q) (e5 : h'.block p = none) :
    ∃ h'' b', fill w q c i n h' = some (.ok h'' ()) ∧ h''.block q = some b' ∧ count * w ≤ b'.bytes ∧ (∀ j < count, b'.cells j = if i ≤ j then c else b.cells j) ∧ (∀ a, a ≠ q → a ≠ p → h''.block a = h.block a) ∧
      h''.block p = none := by
  refine ⟨_, _, fill_run w q c n i e1 (by rw [hin]; exact e2), Heap.set_same _ _ _, e2, fun j hj => ?_, fun a h1 h2 => ?_, ?_⟩
  · unfold Block.over
    simp only
    by_cases hi : i ≤ j
    · rw [if_pos (by omega), if_pos hi]
    · rw [if_neg (by omega), if_neg hi]
  · rw [Heap.set_other _ _ h1]
    exact e4 a h1 h2
  · rw [Heap.set_other _ _ hp]
    exact e5

theorem given_ne {h : Heap α} (hf : Fresh h) {w p old : Nat} {f : Nat → Cell α} (hg : Given h w p old f) : p ≠ h.asked + 1 := by
  rintro rfl
  rcases hg with ⟨h0, _⟩ | ⟨d, d1, _⟩
  · omega
  · rw [hf.2 _ (by omega)] at d1
    cases d1

/-- **C143**, `reallocate_and_zero`: all is zero. -/
theorem C143_zero (sys : Sys) (zero : α) {w count : Nat} (hn : count * w < 2 ^ 64) {h : Heap α} (hf : Fresh h) {p old : Nat} {f : Nat → Cell α} (hg : Given h w p old f) :
    Untouched h (reallocateAndZero sys zero w p old count h) ∨ Moved h w p count (fun _ => some (.val zero)) (reallocateAndZero sys zero w p old count h) := by
  unfold reallocateAndZero
  rcases reallocate_run sys hn hf hg with e | ⟨h', b, e, e1, e2, _, e4, e5⟩
  · exact Or.inl ⟨_, bind_thrown e, fun _ => rfl⟩
  · obtain ⟨h'', b', f1, f2, f3, f4, f5, f6⟩ := filled (.val zero) 0 count (by omega) e1 e2 e4 (given_ne hf hg) e5
    refine Or.inr ⟨h'', _, b', by rw [bind_ok e, bind_ok f1]; rfl, by omega, hf.2 _ (by omega), f2, f3, fun i hi c hc => ?_, f5, f6⟩
    cases hc
    rw [f4 i hi, if_pos (by omega)]

/-- **C143**, `reallocate_and_zero_extension`: what there was is kept, as far as there is room, and the rest is zero. -/
theorem C143 (sys : Sys) (zero : α) {w count : Nat} (hn : count * w < 2 ^ 64) {h : Heap α} (hf : Fresh h) {p old : Nat} {f : Nat → Cell α} (hg : Given h w p old f) :
    Untouched h (reallocateAndZeroExtension sys zero w p old count h) ∨
      Moved h w p count (fun i => some (if i < old then f i else .val zero)) (reallocateAndZeroExtension sys zero w p old count h) := by
  unfold reallocateAndZeroExtension
  rcases reallocate_run sys hn hf hg with e | ⟨h', b, e, e1, e2, e3, e4, e5⟩
  · exact Or.inl ⟨_, bind_thrown e, fun _ => rfl⟩
  · by_cases hc : count > old
    · obtain ⟨h'', b', f1, f2, f3, f4, f5, f6⟩ := filled (.val zero) old (count - old) (by omega) e1 e2 e4 (given_ne hf hg) e5
      refine Or.inr ⟨h'', _, b', by rw [bind_ok e, upon_yes hc, bind_ok f1]; rfl, by omega, hf.2 _ (by omega), f2, f3, fun i hi c hx => ?_, f5, f6⟩
      cases hx
      rw [f4 i hi]
      by_cases ho : i < old
      · rw [if_neg (by omega), if_pos ho]
        exact e3 i hi ho
      · rw [if_pos (by omega), if_neg ho]
    · refine Or.inr ⟨h', _, b, by rw [bind_ok e, upon_no hc]; rfl, by omega, hf.2 _ (by omega), e1, e2, fun i hi c hx => ?_, e4, e5⟩
      cases hx
      rw [if_pos (by omega)]
      exact e3 i hi (by omega)

/-- What may be given to the functions that reallocate channels. -/
def GivenChannels (h : Heap α) (w p channels count : Nat) (g : Nat → Nat) (f : Nat → Nat → Cell α) : Prop := (p = 0 ∧ channels = 0) ∨ Channels h w p channels count g f

theorem rechannel {w p oldchannels old channels count : Nat} {h h1 : Heap α} (hf : Fresh h) {g : Nat → Nat} {f : Nat → Nat → Cell α} (hg : GivenChannels h w p oldchannels old g f) (f1 : Fresh h1)
    {cells : Nat → Cell α} (hc : Channels h1 w (h.asked + 1) channels count (fun c => h.asked + 2 + c) (fun _ i => cells i)) (hs : ∀ a ≤ h.asked, h1.block a = h.block a) :
    ∃ h', (do
        upon (old ≠ 0 ∧ p ≠ 0) (copyLoop w (h.asked + 1) p (min old count) 0 (min oldchannels channels))
        upon (p ≠ 0) (deallocateChannels p oldchannels)
        pure (h.asked + 1) : M α Nat) h1 = some (.ok h' (h.asked + 1)) ∧
      Channels h' w (h.asked + 1) channels count (fun c => h.asked + 2 + c) (fun j i => if j < oldchannels ∧ i < old then f j i else cells i) ∧
      h'.block p = none ∧ (∀ c < oldchannels, h'.block (g c) = none) ∧ ∀ a ≤ h.asked, a ≠ p → (∀ c < oldchannels, a ≠ g c) → h'.block a = h.block a := by
  rcases hg with ⟨rfl, rfl⟩ | hg
  · refine ⟨h1, by rw [upon_no (by simp), bind_ok (pure_run _ _), upon_no (by simp), bind_ok (pure_run _ _)]; rfl, ?_, f1.1, fun c hcc => absurd hcc (by omega), fun a ha _ _ => hs a ha⟩
    have : (fun j i => if j < 0 ∧ i < old then f j i else cells i) = fun _ i => cells i := by
      funext j i
      rw [if_neg (by omega)]
    rw [this]
    exact hc
  · obtain ⟨d, d1, d2, d3⟩ := hg.ptrs
    have hp0 : p ≠ 0 := by rintro rfl; rw [hf.1] at d1; cases d1
    have below : ∀ {a : Nat} {b : Block α}, h.block a = some b → a ≤ h.asked := by
      intro a b hb
      by_contra hx
      rw [hf.2 a (by omega)] at hb
      cases hb
    have hpa := below d1
    have hga : ∀ c < oldchannels, g c ≤ h.asked := by
      intro c hcc
      obtain ⟨_, e, k2, _⟩ := hg.blocks c hcc
      exact below k2
    have hg1 : Channels h1 w p oldchannels old g f := hg.frame (hs p hpa) fun c hcc => hs _ (hga c hcc)
    obtain ⟨h2, r1, r2, r3, r4, r5⟩ : ∃ h2, upon (old ≠ 0 ∧ p ≠ 0) (copyLoop w (h.asked + 1) p (min old count) 0 (min oldchannels channels)) h1 = some (.ok h2 ()) ∧ h2.block 0 = none ∧
        Channels h2 w (h.asked + 1) channels count (fun c => h.asked + 2 + c) (fun j i => if j < oldchannels ∧ i < old then f j i else cells i) ∧ Channels h2 w p oldchannels old g f ∧
        ∀ a ≤ h.asked, h2.block a = h.block a := by
      by_cases ho : old = 0
      · subst ho
        refine ⟨h1, by rw [upon_no (by simp)]; rfl, f1.1, ?_, hg1, hs⟩
        have : (fun j i => if j < oldchannels ∧ i < 0 then f j i else cells i) = fun _ i => cells i := by
          funext j i
          rw [if_neg (by omega)]
        rw [this]
        exact hc
      · obtain ⟨h2, r1, r2, r3, r4, r5⟩ := copyLoop_run (w := w) (q := h.asked + 1) (p := p) (m := min old count) (Nat.min_le_right _ _) (Nat.min_le_left _ _) (gq := fun c => h.asked + 2 + c)
          (fun c _ hx => by omega) (fun c _ c' hc' hx => by have := hga c' hc'; omega) (min oldchannels channels) 0 hc hg1 (by omega) (by omega)
        refine ⟨h2, by rw [upon_yes ⟨ho, hp0⟩]; exact r1, ?_, ⟨r3.ptrs, fun c hcc => ?_, r3.apart⟩, r4, fun a ha => ?_⟩
        · rw [r5 0 fun j _ hx => by omega]
          exact f1.1
        · obtain ⟨k1, e, k2, k3, k4⟩ := r3.blocks c hcc
          refine ⟨k1, e, k2, k3, fun i hi => ?_⟩
          rw [k4 i hi]
          by_cases hx : c < oldchannels ∧ i < old
          · rw [if_pos (by omega), if_pos hx]
          · rw [if_neg (by omega), if_neg hx]
        · rw [r5 a fun j _ hx => by omega]
          exact hs a ha
    obtain ⟨h3, s1, s2, s3, s4⟩ := deallocateChannels_run r2 r4
    rw [bind_ok r1, upon_yes hp0, bind_ok s1]
    refine ⟨h3, rfl, ?_, s2, s3, fun a ha h1 h2 => ?_⟩
    · refine r3.frame (s4 _ (by omega) fun c hcc hx => ?_) fun j _ => s4 _ (by omega) fun c hcc hx => ?_
      · have := hga c hcc; omega
      · have := hga c hcc; omega
    · rw [s4 a h1 h2, r5 a ha]

/-- An exception, and all blocks that there were are as before. -/
def Kept (h : Heap α) (r : Option (Res α Nat)) : Prop := ∃ h', r = some (.thrown h') ∧ ∀ a b, h.block a = some b → h'.block a = some b

/-- New channels, which hold `f` where that is given; the old ones and the array of pointers to them are gone, and all other blocks are as before. -/
def MovedChannels (h : Heap α) (w p oldchannels channels count : Nat) (g : Nat → Nat) (f : Nat → Nat → Option (Cell α)) (r : Option (Res α Nat)) : Prop :=
  ∃ h' q g' f', r = some (.ok h' q) ∧ h.block q = none ∧ (∀ c < channels, h.block (g' c) = none) ∧ Channels h' w q channels count g' f' ∧ (∀ c < channels, ∀ i < count, ∀ x, f c i = some x → f' c i = x) ∧
    h'.block p = none ∧ (∀ c < oldchannels, h'.block (g c) = none) ∧ ∀ a b, h.block a = some b → a ≠ p → (∀ c < oldchannels, a ≠ g c) → h'.block a = some b

theorem fresh_below {h : Heap α} (hf : Fresh h) {a : Nat} {b : Block α} (hb : h.block a = some b) : a ≤ h.asked := by
  by_contra hx
  rw [hf.2 a (by omega)] at hb
  cases hb

/-- **C143**, `reallocate_channels`. -/
theorem C143_channels (sys : Sys) {w channels count : Nat} (hn : count * w < 2 ^ 64) (hc : channels * 8 < 2 ^ 64) {h : Heap α} (hf : Fresh h) {p oldchannels old : Nat} {g : Nat → Nat} {f : Nat → Nat → Cell α}
    (hg : GivenChannels h w p oldchannels old g f) :
    Kept h (reallocateChannels sys w p oldchannels old channels count h) ∨
      MovedChannels h w p oldchannels channels count g (fun c i => if c < oldchannels ∧ i < old then some (f c i) else none) (reallocateChannels sys w p oldchannels old channels count h) := by
  unfold reallocateChannels
  rcases channels_made (w := w) (count := count) (fun h => allocate_run sys hn h) sys hc (le_refl _) hf with ⟨h', e1, e2⟩ | ⟨h', e1, e2, e3, e4, e5⟩
  · exact Or.inl ⟨h', bind_thrown e1, fun a b hb => by rw [e2 a (fresh_below hf hb)]; exact hb⟩
  · obtain ⟨h2, r1, r2, r3, r4, r5⟩ := rechannel hf hg e2 e4 e5
    refine Or.inr ⟨h2, _, _, _, by unfold allocateChannels; rw [bind_ok e1]; exact r1, hf.2 _ (by omega), fun c _ => hf.2 _ (by omega), r2, fun c _ i _ x hx => ?_, r3, r4, fun a b hb h1 h2 => ?_⟩
    · by_cases hy : c < oldchannels ∧ i < old
      · simp only [hy, and_self, if_true, Option.some.injEq] at hx ⊢
        exact hx
      · simp [hy] at hx
    · rw [r5 a (fresh_below hf hb) h1 h2]
      exact hb

/-- **C143**, `reallocate_and_zero_extend_channels`: what there was is kept, as far as there is room, and the rest is zero. -/
theorem C143_extended (sys : Sys) (zero : α) {w channels count : Nat} (hn : count * w < 2 ^ 64) (hc : channels * 8 < 2 ^ 64) {h : Heap α} (hf : Fresh h) {p oldchannels old : Nat} {g : Nat → Nat}
    {f : Nat → Nat → Cell α} (hg : GivenChannels h w p oldchannels old g f) :
    Kept h (reallocateAndZeroExtendChannels sys zero w p oldchannels old channels count h) ∨
      MovedChannels h w p oldchannels channels count g (fun c i => some (if c < oldchannels ∧ i < old then f c i else .val zero)) (reallocateAndZeroExtendChannels sys zero w p oldchannels old channels count h) := by
  unfold reallocateAndZeroExtendChannels
  rcases channels_made (w := w) (count := count) (fun h => allocateAndZero_run sys zero hn h) sys hc (le_refl _) hf with ⟨h', e1, e2⟩ | ⟨h', e1, e2, e3, e4, e5⟩
  · exact Or.inl ⟨h', bind_thrown e1, fun a b hb => by rw [e2 a (fresh_below hf hb)]; exact hb⟩
  · obtain ⟨h2, r1, r2, r3, r4, r5⟩ := rechannel hf hg e2 e4 e5
    refine Or.inr ⟨h2, _, _, _, by unfold allocateAndZeroChannels; rw [bind_ok e1]; exact r1, hf.2 _ (by omega), fun c _ => hf.2 _ (by omega), r2, fun c _ i hi x hx => ?_, r3, r4, fun a b hb h1 h2 => ?_⟩
    · have hx := Option.some.inj hx
      by_cases hy : c < oldchannels ∧ i < old
      · rw [if_pos hy] at hx ⊢
        exact hx
      · rw [if_neg hy] at hx ⊢
        rw [← hx]
        unfold Block.over
        simp only
        rw [if_pos (by omega)]
    · rw [r5 a (fresh_below hf hb) h1 h2]
      exact hb

namespace Ex

/-- Two channels of three elements of four bytes, at the addresses 1, 2 and 3, and something else at 4. -/
def heap : Heap Nat where
  block a := match a with
    | 1 => some ⟨16, fun c => .ptr (c + 2)⟩
    | 2 => some ⟨12, fun i => .val (10 + i)⟩
    | 3 => some ⟨12, fun i => .val (20 + i)⟩
    | 4 => some ⟨100, fun _ => .raw⟩
    | _ => none
  asked := 4

theorem heap_fresh : Fresh heap := by
  refine ⟨rfl, fun a ha => ?_⟩
  have : 4 < a := ha
  show (match a with | 1 => _ | 2 => _ | 3 => _ | 4 => _ | _ => none) = none
  split <;> first | omega | rfl

theorem heap_channels : Channels heap 4 1 2 3 (· + 2) fun c i => .val (10 * (c + 1) + i) := by
  refine ⟨⟨_, rfl, by decide, fun c _ => rfl⟩, fun c hc => ?_, fun c _ c' _ h => by omega⟩
  rcases (by omega : c = 0 ∨ c = 1) with rfl | rfl
  · exact ⟨by decide, _, rfl, by decide, fun i _ => rfl⟩
  · exact ⟨by decide, _, rfl, by decide, fun i _ => rfl⟩

/-- All requests are met. -/
def plenty : Sys := fun _ _ => false

end Ex

/-- The hypotheses of `C143` and `C143_extended` are met: a channel, and both channels with the pointers to them. -/
example : Fresh Ex.heap ∧ Given Ex.heap 4 2 3 (fun i => .val (10 + i)) ∧ GivenChannels Ex.heap 4 1 2 3 (· + 2) (fun c i => .val (10 * (c + 1) + i)) :=
  ⟨Ex.heap_fresh, Or.inr ⟨_, rfl, by decide, fun _ _ => rfl⟩, Or.inr Ex.heap_channels⟩

/-- The value of an element of channel `c` after `reallocate_and_zero_extend_channels` from 2 channels of 3 to 3 channels of 4. -/
def Ex.after (c i : Nat) : Option Nat :=
  match reallocateAndZeroExtendChannels Ex.plenty 0 4 1 2 3 3 4 Ex.heap with
  | some (.ok h p) => match h.block p with
    | some d => match d.cells c with
      | .ptr a => match h.block a with
        | some e => match e.cells i with
          | .val x => some x
          | _ => none
        | none => none
      | _ => none
    | none => none
  | _ => none

example : (List.range 3).map (fun c => (List.range 4).map (Ex.after c)) = [[some 10, some 11, some 12, some 0], [some 20, some 21, some 22, some 0], [some 0, some 0, some 0, some 0]] := by decide +kernel

/-! ## C144 -/

/-- The calls that ask for memory. -/
inductive Request where
  | allocate (count : Nat)
  | allocateAndZero (count : Nat)
  | reallocate (p old count : Nat)
  | reallocateAndZero (p old count : Nat)
  | reallocateAndZeroExtension (p old count : Nat)
  | allocateChannels (channels count : Nat)
  | allocateAndZeroChannels (channels count : Nat)
  | reallocateChannels (p oldchannels old channels count : Nat)
  | reallocateAndZeroExtendChannels (p oldchannels old channels count : Nat)

/-- A call, for elements of `w` bytes. -/
def Request.run (sys : Sys) (zero : α) (w : Nat) : Request → M α Nat
  | .allocate n => Alloc.allocate sys w n
  | .allocateAndZero n => Alloc.allocateAndZero sys zero w n
  | .reallocate p o n => Alloc.reallocate sys w p o n
  | .reallocateAndZero p o n => Alloc.reallocateAndZero sys zero w p o n
  | .reallocateAndZeroExtension p o n => Alloc.reallocateAndZeroExtension sys zero w p o n
  | .allocateChannels c n => Alloc.allocateChannels sys w c n
  | .allocateAndZeroChannels c n => Alloc.allocateAndZeroChannels sys zero w c n
  | .reallocateChannels p oc o c n => Alloc.reallocateChannels sys w p oc o c n
  | .reallocateAndZeroExtendChannels p oc o c n => Alloc.reallocateAndZeroExtendChannels sys zero w p oc o c n

/-- The sizes do not exceed what `size_t` holds, and what is given to be reallocated is what there is. -/
def Request.Sound (h : Heap α) (w : Nat) : Request → Prop
  | .allocate n => n * w < 2 ^ 64
  | .allocateAndZero n => n * w < 2 ^ 64
  | .reallocate p o n => n * w < 2 ^ 64 ∧ ∃ f, Given h w p o f
  | .reallocateAndZero p o n => n * w < 2 ^ 64 ∧ ∃ f, Given h w p o f
  | .reallocateAndZeroExtension p o n => n * w < 2 ^ 64 ∧ ∃ f, Given h w p o f
  | .allocateChannels c n => n * w < 2 ^ 64 ∧ c * 8 < 2 ^ 64
  | .allocateAndZeroChannels c n => n * w < 2 ^ 64 ∧ c * 8 < 2 ^ 64
  | .reallocateChannels p oc o c n => n * w < 2 ^ 64 ∧ c * 8 < 2 ^ 64 ∧ ∃ g f, GivenChannels h w p oc o g f
  | .reallocateAndZeroExtendChannels p oc o c n => n * w < 2 ^ 64 ∧ c * 8 < 2 ^ 64 ∧ ∃ g f, GivenChannels h w p oc o g f

/-- Calls for one block. -/
def Request.single : Request → Prop
  | .allocate _ | .allocateAndZero _ | .reallocate _ _ _ | .reallocateAndZero _ _ _ | .reallocateAndZeroExtension _ _ _ => True
  | _ => False

/-- **C144**, as claimed: a call that ends with an exception because there is no memory leaves the blocks as they were, so nothing is lost and nothing stays behind. -/
def C144_statement : Prop := ∀ (sys : Sys) (w : Nat) (h h' : Heap Nat) (q : Request), Fresh h → q.Sound h w → q.run sys 0 w h = some (.thrown h') → ∀ a, h'.block a = h.block a

/-- The request with the number 2, for the second of two channels, fails: the first channel and the array of pointers stay behind, and nothing points to them any more. -/
theorem C144_violated : ¬ C144_statement := by
  intro hs
  have hr : ∃ h', (Request.allocateChannels 2 3).run (fun n _ => n == 2) 0 4 (⟨fun _ => none, 0⟩ : Heap Nat) = some (.thrown h') ∧ (h'.block 1).isSome = true := ⟨_, rfl, rfl⟩
  obtain ⟨h', h1, h2⟩ := hr
  have hq : (Request.allocateChannels 2 3).Sound (⟨fun _ => none, 0⟩ : Heap Nat) 4 := ⟨by norm_num, by norm_num⟩
  rw [hs _ _ _ _ _ ⟨rfl, fun _ _ => rfl⟩ hq h1 1] at h2
  cases h2

theorem moved_thrown {h h' : Heap α} {w p n : Nat} {f : Nat → Option (Cell α)} {r : Option (Res α Nat)} (hm : Moved h w p n f r) (hr : r = some (.thrown h')) : False := by
  obtain ⟨_, _, _, e, _⟩ := hm
  rw [hr] at e
  cases e

theorem movedChannels_thrown {h h' : Heap α} {w p oc c n : Nat} {g : Nat → Nat} {f : Nat → Nat → Option (Cell α)} {r : Option (Res α Nat)} (hm : MovedChannels h w p oc c n g f r) (hr : r = some (.thrown h')) : False := by
  obtain ⟨_, _, _, _, e, _⟩ := hm
  rw [hr] at e
  cases e

/-- **C144 (partial)**: with any call nothing that there was is lost; and with a call for one block nothing stays behind.  Missing: that with channels nothing stays behind, which is false. -/
theorem C144_partial (sys : Sys) (zero : α) {w : Nat} {h h' : Heap α} {q : Request} (hf : Fresh h) (hq : q.Sound h w) (hr : q.run sys zero w h = some (.thrown h')) :
    (∀ a b, h.block a = some b → h'.block a = some b) ∧ (q.single → ∀ a, h'.block a = h.block a) := by
  have one : (∀ a, h'.block a = h.block a) → (∀ a b, h.block a = some b → h'.block a = some b) ∧ (q.single → ∀ a, h'.block a = h.block a) := fun hx => ⟨fun a b hb => by rw [hx]; exact hb, fun _ => hx⟩
  have untouched : ∀ {r : Option (Res α Nat)}, Untouched h r → r = some (.thrown h') → ∀ a, h'.block a = h.block a := by
    rintro r ⟨h2, e, h3⟩ hx
    rw [hx] at e
    cases e
    exact h3
  have kept : ∀ {r : Option (Res α Nat)}, Kept h r → r = some (.thrown h') → ∀ a b, h.block a = some b → h'.block a = some b := by
    rintro r ⟨h2, e, h3⟩ hx
    rw [hx] at e
    cases e
    exact h3
  have made : ∀ {r : Option (Res α Nat)}, ((∃ h2, r = some (.thrown h2) ∧ ∀ a ≤ h.asked, h2.block a = h.block a) ∨ ∃ h2 : Heap α, ∃ p, r = some (.ok h2 p)) → r = some (.thrown h') →
      ∀ a b, h.block a = some b → h'.block a = some b := by
    rintro r (⟨h2, e, h3⟩ | ⟨h2, p, e⟩) hx
    · rw [hx] at e
      cases e
      intro a b hb
      rw [h3 a (fresh_below hf hb)]
      exact hb
    · rw [hx] at e
      cases e
  cases q with
  | allocate n =>
    refine one ?_
    rcases allocate_run sys hq h with e | e
    · exact untouched ⟨_, e, fun _ => rfl⟩ hr
    · rw [show (Request.allocate n).run sys zero w h = _ from e] at hr
      cases hr
  | allocateAndZero n =>
    refine one ?_
    rcases allocateAndZero_run sys zero hq h with e | e
    · exact untouched ⟨_, e, fun _ => rfl⟩ hr
    · rw [show (Request.allocateAndZero n).run sys zero w h = _ from e] at hr
      cases hr
  | reallocate p o n =>
    obtain ⟨hn, f, hg⟩ := hq
    rcases C143_reallocate sys hn hf hg with e | e
    · exact one (untouched e hr)
    · exact (moved_thrown e hr).elim
  | reallocateAndZero p o n =>
    obtain ⟨hn, f, hg⟩ := hq
    rcases C143_zero sys zero hn hf hg with e | e
    · exact one (untouched e hr)
    · exact (moved_thrown e hr).elim
  | reallocateAndZeroExtension p o n =>
    obtain ⟨hn, f, hg⟩ := hq
    rcases C143 sys zero hn hf hg with e | e
    · exact one (untouched e hr)
    · exact (moved_thrown e hr).elim
  | allocateChannels c n =>
    obtain ⟨hn, hc⟩ := hq
    refine ⟨made ?_ hr, fun hx => hx.elim⟩
    rcases channels_made (w := w) (count := n) (fun h => allocate_run sys hn h) sys hc (le_refl _) hf with e | ⟨h2, e, _⟩
    · exact Or.inl e
    · exact Or.inr ⟨h2, _, e⟩
  | allocateAndZeroChannels c n =>
    obtain ⟨hn, hc⟩ := hq
    refine ⟨made ?_ hr, fun hx => hx.elim⟩
    rcases channels_made (w := w) (count := n) (fun h => allocateAndZero_run sys zero hn h) sys hc (le_refl _) hf with e | ⟨h2, e, _⟩
    · exact Or.inl e
    · exact Or.inr ⟨h2, _, e⟩
  | reallocateChannels p oc o c n =>
    obtain ⟨hn, hc, g, f, hg⟩ := hq
    refine ⟨?_, fun hx => hx.elim⟩
    rcases C143_channels sys hn hc hf hg with e | e
    · exact kept e hr
    · exact (movedChannels_thrown e hr).elim
  | reallocateAndZeroExtendChannels p oc o c n =>
    obtain ⟨hn, hc, g, f, hg⟩ := hq
    refine ⟨?_, fun hx => hx.elim⟩
    rcases C143_extended sys zero hn hc hf hg with e | e
    · exact kept e hr
    · exact (movedChannels_thrown e hr).elim

/-- More room for a channel is refused. -/
example : (Request.reallocate 2 3 6).Sound Ex.heap 4 ∧ ∃ h', (Request.reallocate 2 3 6).run (fun _ n => n == 24) 0 4 Ex.heap = some (.thrown h') :=
  ⟨⟨by norm_num, fun i => .val (10 + i), Or.inr ⟨_, rfl, by decide, fun _ _ => rfl⟩⟩, _, rfl⟩

/-! ## C145 -/

/-- **C145**, as claimed: `allocate` either throws or gives a block with room for all the elements that were asked for, however many they are. -/
def C145_statement : Prop := ∀ (sys : Sys) (w count : Nat) (h : Heap Nat), Fresh h → 0 < w → count < 2 ^ 64 →
  (∃ h', allocate sys w count h = some (.thrown h')) ∨ ∃ h' p b, allocate sys w count h = some (.ok h' p) ∧ h'.block p = some b ∧ count * w ≤ b.bytes

/-- The number of bytes wraps around: for 2^62 + 1 elements of 4 bytes a block of 4 bytes is given. -/
theorem C145_violated : ¬ C145_statement := by
  intro hs
  have e : allocate (α := Nat) (fun _ _ => false) 4 (2 ^ 62 + 1) ⟨fun _ => none, 0⟩ = some (.ok ((⟨fun _ => none, 0⟩ : Heap Nat).grown ⟨4, fun _ => .raw⟩) 1) := rfl
  rcases hs (fun _ _ => false) 4 (2 ^ 62 + 1) ⟨fun _ => none, 0⟩ ⟨rfl, fun _ _ => rfl⟩ (by norm_num) (by norm_num) with ⟨h', h1⟩ | ⟨h', p, b, h1, h2, h3⟩
  · rw [e] at h1
    cases h1
  · rw [e] at h1
    cases h1
    rw [show ((⟨fun _ => none, 0⟩ : Heap Nat).grown ⟨4, fun _ => .raw⟩).block 1 = some ⟨4, fun _ => .raw⟩ from rfl] at h2
    cases h2
    norm_num at h3

/-- **C145 (partial)**: if the number of bytes is one that `size_t` can hold.  Missing: larger numbers of elements, for which it is false. -/
theorem C145_partial (sys : Sys) {w count : Nat} (hn : count * w < 2 ^ 64) (h : Heap α) :
    (∃ h', allocate sys w count h = some (.thrown h')) ∨ ∃ h' p b, allocate sys w count h = some (.ok h' p) ∧ p ≠ 0 ∧ h'.block p = some b ∧ count * w ≤ b.bytes := by
  rcases allocate_run sys hn h with e | e
  · exact Or.inl ⟨_, e⟩
  · exact Or.inr ⟨_, _, _, e, by omega, grown_new _ _, le_refl _⟩

/-- **C145**, of the allocator for the containers of the standard library: for any number of elements (for none, the null pointer). -/
theorem C145_stl (sys : Sys) {w n : Nat} (hw : 0 < w) (h : Heap α) :
    (∃ h', stlAllocate sys w n h = some (.thrown h')) ∨ ∃ h' p, stlAllocate sys w n h = some (.ok h' p) ∧ (n = 0 ∨ ∃ b, h'.block p = some b ∧ n * w ≤ b.bytes) := by
  unfold stlAllocate
  by_cases h0 : n = 0
  · rw [if_pos h0]
    exact Or.inr ⟨h, 0, rfl, Or.inl h0⟩
  · rw [if_neg h0]
    by_cases hx : n > (2 ^ 64 - 1) / w
    · rw [if_pos hx]
      exact Or.inl ⟨h, rfl⟩
    · rw [if_neg hx]
      have hn : n * w ≤ 2 ^ 64 - 1 := (Nat.le_div_iff_mul_le hw).mp (by omega)
      rcases C145_partial sys (show n * w < 2 ^ 64 by omega) h with e | ⟨h', p, b, e, _, e1, e2⟩
      · exact Or.inl e
      · exact Or.inr ⟨h', p, e, Or.inr ⟨b, e1, e2⟩⟩

theorem lower_eq : ∀ (f a : Nat), a % 64 ≤ f → lower f a = a - a % 64 := by
  intro f
  induction f with
  | zero => intro a ha; unfold lower; omega
  | succ f ih =>
    intro a ha
    unfold lower
    by_cases h : a % 64 = 0
    · rw [if_neg (by omega), h]
      rfl
    · rw [if_pos h, ih (a - 1) (by omega)]
      omega

/-- **C145**, of the aligned allocation of its own: if `malloc` aligns to the size of a pointer and the number of bytes is one that `size_t` can hold, what is returned is a multiple of 64, there is room from there on
for all the elements, and the place where the address for `free` is kept is in the block as well, before the first element. -/
theorem C145_own {buf w count : Nat} (hb : buf % 8 = 0) (hn : count * w + 64 < 2 ^ 64) :
    ownPointer buf % 64 = 0 ∧ buf ≤ ownSlot (ownPointer buf) ∧ ownSlot (ownPointer buf) + 8 ≤ ownPointer buf ∧ ownPointer buf + count * w ≤ buf + ownSize w count := by
  have e1 : ownPointer buf = buf - buf % 64 + 64 := by
    unfold ownPointer
    rw [lower_eq 64 buf (by omega)]
  have e2 : ownSize w count = count * w + 64 := by
    unfold ownSize size
    rw [Nat.mod_eq_of_lt (show count * w < 2 ^ 64 by omega), Nat.mod_eq_of_lt hn]
  unfold ownSlot
  rw [e1, e2]
  omega

example : ownPointer 1000 = 1024 ∧ ownSlot 1024 = 1016 ∧ ownSize 4 100 = 464 := by decide +kernel

end Verif.Alloc
