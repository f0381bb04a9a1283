import Verif.Alloc
/-!
# Lemmas about the allocators
-/
namespace Verif.Alloc

variable {α β γ : Type}

/-- No block has a number that no request has had. -/
def Fresh (h : Heap α) : Prop := h.block 0 = none ∧ ∀ a, h.asked < a → h.block a = none

theorem bind_ok {m : M α β} {f : β → M α γ} {h h' : Heap α} {b : β} (e : m h = some (.ok h' b)) : (m >>= f) h = f b h' := by
  show M.andThen m f h = _
  unfold M.andThen
  rw [e]

theorem bind_thrown {m : M α β} {f : β → M α γ} {h h' : Heap α} (e : m h = some (.thrown h')) : (m >>= f) h = some (.thrown h') := by
  show M.andThen m f h = _
  unfold M.andThen
  rw [e]

theorem upon_yes {b : Prop} [Decidable b] (hb : b) (m : M α Unit) : upon b m = m := if_pos hb

theorem upon_no {b : Prop} [Decidable b] (hb : ¬ b) (m : M α Unit) : upon b m = pure () := if_neg hb

theorem pure_run (b : β) (h : Heap α) : (pure b : M α β) h = some (.ok h b) := rfl

theorem Heap.set_same (h : Heap α) (a : Nat) (b : Option (Block α)) : (h.set a b).block a = b := if_pos rfl

theorem Heap.set_other (h : Heap α) {a i : Nat} (b : Option (Block α)) (hi : i ≠ a) : (h.set a b).block i = h.block i := if_neg hi

theorem Heap.set_set (h : Heap α) (a : Nat) (b c : Option (Block α)) : (h.set a b).set a c = h.set a c := by
  unfold Heap.set
  simp only [Heap.mk.injEq, and_true]
  funext i
  by_cases hi : i = a <;> simp [hi]

theorem Heap.set_self {h : Heap α} {a : Nat} {b : Option (Block α)} (e : h.block a = b) : h.set a b = h := by
  unfold Heap.set
  cases h
  simp only [Heap.mk.injEq, and_true]
  funext i
  by_cases hi : i = a
  · subst hi
    simpa using e.symm
  · simp [hi]

/-- The heap after a request that is met. -/
def Heap.grown (h : Heap α) (b : Block α) : Heap α := { (h.set (h.asked + 1) (some b)) with asked := h.asked + 1 }

/-- The heap after a request that is not met. -/
def Heap.denied (h : Heap α) : Heap α := { h with asked := h.asked + 1 }

theorem allocate_run (sys : Sys) {w count : Nat} (hn : count * w < 2 ^ 64) (h : Heap α) :
    allocate sys w count h = some (.thrown h.denied) ∨ allocate sys w count h = some (.ok (h.grown ⟨count * w, fun _ => .raw⟩) (h.asked + 1)) := by
  have e : size (count * w) = count * w := Nat.mod_eq_of_lt hn
  unfold allocate
  rw [e]
  by_cases hs : sys h.asked (count * w) = true
  · left
    rw [bind_ok (h' := h.denied) (b := 0) (by unfold malloc; rw [if_pos hs]; rfl)]
    rfl
  · right
    rw [bind_ok (h' := h.grown ⟨count * w, fun _ => .raw⟩) (b := h.asked + 1) (by unfold malloc; rw [if_neg hs]; rfl)]
    rw [if_neg (by omega)]
    rfl

theorem write_run {w p i : Nat} {c : Cell α} {h : Heap α} {b : Block α} (hb : h.block p = some b) (hi : (i + 1) * w ≤ b.bytes) :
    write w p i c h = some (.ok (h.set p (some { b with cells := fun j => if j = i then c else b.cells j })) ()) := by
  unfold write
  rw [hb]
  simp only [hi, if_true]

theorem peek_run {w p i : Nat} {h : Heap α} {b : Block α} (hb : h.block p = some b) (hi : (i + 1) * w ≤ b.bytes) : peek w p i h = some (.ok h (b.cells i)) := by
  unfold peek
  rw [hb]
  simp only [hi, if_true]

theorem follow_run {p i a : Nat} {h : Heap α} {b : Block α} (hb : h.block p = some b) (hi : (i + 1) * 8 ≤ b.bytes) (ha : b.cells i = .ptr a) : follow p i h = some (.ok h a) := by
  unfold follow
  rw [bind_ok (peek_run hb hi), ha]
  rfl

/-- A block with the elements from `i` up to `k` replaced. -/
def Block.over (b : Block α) (i k : Nat) (f : Nat → Cell α) : Block α := { b with cells := fun j => if i ≤ j ∧ j < k then f j else b.cells j }

theorem over_none (b : Block α) (i : Nat) (f : Nat → Cell α) : b.over i i f = b := by
  unfold Block.over
  cases b
  simp only [Block.mk.injEq, true_and]
  funext j
  rw [if_neg (by omega)]

theorem over_step (b : Block α) (i n : Nat) (f : Nat → Cell α) : ({ b with cells := fun j => if j = i then f i else b.cells j } : Block α).over (i + 1) (i + 1 + n) f = b.over i (i + (n + 1)) f := by
  unfold Block.over
  simp only [Block.mk.injEq, true_and]
  funext j
  by_cases h1 : j = i
  · subst h1
    rw [if_neg (by omega), if_pos rfl, if_pos (by omega)]
  · by_cases h2 : i ≤ j ∧ j < i + (n + 1)
    · rw [if_pos (by omega), if_pos h2]
    · rw [if_neg (by omega), if_neg h1, if_neg h2]

theorem fill_run (w p : Nat) (c : Cell α) : ∀ (n i : Nat) {h : Heap α} {b : Block α}, h.block p = some b → (i + n) * w ≤ b.bytes → fill w p c i n h = some (.ok (h.set p (some (b.over i (i + n) fun _ => c))) ()) := by
  intro n
  induction n with
  | zero => intro i h b hb _; rw [Nat.add_zero, over_none, Heap.set_self hb]; rfl
  | succ n ih =>
    intro i h b hb hn
    unfold fill
    rw [bind_ok (write_run hb (by have := Nat.mul_le_mul_right w (show i + 1 ≤ i + (n + 1) by omega); omega)),
      ih (i + 1) (b := { b with cells := fun j => if j = i then c else b.cells j }) (Heap.set_same _ _ _) (by rw [show i + 1 + n = i + (n + 1) by omega]; exact hn), Heap.set_set,
      over_step b i n fun _ => c]

theorem copy_run {w q p : Nat} (hqp : q ≠ p) {d : Block α} : ∀ (n i : Nat) {h : Heap α} {b : Block α}, h.block q = some b → h.block p = some d → (i + n) * w ≤ b.bytes → (i + n) * w ≤ d.bytes →
    copy w q p i n h = some (.ok (h.set q (some (b.over i (i + n) d.cells))) ()) := by
  intro n
  induction n with
  | zero => intro i h b hb _ _ _; rw [Nat.add_zero, over_none, Heap.set_self hb]; rfl
  | succ n ih =>
    intro i h b hb hd h1 h2
    have h3 := Nat.mul_le_mul_right w (show i + 1 ≤ i + (n + 1) by omega)
    unfold copy
    rw [bind_ok (peek_run hd (by omega)), bind_ok (write_run hb (by omega)),
      ih (i + 1) (b := { b with cells := fun j => if j = i then d.cells i else b.cells j }) (Heap.set_same _ _ _) (by rw [Heap.set_other _ _ hqp.symm]; exact hd)
        (by rw [show i + 1 + n = i + (n + 1) by omega]; exact h1) (by rw [show i + 1 + n = i + (n + 1) by omega]; exact h2), Heap.set_set, over_step b i n d.cells]

theorem deallocate_run {p : Nat} (hp : p ≠ 0) {h : Heap α} {b : Block α} (hb : h.block p = some b) : deallocate p h = some (.ok (h.set p none) ()) := by
  unfold deallocate
  rw [if_neg hp, hb]

theorem grown_new (h : Heap α) (b : Block α) : (h.grown b).block (h.asked + 1) = some b := Heap.set_same _ _ _

theorem grown_old (h : Heap α) (b : Block α) {a : Nat} (ha : a ≠ h.asked + 1) : (h.grown b).block a = h.block a := Heap.set_other _ _ ha

theorem grown_fresh {h : Heap α} (hf : Fresh h) (b : Block α) : Fresh (h.grown b) :=
  ⟨by rw [grown_old _ _ (by omega)]; exact hf.1, fun a ha => by
    have : h.asked + 1 < a := ha
    rw [grown_old _ _ (by omega)]
    exact hf.2 a (by omega)⟩

theorem denied_fresh {h : Heap α} (hf : Fresh h) : Fresh h.denied := ⟨hf.1, fun a ha => hf.2 a (by have : h.asked + 1 < a := ha; omega)⟩

theorem set_fresh {h : Heap α} (hf : Fresh h) {a : Nat} (b : Option (Block α)) (ha : h.block a ≠ none) : Fresh (h.set a b) := by
  have h0 : a ≠ 0 := by rintro rfl; exact ha hf.1
  have h1 : a ≤ h.asked := by
    by_contra hn
    exact ha (hf.2 a (by omega))
  exact ⟨by rw [Heap.set_other _ _ h0.symm]; exact hf.1, fun i hi => by
    have : h.asked < i := hi
    rw [Heap.set_other _ _ (by omega)]
    exact hf.2 i this⟩

theorem allocateAndZero_run (sys : Sys) (zero : α) {w count : Nat} (hn : count * w < 2 ^ 64) (h : Heap α) :
    allocateAndZero sys zero w count h = some (.thrown h.denied) ∨
      allocateAndZero sys zero w count h = some (.ok (h.grown ((⟨count * w, fun _ => .raw⟩ : Block α).over 0 count fun _ => .val zero)) (h.asked + 1)) := by
  unfold allocateAndZero
  rcases allocate_run sys hn h with e | e
  · left
    rw [bind_thrown e]
  · right
    rw [bind_ok e, bind_ok (fill_run w _ (.val zero) count 0 (grown_new _ _) (by simp)), pure_run, Nat.zero_add]
    congr 2
    unfold Heap.grown Heap.set
    simp only [Heap.mk.injEq, and_true]
    funext i
    by_cases hi : i = h.asked + 1 <;> simp [hi]

/-! ### Channels -/

/-- At `p` are pointers to the blocks of the channels, `g` gives their addresses and `f` what they hold. -/
structure Channels (h : Heap α) (w p channels count : Nat) (g : Nat → Nat) (f : Nat → Nat → Cell α) : Prop where
  ptrs : ∃ d, h.block p = some d ∧ channels * 8 ≤ d.bytes ∧ ∀ c < channels, d.cells c = .ptr (g c)
  blocks : ∀ c < channels, g c ≠ p ∧ ∃ e, h.block (g c) = some e ∧ count * w ≤ e.bytes ∧ ∀ i < count, e.cells i = f c i
  apart : ∀ c < channels, ∀ c' < channels, g c = g c' → c = c'

theorem Channels.frame {h h' : Heap α} {w p channels count : Nat} {g : Nat → Nat} {f : Nat → Nat → Cell α} (hc : Channels h w p channels count g f) (hp : h'.block p = h.block p)
    (hg : ∀ c < channels, h'.block (g c) = h.block (g c)) : Channels h' w p channels count g f :=
  ⟨by rw [hp]; exact hc.ptrs, fun c hcc => by rw [hg c hcc]; exact hc.blocks c hcc, hc.apart⟩

theorem channelLoop_run {make : M α Nat} {b0 : Block α} (hmake : ∀ h, make h = some (.thrown h.denied) ∨ make h = some (.ok (h.grown b0) (h.asked + 1))) {p : Nat} :
    ∀ (n c : Nat) {h : Heap α} {d : Block α}, Fresh h → h.block p = some d → (c + n) * 8 ≤ d.bytes →
      (∃ h', channelLoop make p c n h = some (.thrown h') ∧ ∀ a ≤ h.asked, a ≠ p → h'.block a = h.block a) ∨
      ∃ h', channelLoop make p c n h = some (.ok h' ()) ∧ Fresh h' ∧ h'.asked = h.asked + n ∧ h'.block p = some (d.over c (c + n) fun j => .ptr (h.asked + 1 + (j - c))) ∧
        (∀ k < n, h'.block (h.asked + 1 + k) = some b0) ∧ ∀ a ≤ h.asked, a ≠ p → h'.block a = h.block a := by
  intro n
  induction n with
  | zero =>
    intro c h d hf hd _
    exact Or.inr ⟨h, rfl, hf, rfl, by rw [Nat.add_zero, over_none]; exact hd, fun k hk => absurd hk (by omega), fun _ _ _ => rfl⟩
  | succ n ih =>
    intro c h d hf hd hn
    have hpa : p ≤ h.asked := by
      by_contra hx
      rw [hf.2 p (by omega)] at hd
      cases hd
    unfold channelLoop
    rcases hmake h with e | e
    · left
      exact ⟨h.denied, bind_thrown e, fun _ _ _ => rfl⟩
    · have hp1 : (h.grown b0).block p = some d := by rw [grown_old _ _ (by omega)]; exact hd
      have hw := write_run (w := 8) (c := Cell.ptr (h.asked + 1)) hp1 (i := c) (by omega)
      rw [bind_ok e, bind_ok hw]
      obtain ⟨d2, ed⟩ : ∃ d2 : Block α, d2 = { d with cells := fun j => if j = c then .ptr (h.asked + 1) else d.cells j } := ⟨_, rfl⟩
      rw [← ed]
      have hd2 : ((h.grown b0).set p (some d2)).block p = some d2 := Heap.set_same _ _ _
      have hf2 := set_fresh (grown_fresh hf b0) (a := p) (some d2) (by rw [hp1]; simp)
      have hold : ∀ a ≤ h.asked, a ≠ p → ((h.grown b0).set p (some d2)).block a = h.block a := by
        intro a ha hap
        rw [Heap.set_other _ _ hap, grown_old _ _ (by omega)]
      have hnew : ((h.grown b0).set p (some d2)).block (h.asked + 1) = some b0 := by
        rw [Heap.set_other _ _ (by omega)]
        exact grown_new _ _
      have hasked : ((h.grown b0).set p (some d2)).asked = h.asked + 1 := rfl
      generalize (h.grown b0).set p (some d2) = h2 at hd2 hf2 hold hasked hnew ⊢
      rcases ih (c + 1) hf2 hd2 (by rw [ed]; show (c + 1 + n) * 8 ≤ d.bytes; omega) with ⟨h', e1, e2⟩ | ⟨h', e1, e2, e3, e4, e5, e6⟩
      · left
        exact ⟨h', e1, fun a ha hap => (e2 a (by omega) hap).trans (hold a ha hap)⟩
      · right
        refine ⟨h', e1, e2, by omega, ?_, ?_, fun a ha hap => (e6 a (by omega) hap).trans (hold a ha hap)⟩
        · rw [e4, hasked, ed]
          have := over_step d c n fun j => .ptr (h.asked + 1 + (j - c))
          simp only [Nat.sub_self, Nat.add_zero] at this
          rw [← this]
          unfold Block.over
          simp only [Option.some.injEq, Block.mk.injEq, true_and]
          funext j
          by_cases hj : c + 1 ≤ j ∧ j < c + 1 + n
          · rw [if_pos hj, if_pos hj]
            congr 1
            omega
          · rw [if_neg hj, if_neg hj]
        · intro k hk
          cases k with
          | zero => rw [Nat.add_zero, e6 _ (by omega) (by omega)]; exact hnew
          | succ k =>
            have := e5 k (by omega)
            rw [hasked] at this
            rw [show h.asked + 1 + (k + 1) = h.asked + 1 + 1 + k by omega]
            exact this

theorem channels_made {make : M α Nat} {b0 : Block α} (hmake : ∀ h, make h = some (.thrown h.denied) ∨ make h = some (.ok (h.grown b0) (h.asked + 1))) (sys : Sys) {w channels count : Nat}
    (hn : channels * 8 < 2 ^ 64) (hb : count * w ≤ b0.bytes) {h : Heap α} (hf : Fresh h) :
    (∃ h', (do let p ← allocate sys 8 channels; channelLoop make p 0 channels; pure p : M α Nat) h = some (.thrown h') ∧ ∀ a ≤ h.asked, h'.block a = h.block a) ∨
    ∃ h', (do let p ← allocate sys 8 channels; channelLoop make p 0 channels; pure p : M α Nat) h = some (.ok h' (h.asked + 1)) ∧ Fresh h' ∧ h'.asked = h.asked + 1 + channels ∧
      Channels h' w (h.asked + 1) channels count (fun c => h.asked + 2 + c) (fun _ i => b0.cells i) ∧ ∀ a ≤ h.asked, h'.block a = h.block a := by
  rcases allocate_run sys hn h with e | e
  · left
    exact ⟨h.denied, bind_thrown e, fun _ _ => rfl⟩
  · rw [bind_ok e]
    rcases channelLoop_run hmake channels 0 (grown_fresh hf ⟨channels * 8, fun _ => .raw⟩) (grown_new _ _) (by simp) with ⟨h', e1, e2⟩ | ⟨h', e1, e2, e3, e4, e5, e6⟩
    · left
      rw [bind_thrown e1]
      refine ⟨h', rfl, fun a ha => ?_⟩
      rw [e2 a (show a ≤ h.asked + 1 by omega) (by omega), grown_old _ _ (by omega)]
    · right
      rw [bind_ok e1]
      refine ⟨h', rfl, e2, e3, ⟨⟨_, e4, le_refl _, fun c hc => ?_⟩, fun c hc => ⟨by omega, b0, ?_, hb, fun _ _ => rfl⟩, fun c _ c' _ hcc => by omega⟩, fun a ha => ?_⟩
      · unfold Block.over
        simp only
        rw [if_pos (by omega)]
        congr 1
      · have := e5 c hc
        rw [show h.asked + 2 + c = h.asked + 1 + 1 + c by omega]
        exact this
      · rw [e6 a (show a ≤ h.asked + 1 by omega) (by omega), grown_old _ _ (by omega)]

theorem copyLoop_run {w q p m channels count oldchannels old : Nat} (hm1 : m ≤ count) (hm2 : m ≤ old) {gq gp : Nat → Nat} {fp : Nat → Nat → Cell α} (hqg : ∀ c < channels, gq c ≠ p)
    (hgg : ∀ c < channels, ∀ c' < oldchannels, gq c ≠ gp c') :
    ∀ (n c : Nat) {h : Heap α} {fq : Nat → Nat → Cell α}, Channels h w q channels count gq fq → Channels h w p oldchannels old gp fp → c + n ≤ channels → c + n ≤ oldchannels →
      ∃ h', copyLoop w q p m c n h = some (.ok h' ()) ∧ h'.asked = h.asked ∧ Channels h' w q channels count gq (fun j i => if c ≤ j ∧ j < c + n ∧ i < m then fp j i else fq j i) ∧
        Channels h' w p oldchannels old gp fp ∧ ∀ a, (∀ j < channels, a ≠ gq j) → h'.block a = h.block a := by
  intro n
  induction n with
  | zero =>
    intro c h fq hq hp _ _
    refine ⟨h, rfl, rfl, ?_, hp, fun _ _ => rfl⟩
    have : (fun j i => if c ≤ j ∧ j < c + 0 ∧ i < m then fp j i else fq j i) = fq := by
      funext j i
      rw [if_neg (by omega)]
    rw [this]
    exact hq
  | succ n ih =>
    intro c h fq hq hp h1 h2
    obtain ⟨d, d1, d2, d3⟩ := hq.ptrs
    obtain ⟨d', d1', d2', d3'⟩ := hp.ptrs
    obtain ⟨k1, e, k2, k3, k4⟩ := hq.blocks c (by omega)
    obtain ⟨k1', e', k2', k3', k4'⟩ := hp.blocks c (by omega)
    have w1 := Nat.mul_le_mul_right w hm1
    have w2 := Nat.mul_le_mul_right w hm2
    have hcopy := copy_run (w := w) (hgg c (by omega) c (by omega)) m 0 k2 k2' (by rw [Nat.zero_add]; omega) (by rw [Nat.zero_add]; omega)
    rw [Nat.zero_add] at hcopy
    unfold copyLoop
    rw [bind_ok (follow_run d1 (by omega) (d3 c (by omega))), bind_ok (follow_run d1' (by omega) (d3' c (by omega))), bind_ok hcopy]
    have hp' : Channels (h.set (gq c) (some (e.over 0 m e'.cells))) w p oldchannels old gp fp :=
      hp.frame (Heap.set_other _ _ (hqg c (by omega)).symm) fun j hj => Heap.set_other _ _ (hgg c (by omega) j hj).symm
    have hq' : Channels (h.set (gq c) (some (e.over 0 m e'.cells))) w q channels count gq (fun j i => if j = c ∧ i < m then fp j i else fq j i) := by
      refine ⟨⟨d, by rw [Heap.set_other _ _ k1.symm]; exact d1, d2, d3⟩, fun j hj => ?_, hq.apart⟩
      obtain ⟨l1, e2, l2, l3, l4⟩ := hq.blocks j hj
      by_cases hjc : j = c
      · subst hjc
        refine ⟨l1, _, Heap.set_same _ _ _, k3, fun i hi => ?_⟩
        unfold Block.over
        simp only
        by_cases him : i < m
        · rw [if_pos (by omega), if_pos ⟨trivial, him⟩]
          exact k4' i (by omega)
        · rw [if_neg (by omega), if_neg (by omega)]
          exact k4 i hi
      · refine ⟨l1, e2, ?_, l3, fun i hi => ?_⟩
        · rw [Heap.set_other _ _ fun hx => hjc (hq.apart j hj c (by omega) hx)]
          exact l2
        · rw [if_neg (fun hx => hjc hx.1)]
          exact l4 i hi
    obtain ⟨h', r1, r2, r3, r4, r5⟩ := ih (c + 1) hq' hp' (by omega) (by omega)
    refine ⟨h', r1, r2, ?_, r4, fun a ha => ?_⟩
    · have : (fun j i => if c + 1 ≤ j ∧ j < c + 1 + n ∧ i < m then fp j i else if j = c ∧ i < m then fp j i else fq j i) = fun j i => if c ≤ j ∧ j < c + (n + 1) ∧ i < m then fp j i else fq j i := by
        funext j i
        by_cases hx : c ≤ j ∧ j < c + (n + 1) ∧ i < m
        · rw [if_pos hx]
          by_cases hj : j = c
          · rw [if_neg (by omega), if_pos ⟨hj, hx.2.2⟩]
          · rw [if_pos (by omega)]
        · rw [if_neg hx, if_neg (by omega), if_neg (by omega)]
      rw [this] at r3
      exact r3
    · rw [r5 a ha, Heap.set_other _ _ (ha c (by omega))]

theorem freeLoop_run {p oldchannels : Nat} {g : Nat → Nat} {d : Block α} (hd2 : oldchannels * 8 ≤ d.bytes) (hd3 : ∀ c < oldchannels, d.cells c = .ptr (g c)) (hg0 : ∀ c < oldchannels, g c ≠ 0 ∧ g c ≠ p)
    (apart : ∀ c < oldchannels, ∀ c' < oldchannels, g c = g c' → c = c') :
    ∀ (n c : Nat) {h : Heap α}, h.block p = some d → c + n ≤ oldchannels → (∀ j, c ≤ j → j < c + n → h.block (g j) ≠ none) →
      ∃ h', freeLoop p c n h = some (.ok h' ()) ∧ h'.asked = h.asked ∧ (∀ j, c ≤ j → j < c + n → h'.block (g j) = none) ∧ ∀ a, (∀ j, c ≤ j → j < c + n → a ≠ g j) → h'.block a = h.block a := by
  intro n
  induction n with
  | zero => intro c h _ _ _; exact ⟨h, rfl, rfl, fun j h1 h2 => absurd h1 (by omega), fun _ _ => rfl⟩
  | succ n ih =>
    intro c h hd hn hb
    obtain ⟨e, he⟩ := Option.ne_none_iff_exists'.mp (hb c (le_refl _) (by omega))
    obtain ⟨g0, gp⟩ := hg0 c (by omega)
    unfold freeLoop
    rw [bind_ok (follow_run hd (by omega) (hd3 c (by omega))), bind_ok (deallocate_run g0 he)]
    obtain ⟨h', r1, r2, r3, r4⟩ := ih (c + 1) (h := h.set (g c) none) (by rw [Heap.set_other _ _ gp.symm]; exact hd) (by omega) (fun j j1 j2 => by
      rw [Heap.set_other _ _ fun hx => absurd (apart j (by omega) c (by omega) hx) (by omega)]
      exact hb j (by omega) (by omega))
    refine ⟨h', r1, r2, fun j j1 j2 => ?_, fun a ha => ?_⟩
    · by_cases hj : j = c
      · subst hj
        rw [r4 _ fun k k1 k2 hx => absurd (apart j (by omega) k (by omega) hx) (by omega)]
        exact Heap.set_same _ _ _
      · exact r3 j (by omega) (by omega)
    · rw [r4 a fun j j1 j2 => ha j (by omega) (by omega), Heap.set_other _ _ (ha c (le_refl _) (by omega))]

theorem deallocateChannels_run {w p oldchannels old : Nat} {g : Nat → Nat} {f : Nat → Nat → Cell α} {h : Heap α} (h0 : h.block 0 = none) (hc : Channels h w p oldchannels old g f) :
    ∃ h', deallocateChannels p oldchannels h = some (.ok h' ()) ∧ h'.block p = none ∧ (∀ c < oldchannels, h'.block (g c) = none) ∧ ∀ a, a ≠ p → (∀ c < oldchannels, a ≠ g c) → h'.block a = h.block a := by
  obtain ⟨d, d1, d2, d3⟩ := hc.ptrs
  have hp0 : p ≠ 0 := by rintro rfl; rw [h0] at d1; cases d1
  have hg : ∀ c < oldchannels, g c ≠ 0 ∧ g c ≠ p := by
    intro c hcc
    obtain ⟨k1, e, k2, _⟩ := hc.blocks c hcc
    refine ⟨fun hx => ?_, k1⟩
    rw [hx, h0] at k2
    cases k2
  obtain ⟨h', r1, r2, r3, r4⟩ := freeLoop_run d2 d3 hg hc.apart oldchannels 0 d1 (by omega) (fun j _ j2 => by
    obtain ⟨_, e, k2, _⟩ := hc.blocks j (by omega)
    rw [k2]; simp)
  have hp' : h'.block p = some d := by rw [r4 p fun j _ j2 hx => (hg j (by omega)).2 hx.symm]; exact d1
  refine ⟨h'.set p none, ?_, Heap.set_same _ _ _, fun c hcc => ?_, fun a ha hac => ?_⟩
  · unfold deallocateChannels
    rw [if_neg hp0, bind_ok r1, deallocate_run hp0 hp']
  · rw [Heap.set_other _ _ (hg c hcc).2]
    exact r3 c (by omega) (by omega)
  · rw [Heap.set_other _ _ ha]
    exact r4 a fun j _ j2 => hac j (by omega)

end Verif.Alloc
