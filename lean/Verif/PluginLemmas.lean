import Verif.Plugin
/-!
# Facts about the plugins
-/
namespace Verif.Plugin

variable {σ ρ K : Type}

/-! ## Memory -/

theorem fold_edit (q : Nat → Nat) (g : Nat → List K → List K) (m : Mem K) : ∀ (k : Nat), (∀ a, a < k → ∀ b, b < k → q a = q b → a = b) →
    (∀ c, c < k → (List.range k).foldl (fun m c => edit m (q c) (g c)) m (q c) = g c (m (q c))) ∧
      ∀ p, (∀ c, c < k → q c ≠ p) → (List.range k).foldl (fun m c => edit m (q c) (g c)) m p = m p := by
  intro k
  induction k with
  | zero => intro _; exact ⟨fun c h => by omega, fun p _ => rfl⟩
  | succ k ih =>
    intro hq
    obtain ⟨i1, i2⟩ := ih fun a ha b hb => hq a (by omega) b (by omega)
    rw [List.range_succ]
    simp only [List.foldl_append, List.foldl_cons, List.foldl_nil]
    refine ⟨?_, ?_⟩
    · intro c hc
      by_cases h : c = k
      · subst h
        unfold edit
        rw [if_pos rfl]
        congr 1
        exact i2 _ fun d hd e => by have := hq d (by omega) c (by omega) e; omega
      · unfold edit
        rw [if_neg (fun e => h (hq c hc k (by omega) e))]
        exact i1 c (by omega)
    · intro p hp
      unfold edit
      rw [if_neg (fun e => hp k (by omega) e.symm)]
      exact i2 p fun c hc => hp c (by omega)

theorem overwrite_length {off : Nat} {xs l : List K} (h : off + xs.length ≤ l.length) : (overwrite off xs l).length = l.length := by
  unfold overwrite
  simp
  omega

theorem overwrite_take {off : Nat} {xs l : List K} (h : off + xs.length ≤ l.length) : (overwrite off xs l).take off = l.take off := by
  unfold overwrite
  rw [List.append_assoc, List.take_append_of_le_length (by rw [List.length_take]; omega), List.take_take, Nat.min_self]

theorem overwrite_drop {off k : Nat} {xs l : List K} (h : off + xs.length ≤ l.length) (hk : off + xs.length ≤ k) : (overwrite off xs l).drop k = l.drop k := by
  unfold overwrite
  rw [List.drop_append, List.drop_of_length_le (by simp; omega), List.nil_append, List.drop_drop]
  congr 1
  simp
  omega

theorem overwrite_slice {off : Nat} {xs l : List K} (h : off + xs.length ≤ l.length) : ((overwrite off xs l).drop off).take xs.length = xs := by
  unfold overwrite
  rw [List.append_assoc, List.drop_append, List.drop_of_length_le (by simp), List.nil_append, List.length_take, show off - min off l.length = 0 by omega, List.drop_zero,
    List.take_append_of_le_length le_rfl, List.take_length]

/-- The same from an offset on. -/
def Agree (off : Nat) (m m₀ : Mem K) : Prop := ∀ p, (m p).drop off = (m₀ p).drop off ∧ (m p).length = (m₀ p).length

theorem Agree.later {a b : Nat} {m m₀ : Mem K} (h : Agree a m m₀) (hab : a ≤ b) : Agree b m m₀ := by
  intro p
  refine ⟨?_, (h p).2⟩
  have e : ∀ l : List K, l.drop b = (l.drop a).drop (b - a) := by
    intro l
    rw [List.drop_drop]
    congr 1
    omega
  rw [e, e, (h p).1]

theorem chunk_agree {a b n : Nat} {m m₀ : Mem K} (h : Agree a m m₀) (hab : a ≤ b) (p : Ports ρ K) : chunk m p b n = chunk m₀ p b n := by
  funext c
  unfold chunk
  rw [((h.later hab) _).1]

theorem chunk_append (m : Mem K) (p : Ports ρ K) (b i j c : Nat) : chunk m p b i c ++ chunk m p (b + i) j c = chunk m p b (i + j) c := by
  unfold chunk
  rw [List.take_add, List.drop_drop]

/-! ## Settings -/

/-- What the settings leave alone. -/
structure Kept (s s' : Shifter σ ρ K) : Prop where
  channels : s'.channels = s.channels
  outputBuffer : s'.outputBuffer = s.outputBuffer
  delayMix : s'.delayMix = s.delayMix
  overruns : s'.overruns = s.overruns
  underruns : s'.underruns = s.underruns

/-- The settings at the beginning of a block. -/
def settings [DecidableEq ρ] (E : Engine σ ρ K) (p : Ports ρ K) (s : Shifter σ ρ K) : Shifter σ ρ K := updateFormant E p (updateCrispness E p (updateRatio E p s))

theorem settings_kept [DecidableEq ρ] (E : Engine σ ρ K) (p : Ports ρ K) (s : Shifter σ ρ K) : Kept s (settings E p s) := by
  have k1 : Kept s (updateRatio E p s) := by unfold updateRatio; split <;> exact ⟨rfl, rfl, rfl, rfl, rfl⟩
  have k2 : ∀ s, Kept s (updateCrispness E p s) := by intro s; unfold updateCrispness; split <;> (try split) <;> (try split) <;> exact ⟨rfl, rfl, rfl, rfl, rfl⟩
  have k3 : ∀ s, Kept s (updateFormant E p s) := by intro s; unfold updateFormant; split <;> (try split) <;> exact ⟨rfl, rfl, rfl, rfl, rfl⟩
  have h2 := k2 (updateRatio E p s)
  have h3 := k3 (updateCrispness E p (updateRatio E p s))
  exact ⟨h3.1.trans (h2.1.trans k1.1), h3.2.trans (h2.2.trans k1.2), h3.3.trans (h2.3.trans k1.3), h3.4.trans (h2.4.trans k1.4), h3.5.trans (h2.5.trans k1.5)⟩

/-! ## The stretcher -/

/-- History of a stretcher: what it was given and what it gave since it was reset.  It gives all channels the same number of samples, at most as many as asked for. -/
structure Traced (E : Engine σ ρ K) (channels : Nat) where
  fed : σ → Nat → List K
  out : σ → Nat → List K
  fed_process : ∀ s x c, c < channels → fed (E.process s x) c = fed s c ++ x c
  out_process : ∀ s x c, c < channels → out (E.process s x) c = out s c
  fed_retrieve : ∀ s n c, c < channels → fed (E.retrieve s n).1 c = fed s c
  out_retrieve : ∀ s n c, c < channels → out (E.retrieve s n).1 c = out s c ++ (E.retrieve s n).2.2 c
  length : ∀ s n c, c < channels → ((E.retrieve s n).2.2 c).length = (E.retrieve s n).2.1
  atMost : ∀ s n, (E.retrieve s n).2.1 ≤ n
  fed_reset : ∀ s c, c < channels → fed (E.reset s) c = []
  out_reset : ∀ s c, c < channels → out (E.reset s) c = []
  fed_pitch : ∀ s r c, c < channels → fed (E.setPitchScale s r) c = fed s c
  out_pitch : ∀ s r c, c < channels → out (E.setPitchScale s r) c = out s c
  fed_crispness : ∀ s r c, c < channels → fed (E.setCrispness s r) c = fed s c
  out_crispness : ∀ s r c, c < channels → out (E.setCrispness s r) c = out s c
  fed_formant : ∀ s r c, c < channels → fed (E.setFormant s r) c = fed s c
  out_formant : ∀ s r c, c < channels → out (E.setFormant s r) c = out s c

variable {E : Engine σ ρ K} {ch : Nat}

theorem settings_fed [DecidableEq ρ] (T : Traced E ch) (p : Ports ρ K) (s : Shifter σ ρ K) : ∀ c, c < ch →
    T.fed (settings E p s).engine c = T.fed s.engine c ∧ T.out (settings E p s).engine c = T.out s.engine c := by
  intro c hc
  have k1 : T.fed (updateRatio E p s).engine c = T.fed s.engine c ∧ T.out (updateRatio E p s).engine c = T.out s.engine c := by
    unfold updateRatio
    split
    · exact ⟨T.fed_pitch _ _ _ hc, T.out_pitch _ _ _ hc⟩
    · exact ⟨rfl, rfl⟩
  have k2 : ∀ s, T.fed (updateCrispness E p s).engine c = T.fed s.engine c ∧ T.out (updateCrispness E p s).engine c = T.out s.engine c := by
    intro s
    unfold updateCrispness
    split
    · exact ⟨rfl, rfl⟩
    · split
      · exact ⟨rfl, rfl⟩
      · split
        · exact ⟨rfl, rfl⟩
        · exact ⟨T.fed_crispness _ _ _ hc, T.out_crispness _ _ _ hc⟩
  have k3 : ∀ s, T.fed (updateFormant E p s).engine c = T.fed s.engine c ∧ T.out (updateFormant E p s).engine c = T.out s.engine c := by
    intro s
    unfold updateFormant
    split
    · exact ⟨rfl, rfl⟩
    · split
      · exact ⟨rfl, rfl⟩
      · exact ⟨T.fed_formant _ _ _ hc, T.out_formant _ _ _ hc⟩
  exact ⟨(k3 _).1.trans ((k2 _).1.trans k1.1), (k3 _).2.trans ((k2 _).2.trans k1.2)⟩

/-- The stretcher was given `X`, and of what it gave all has gone on to the host but what is in the output buffers; `W` has gone. -/
structure Wet (T : Traced E ch) (s : Shifter σ ρ K) (X W : Nat → List K) : Prop where
  pos : 0 < ch
  fed : ∀ c, c < ch → T.fed s.engine c = X c
  out : ∀ c, c < ch → T.out s.engine c = W c ++ (s.outputBuffer c).items
  same : ∀ c, c < ch → (s.outputBuffer c).items.length = (s.outputBuffer 0).items.length ∧ (s.outputBuffer c).cap = (s.outputBuffer 0).cap

theorem Wet.settings [DecidableEq ρ] {T : Traced E ch} {s : Shifter σ ρ K} {X W : Nat → List K} (h : Wet T s X W) (p : Ports ρ K) : Wet T (settings E p s) X W := by
  have k := settings_kept E p s
  refine ⟨h.pos, ?_, ?_, ?_⟩
  · intro c hc; rw [(settings_fed T p s c hc).1]; exact h.fed c hc
  · intro c hc; rw [(settings_fed T p s c hc).2, k.outputBuffer]; exact h.out c hc
  · intro c hc; rw [k.outputBuffer]; exact h.same c hc

theorem Wet.feedOnce {T : Traced E ch} {s : Shifter σ ρ K} {X W : Nat → List K} (h : Wet T s X W) (x : Nat → List K) : Wet T (Plugin.feedOnce E x s) (fun c => X c ++ x c) W := by
  have full : ∀ c, c < ch → ((Plugin.feedOnce E x s).outputBuffer c).items =
      (s.outputBuffer c).items ++ (E.retrieve (E.process s.engine x) (min (E.available (E.process s.engine x)) (s.outputBuffer 0).space)).2.2 c := by
    intro c hc
    show (s.outputBuffer c).items ++ List.take _ _ = _
    have l1 := T.length (E.process s.engine x) (min (E.available (E.process s.engine x)) (s.outputBuffer 0).space) c hc
    have l2 := T.atMost (E.process s.engine x) (min (E.available (E.process s.engine x)) (s.outputBuffer 0).space)
    obtain ⟨s1, s2⟩ := h.same c hc
    have s3 : (s.outputBuffer c).space = (s.outputBuffer 0).space := by unfold Q.space; rw [s1, s2]
    rw [List.take_of_length_le (l := (E.retrieve _ _).2.2 c) (by omega), List.take_of_length_le]
    omega
  refine ⟨h.pos, ?_, ?_, ?_⟩
  · intro c hc
    show T.fed (E.retrieve _ _).1 c = _
    rw [T.fed_retrieve _ _ _ hc, T.fed_process _ _ _ hc, h.fed c hc]
  · intro c hc
    rw [full c hc]
    show T.out (E.retrieve _ _).1 c = _
    rw [T.out_retrieve _ _ _ hc, T.out_process _ _ _ hc, h.out c hc, List.append_assoc]
  · intro c hc
    refine ⟨?_, (h.same c hc).2⟩
    rw [full c hc, full 0 h.pos, List.length_append, List.length_append, T.length _ _ _ hc, T.length _ _ _ h.pos, (h.same c hc).1]

/-- What feeding leaves alone. -/
structure Fed (s s' : Shifter σ ρ K) : Prop where
  channels : s'.channels = s.channels
  delayMix : s'.delayMix = s.delayMix
  underruns : s'.underruns = s.underruns

theorem feed_fed (m : Mem K) (p : Ports ρ K) (off n : Nat) : ∀ (fuel processed : Nat) {s s' : Shifter σ ρ K}, feed E m p off n fuel processed s = some s' → Fed s s' := by
  intro fuel
  induction fuel with
  | zero =>
    intro processed s s' h
    unfold feed at h
    split at h
    · cases h
    · cases h; exact ⟨rfl, rfl, rfl⟩
  | succ fuel ih =>
    intro processed s s' h
    unfold feed at h
    split at h
    · have := ih _ h
      exact ⟨this.1, this.2, this.3⟩
    · cases h; exact ⟨rfl, rfl, rfl⟩

theorem Wet.feed {T : Traced E ch} {m : Mem K} {p : Ports ρ K} {off n : Nat} : ∀ {fuel processed : Nat} {s s' : Shifter σ ρ K} {X W : Nat → List K}, Wet T s X W →
    feed E m p off n fuel processed s = some s' → Wet T s' (fun c => X c ++ chunk m p (off + processed) (n - processed) c) W := by
  intro fuel
  induction fuel with
  | zero =>
    intro processed s s' X W hw h
    unfold Plugin.feed at h
    split at h
    · cases h
    · cases h
      refine ⟨hw.pos, ?_, hw.out, hw.same⟩
      intro c hc
      rw [show n - processed = 0 by omega]
      show _ = X c ++ List.take 0 _
      rw [List.take_zero, List.append_nil]
      exact hw.fed c hc
  | succ fuel ih =>
    intro processed s s' X W hw h
    unfold Plugin.feed at h
    split at h
    · rename_i hlt
      have hk : min (n - processed) (E.required s.engine) ≤ n - processed := min_le_left _ _
      generalize min (n - processed) (E.required s.engine) = k at h hk
      have := ih (hw.feedOnce (chunk m p (off + processed) k)) h
      refine ⟨this.pos, ?_, this.out, this.same⟩
      intro c hc
      rw [this.fed c hc, List.append_assoc, ← Nat.add_assoc, chunk_append]
      congr 2
      omega
    · cases h
      refine ⟨hw.pos, ?_, hw.out, hw.same⟩
      intro c hc
      rw [show n - processed = 0 by omega]
      show _ = X c ++ List.take 0 _
      rw [List.take_zero, List.append_nil]
      exact hw.fed c hc

/-! ## Blocks -/

/-- The memory after a block. -/
theorem deliver_spec {p : Ports ρ K} {off n : Nat} {q : Nat → Q K} {m : Mem K} (hp : ∀ a, a < ch → ∀ b, b < ch → p.outs a = p.outs b → a = b)
    (hl : ∀ c, c < ch → off + n ≤ (m (p.outs c)).length) :
    (∀ c, c < ch → deliver p off n ch q m (p.outs c) = overwrite off ((q c).items.take (min (q c).items.length n)) (m (p.outs c))) ∧
      Agree (off + n) (deliver p off n ch q m) m ∧ ∀ r, (deliver p off n ch q m r).take off = (m r).take off := by
  obtain ⟨f1, f2⟩ := fold_edit p.outs (fun c => overwrite off ((q c).items.take (min (q c).items.length n))) m ch hp
  have hle : ∀ c, c < ch → off + ((q c).items.take (min (q c).items.length n)).length ≤ (m (p.outs c)).length := by
    intro c hc
    have := hl c hc
    rw [List.length_take]
    omega
  refine ⟨f1, ?_, ?_⟩
  · intro r
    by_cases h : ∃ c, c < ch ∧ p.outs c = r
    · obtain ⟨c, hc, rfl⟩ := h
      unfold deliver
      rw [f1 c hc]
      exact ⟨overwrite_drop (hle c hc) (by rw [List.length_take]; omega), overwrite_length (hle c hc)⟩
    · have := f2 r fun c hc e => h ⟨c, hc, e⟩
      unfold deliver
      rw [this]
      exact ⟨rfl, rfl⟩
  · intro r
    by_cases h : ∃ c, c < ch ∧ p.outs c = r
    · obtain ⟨c, hc, rfl⟩ := h
      unfold deliver
      rw [f1 c hc]
      exact overwrite_take (hle c hc)
    · have := f2 r fun c hc e => h ⟨c, hc, e⟩
      unfold deliver
      rw [this]

/-- What a block does. -/
structure Block (E : Engine σ ρ K) (ch : Nat) (p : Ports ρ K) (off n : Nat) (m₀ : Mem K) (s : Shifter σ ρ K) (m : Mem K) (s' : Shifter σ ρ K) (m' : Mem K) : Prop where
  channels : s'.channels = s.channels
  delayMix : s'.delayMix = s.delayMix
  agree : Agree (off + n) m' m₀
  before : ∀ r, (m' r).take off = (m r).take off
  underruns : s.underruns ≤ s'.underruns
  wet : ∀ (T : Traced E ch) X W, Wet T s X W → ∃ W', Wet T s' (fun c => X c ++ chunk m₀ p off n c) W' ∧ (s'.underruns = s.underruns → ∀ c, c < ch → W' c = W c ++ ((m' (p.outs c)).drop off).take n)

theorem runBlock_spec [DecidableEq ρ] {fuel : Nat} {p : Ports ρ K} {off n : Nat} {s s' : Shifter σ ρ K} {m₀ m m' : Mem K} (hch : s.channels = ch)
    (hp : ∀ a, a < ch → ∀ b, b < ch → p.outs a = p.outs b → a = b) (hl : ∀ c, c < ch → off + n ≤ (m₀ (p.outs c)).length) (hm : Agree off m m₀)
    (h : runBlock E fuel p off n s m = some (s', m')) : Block E ch p off n m₀ s m s' m' := by
  unfold runBlock at h
  obtain ⟨t, ht, h⟩ := Option.map_eq_some_iff.mp h
  have k := settings_kept E p s
  have kf := feed_fed m p off n _ _ ht
  rw [Prod.mk.injEq] at h
  obtain ⟨rfl, rfl⟩ := h
  have hch' : t.channels = ch := kf.channels.trans (k.channels.trans hch)
  have hl' : ∀ c, c < ch → off + n ≤ (m (p.outs c)).length := fun c hc => by rw [(hm _).2]; exact hl c hc
  rw [hch']
  obtain ⟨d1, d2, d3⟩ := deliver_spec (q := t.outputBuffer) hp hl'
  refine ⟨hch.symm, kf.delayMix.trans k.delayMix, ?_, d3, ?_, ?_⟩
  · intro r
    have a1 := d2 r
    have a2 := (hm.later (Nat.le_add_right off n)) r
    exact ⟨a1.1.trans a2.1, a1.2.trans a2.2⟩
  · have e : t.underruns = s.underruns := kf.underruns.trans k.underruns
    show s.underruns ≤ if (t.outputBuffer 0).items.length < n then t.underruns + 1 else t.underruns
    split <;> omega
  · intro T X W hw
    have hw2 := (hw.settings p).feed (m := m) (p := p) (off := off) (n := n) ht
    refine ⟨fun c => W c ++ (t.outputBuffer c).items.take (min (t.outputBuffer c).items.length n), ⟨hw.pos, ?_, ?_, ?_⟩, ?_⟩
    · intro c hc
      show T.fed t.engine c = _
      rw [hw2.fed c hc, Nat.add_zero, Nat.sub_zero, chunk_agree hm le_rfl]
    · intro c hc
      show T.out t.engine c = _ ++ List.drop _ _
      rw [hw2.out c hc, List.append_assoc, List.take_append_drop]
    · intro c hc
      show (List.drop _ _).length = (List.drop _ _).length ∧ _
      rw [List.length_drop, List.length_drop, (hw2.same c hc).1]
      exact ⟨rfl, (hw2.same c hc).2⟩
    · intro hu c hc
      have e : t.underruns = s.underruns := kf.underruns.trans k.underruns
      have hu' : (if (t.outputBuffer 0).items.length < n then t.underruns + 1 else t.underruns) = s.underruns := hu
      have hn : n ≤ (t.outputBuffer 0).items.length := by
        by_contra hc
        rw [if_pos (by omega)] at hu'
        omega
      have hn' : min (t.outputBuffer c).items.length n = n := by rw [(hw2.same c hc).1]; omega
      have hlen : ((t.outputBuffer c).items.take n).length = n := by rw [List.length_take]; omega
      show W c ++ _ = W c ++ _
      rw [d1 c hc, hn']
      congr 1
      have := overwrite_slice (off := off) (xs := (t.outputBuffer c).items.take n) (l := m (p.outs c)) (by rw [hlen]; exact hl' c hc)
      rw [hlen] at this
      exact this.symm

theorem blocks_spec [DecidableEq ρ] {z : Sizes} {fuel : Nat} {p : Ports ρ K} {n : Nat} {m₀ : Mem K}
    (hp : ∀ a, a < ch → ∀ b, b < ch → p.outs a = p.outs b → a = b) (hl : ∀ c, c < ch → n ≤ (m₀ (p.outs c)).length) :
    ∀ {k off : Nat} {s s' : Shifter σ ρ K} {m m' : Mem K}, s.channels = ch → Agree off m m₀ → off ≤ n → blocks E z fuel p n k off s m = some (s', m') → Block E ch p off (n - off) m₀ s m s' m' := by
  intro k
  have base : ∀ {off : Nat} {s : Shifter σ ρ K} {m : Mem K}, Agree off m m₀ → ¬ off < n → off ≤ n → Block E ch p off (n - off) m₀ s m s m := by
    intro off s m hm h1 h2
    have e : n - off = 0 := by omega
    rw [e]
    refine ⟨rfl, rfl, hm, fun _ => rfl, le_rfl, fun T X W hw => ⟨W, ⟨hw.pos, ?_, hw.out, hw.same⟩, fun _ c _ => ?_⟩⟩
    · intro c hc
      show _ = X c ++ List.take 0 _
      rw [List.take_zero, List.append_nil]
      exact hw.fed c hc
    · rw [List.take_zero, List.append_nil]
  induction k with
  | zero =>
    intro off s s' m m' hch hm ho h
    unfold blocks at h
    split at h
    · cases h
    · cases h
      exact base hm (by assumption) ho
  | succ k ih =>
    intro off s s' m m' hch hm ho h
    unfold blocks at h
    split at h
    · obtain ⟨⟨t, mt⟩, h1, h2⟩ := Option.bind_eq_some_iff.mp h
      have hb : min z.blockSize (n - off) ≤ n - off := min_le_right _ _
      generalize min z.blockSize (n - off) = b at h1 h2 hb
      have b1 := runBlock_spec hch hp (fun c hc => by have := hl c hc; omega) hm h1
      have b2 := ih (b1.channels.trans hch) b1.agree (by omega) h2
      refine ⟨b2.channels.trans b1.channels, b2.delayMix.trans b1.delayMix, ?_, ?_, b1.underruns.trans b2.underruns, ?_⟩
      · have := b2.agree
        rwa [show off + b + (n - (off + b)) = off + (n - off) by omega] at this
      · intro r
        have := congrArg (List.take off) (b2.before r)
        rw [List.take_take, List.take_take, Nat.min_eq_left (by omega)] at this
        rw [this, b1.before r]
      · intro T X W hw
        obtain ⟨W1, w1, e1⟩ := b1.wet T X W hw
        obtain ⟨W2, w2, e2⟩ := b2.wet T _ W1 w1
        refine ⟨W2, ⟨w2.pos, ?_, w2.out, w2.same⟩, ?_⟩
        · intro c hc
          rw [w2.fed c hc, List.append_assoc, chunk_append]
          congr 2
          omega
        · intro hu c hc
          have u1 := b1.underruns
          have u2 := b2.underruns
          rw [e2 (by omega) c hc, e1 (by omega) c hc, List.append_assoc]
          congr 1
          have hbefore := congrArg (List.drop off) (b2.before (p.outs c))
          rw [List.drop_take, List.drop_take, show off + b - off = b by omega] at hbefore
          rw [← hbefore, show n - off = b + (n - (off + b)) by omega, List.take_add, List.drop_drop]
    · cases h
      exact base hm (by assumption) ho

end Verif.Plugin
