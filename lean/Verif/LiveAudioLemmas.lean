import Verif.LiveAudio
import Verif.LiveFlow
/-!
# The live shifter: what a history of calls keeps
-/
namespace Verif.LiveAudio
open Verif.R3 (Frame Spectral Open spectralRound)
open Verif.Live (blockSize)

variable {κ ρ : Type}

/-- What is needed for frames that meet `X` to come out as frames that meet `O`: inside, all frames meet `I`, the spectral part meets `D`, and the resamplers, at ratios that meet `Q`, meet `R` of the ratio. -/
structure Keeps (c : Conf) (o : Open κ) (e : Resampling ρ) (X I O : Frame ℝ → Prop) (D : Spectral κ → Prop) (Q : Rat → Prop) (R : Rat → ρ → Prop) : Prop where
  zero : I silence
  zeroOut : O silence
  enc : ∀ {f}, X f → I (encode c f)
  dec : ∀ {f}, I f → O (decode c f)
  quieter : ∀ {f}, O f → O fun k => f k * (9 / 10)
  resetDsp : ∀ {d}, D d → D (Spectral.reset c.engine o d)
  round : ∀ {d} (on : Bool) (hop : R3.Hop) (w : Nat) {b : List (Frame ℝ)}, D d → (∀ f ∈ b, I f) →
    ∃ r, spectralRound c.engine { o with preserved := on } d hop ((List.range c.channels).map fun k => (List.range w).map fun i => ((b[i]?).getD silence) k) = some r ∧ D r.1 ∧ ∀ i, I fun k => ((r.2[k]?).getD fun _ => 0) i
  resetRs : ∀ {q r}, R q r → ∀ q', R q' (e.reset r)
  resample : ∀ {r} (n : Nat) {b : List (Frame ℝ)} {q : Rat}, Q q → R q r → (∀ f ∈ b, I f) →
    (e.resample r n b q).2.length ≤ n ∧ R q (e.resample r n b q).1 ∧ ∀ f ∈ (e.resample r n b q).2, I f

/-- What holds between the calls. -/
structure Inv (c : Conf) (I : Frame ℝ → Prop) (D : Spectral κ → Prop) (Q : Rat → Prop) (R : Rat → ρ → Prop) (s : State κ ρ) : Prop where
  inbuf : ∀ f ∈ s.inbuf, I f
  outbuf : ∀ f ∈ s.outbuf, I f
  ins : R (c.sizes s.pitch).inRatio s.ins
  outs : R (c.sizes s.pitch).outRatio s.outs
  dsp : D s.dsp
  inRatio : Q (c.sizes s.pitch).inRatio
  outRatio : Q (c.sizes s.pitch).outRatio
  fresh : s.first = true → ∀ q, R q s.ins ∧ R q s.outs

/-- What holds in the middle of a call. -/
structure Mid (c : Conf) (I : Frame ℝ → Prop) (D : Spectral κ → Prop) (Q : Rat → Prop) (R : Rat → ρ → Prop) (s : State κ ρ) : Prop where
  inbuf : ∀ f ∈ s.inbuf, I f
  outbuf : ∀ f ∈ s.outbuf, I f
  ins : R (c.sizes s.pitch).inRatio s.ins
  outs : R (c.sizes s.pitch).outRatio s.outs
  dsp : D s.dsp
  inRatio : Q (c.sizes s.pitch).inRatio
  outRatio : Q (c.sizes s.pitch).outRatio

/-- The calls bring frames that meet `X`, and pitch scales at which the ratios meet `Q`. -/
def Call.brings (c : Conf) (X : Frame ℝ → Prop) (Q : Rat → Prop) : Call → Prop
  | .setPitchScale q => Q (c.sizes q).inRatio ∧ Q (c.sizes q).outRatio
  | .shift input => ∀ i < blockSize, X (input i)
  | _ => True

/-- The pitch scale changes only before the first block after creation or a reset. -/
def steady : (first : Bool) → (pitch : Rat) → List Call → Prop
  | _, _, [] => True
  | first, pitch, .setPitchScale q :: xs => (first = true ∨ q = pitch) ∧ steady first q xs
  | _, pitch, .shift _ :: xs => steady false pitch xs
  | _, pitch, .reset :: xs => steady true pitch xs
  | first, pitch, .setFormantScale _ :: xs => steady first pitch xs
  | first, pitch, .setFormantOption _ :: xs => steady first pitch xs

/-- What a call gives: a block from `shift`, nothing from the others. -/
def Call.gives (O : Frame ℝ → Prop) (out : List (Frame ℝ)) : Call → Prop
  | .shift _ => out.length = blockSize ∧ ∀ f ∈ out, O f
  | _ => out = []

section
variable {c : Conf} {o : Open κ} {e : Resampling ρ} {X I O : Frame ℝ → Prop} {D : Spectral κ → Prop} {Q : Rat → Prop} {R : Rat → ρ → Prop}

theorem put_all {size : Nat} {buf xs : List (Frame ℝ)} (h1 : ∀ f ∈ buf, I f) (h2 : ∀ f ∈ xs, I f) : ∀ f ∈ put size buf xs, I f := by
  intro f hf
  rcases List.mem_append.mp hf with h | h
  · exact h1 f h
  · exact h2 f (List.mem_of_mem_take h)

theorem zeros_all (hz : I silence) (n : Nat) : ∀ f ∈ List.replicate n silence, I f := by
  intro f hf
  rw [List.eq_of_mem_replicate hf]
  exact hz

theorem Keeps.measured (h : Keeps c o e X I O D Q R) {s : State κ ρ} (hs : Inv c I D Q R s) : Inv c I D Q R (measured c e s) :=
  have a := h.resetRs (h.resample blockSize hs.inRatio hs.ins (zeros_all h.zero blockSize)).2.1
  have b := h.resetRs (h.resample blockSize hs.outRatio hs.outs (zeros_all h.zero blockSize)).2.1
  ⟨hs.inbuf, hs.outbuf, a _, b _, hs.dsp, hs.inRatio, hs.outRatio, fun _ q => ⟨a q, b q⟩⟩

theorem Keeps.setPitchScale (h : Keeps c o e X I O D Q R) {s : State κ ρ} (hs : Inv c I D Q R s) {q : Rat} (hf : s.first = true ∨ q = s.pitch ∨ ∀ q q' r, R q r → R q' r) (h1 : Q (c.sizes q).inRatio)
    (h2 : Q (c.sizes q).outRatio) : Inv c I D Q R (setPitchScale c e q s) ∧ (setPitchScale c e q s).first = s.first ∧ (setPitchScale c e q s).pitch = q := by
  unfold LiveAudio.setPitchScale
  split
  · rename_i e
    exact ⟨hs, rfl, e.symm⟩
  · rename_i hne
    have hq : Inv c I D Q R { s with pitch := q } := by
      rcases hf with hf | hf | hf
      · exact ⟨hs.inbuf, hs.outbuf, (hs.fresh hf _).1, (hs.fresh hf _).2, hs.dsp, h1, h2, hs.fresh⟩
      · exact absurd hf hne
      · exact ⟨hs.inbuf, hs.outbuf, hf _ _ _ hs.ins, hf _ _ _ hs.outs, hs.dsp, h1, h2, hs.fresh⟩
    split
    · exact ⟨h.measured hq, rfl, rfl⟩
    · exact ⟨hq, rfl, rfl⟩

theorem Keeps.reset (h : Keeps c o e X I O D Q R) {s : State κ ρ} (hs : Inv c I D Q R s) : Inv c I D Q R (reset c o e s) :=
  h.measured ⟨fun f hf => (by cases hf), fun f hf => (by cases hf), h.resetRs hs.ins _, h.resetRs hs.outs _, h.resetDsp hs.dsp, hs.inRatio, hs.outRatio, fun _ q => ⟨h.resetRs hs.ins q, h.resetRs hs.outs q⟩⟩

theorem Keeps.prepad (h : Keeps c o e X I O D Q R) {s : State κ ρ} (hs : Inv c I D Q R s) : Inv c I D Q R (prepad c s) ∧ (prepad c s).pitch = s.pitch := by
  unfold LiveAudio.prepad
  split
  · exact ⟨⟨put_all hs.inbuf (zeros_all h.zero _), hs.outbuf, hs.ins, hs.outs, hs.dsp, hs.inRatio, hs.outRatio, hs.fresh⟩, rfl⟩
  · exact ⟨hs, rfl⟩

theorem Keeps.readIn (h : Keeps c o e X I O D Q R) {s : State κ ρ} (hs : Mid c I D Q R s) {input : List (Frame ℝ)} (hi : ∀ f ∈ input, X f) :
    ∃ s', readIn c e input s = some s' ∧ Mid c I D Q R s' ∧ s'.pitch = s.pitch := by
  unfold LiveAudio.readIn
  simp only
  split
  · exact ⟨s, rfl, hs, rfl⟩
  · obtain ⟨r1, r2, r3⟩ := h.resample (c.sizes s.pitch).ringSize hs.inRatio hs.ins (b := input.map (encode c)) (by
      intro f hf
      obtain ⟨x, hx, rfl⟩ := List.mem_map.mp hf
      exact h.enc (hi x hx))
    rw [if_neg (by omega)]
    refine ⟨_, rfl, ⟨put_all ?_ r3, hs.outbuf, r2, hs.outs, hs.dsp, hs.inRatio, hs.outRatio⟩, rfl⟩
    split
    · exact put_all hs.inbuf (zeros_all h.zero _)
    · exact hs.inbuf

theorem Keeps.hopRound (h : Keeps c o e X I O D Q R) {s : State κ ρ} (hs : Mid c I D Q R s) {inhop outhop : Nat} (h1 : inhop ≤ (c.sizes s.pitch).maxInhop) (h2 : outhop ≤ c.engine.longestFftSize) :
    ∃ s', LiveAudio.round c o inhop outhop s = some s' ∧ Mid c I D Q R s' ∧ s'.pitch = s.pitch := by
  obtain ⟨r, r1, r2, r3⟩ := h.round s.preserved ⟨inhop, s.prevInhop, s.prevOuthop, outhop, c.readahead, false, 1, s.pitch, s.formant⟩ (c.sizes s.pitch).windowSourceSize hs.dsp hs.inbuf
  unfold LiveAudio.round
  simp only
  rw [if_neg (by omega), show sources c s = _ from rfl, sources, r1]
  refine ⟨_, rfl, ⟨fun f hf => hs.inbuf f (List.mem_of_mem_drop hf), put_all hs.outbuf ?_, hs.ins, hs.outs, r2, hs.inRatio, hs.outRatio⟩, rfl⟩
  intro f hf
  obtain ⟨i, _, rfl⟩ := List.mem_map.mp hf
  exact r3 i

theorem Keeps.rounds (h : Keeps c o e X I O D Q R) {inhop outhop : Nat} : ∀ (n : Nat) {s : State κ ρ}, Mid c I D Q R s → inhop ≤ (c.sizes s.pitch).maxInhop → outhop ≤ c.engine.longestFftSize →
    ∃ s', rounds c o inhop outhop n s = some s' ∧ Mid c I D Q R s' ∧ s'.pitch = s.pitch := by
  intro n
  induction n with
  | zero => intro s hs _ _; exact ⟨s, rfl, hs, rfl⟩
  | succ n ih =>
    intro s hs h1 h2
    obtain ⟨a, a1, a2, a3⟩ := h.hopRound hs h1 h2
    obtain ⟨b, b1, b2, b3⟩ := ih a2 (by rw [a3]; exact h1) h2
    refine ⟨b, ?_, b2, b3.trans a3⟩
    unfold LiveAudio.rounds
    rw [a1, Option.bind_some, b1]

/-- Divided among enough hops, no hop is longer than it may be. -/
theorem hop_le {x n m : Nat} (hm : 0 < m) (hx : 0 < x) (h : 1 + (x - 1) / m ≤ n) : 1 + (x - 1) / n ≤ m := by
  have h1 : (x - 1) / m < n := by omega
  have h2 : x - 1 < n * m := (Nat.div_lt_iff_lt_mul hm).mp h1
  have hn : 0 < n := by generalize (x - 1) / m = z at h1; omega
  have h3 : (x - 1) / n < m := (Nat.div_lt_iff_lt_mul hn).mpr (by rw [Nat.mul_comm]; exact h2)
  omega

theorem outhop_le (c : Conf) (q : Rat) : (c.sizes q).maxOuthop ≤ c.engine.longestFftSize := by
  obtain ⟨_, h2, _, h4, h5, h6⟩ := R3.sizes c.engine
  have h3 : (c.sizes q).maxOuthop = R3.pow2Div c.engine.rate 128 * 5 / 4 := rfl
  have h7 : c.engine.longestFftSize = if R3.pow2Div c.engine.rate 32 < 1024 then 1024 else R3.pow2Div c.engine.rate 32 := rfl
  rw [h3, h7, h2, h4]
  split <;> omega

theorem Keeps.generate (h : Keeps c o e X I O D Q R) {s : State κ ρ} (hs : Mid c I D Q R s) (required : Nat) : ∃ s', generate c o required s = some s' ∧ Mid c I D Q R s' ∧ s'.pitch = s.pitch := by
  unfold LiveAudio.generate
  simp only
  split
  · exact ⟨s, rfl, hs, rfl⟩
  · split
    · exact ⟨s, rfl, hs, rfl⟩
    · rename_i h1 h2
      obtain ⟨u, u1, u2, u3, u4, u5⟩ := Live.sizes (c.sizes s.pitch)
      have hi := hop_le (m := (c.sizes s.pitch).maxInhop) (by omega) (show 0 < s.inbuf.length - (c.sizes s.pitch).windowSourceSize by omega)
        (Nat.le_max_left (1 + (s.inbuf.length - (c.sizes s.pitch).windowSourceSize - 1) / (c.sizes s.pitch).maxInhop) (1 + (required - s.outbuf.length - 1) / (c.sizes s.pitch).maxOuthop))
      have ho := hop_le (m := (c.sizes s.pitch).maxOuthop) (by omega) (show 0 < required - s.outbuf.length by omega)
        (Nat.le_max_right (1 + (s.inbuf.length - (c.sizes s.pitch).windowSourceSize - 1) / (c.sizes s.pitch).maxInhop) (1 + (required - s.outbuf.length - 1) / (c.sizes s.pitch).maxOuthop))
      obtain ⟨s', e1, e2, e3⟩ := h.rounds (Live.hopCount (c.sizes s.pitch) (s.inbuf.length - (c.sizes s.pitch).windowSourceSize) (required - s.outbuf.length)) hs hi (ho.trans (outhop_le c s.pitch))
      exact ⟨s', e1, e2, e3⟩

theorem Keeps.readLoop (h : Keeps c o e X I O D Q R) {ratio : Rat} (hq : Q ratio) : ∀ (fuel want : Nat) (x : Out ρ), 0 < want → x.given.length ≤ blockSize → x.outbuf.length + (blockSize - x.given.length) < fuel →
    (∀ f ∈ x.outbuf, I f) → R ratio x.outs → (∀ f ∈ x.given, I f) →
    ∃ y, readLoop e ratio fuel want x = some y ∧ y.given.length ≤ blockSize ∧ (∀ f ∈ y.outbuf, I f) ∧ R ratio y.outs ∧ ∀ f ∈ y.given, I f := by
  intro fuel
  induction fuel with
  | zero => intro want x _ _ hf; omega
  | succ fuel ih =>
    intro want x hw hg hf h1 h2 h3
    unfold LiveAudio.readLoop
    split
    · rename_i hlt
      obtain ⟨r1, r2, r3⟩ := h.resample (blockSize - x.given.length) hq h2 (b := x.outbuf.take want) fun f hf => h1 f (List.mem_of_mem_take hf)
      simp only
      rw [if_neg (by omega)]
      split
      · exact ⟨_, rfl, hg, fun f hf => h1 f (List.mem_of_mem_drop hf), r2, h3⟩
      · rename_i hp
        rw [List.length_take] at hp
        refine ih 1 _ (by omega) ?_ ?_ (fun f hf => h1 f (List.mem_of_mem_drop hf)) r2 ?_
        · simp only [List.length_append]; omega
        · simp only [List.length_append, List.length_drop]; omega
        · intro f hf
          rcases List.mem_append.mp hf with hf | hf
          · exact h3 f hf
          · exact r3 f hf
    · exact ⟨x, rfl, hg, h1, h2, h3⟩

theorem fill_spec (hz : O silence) (hq : ∀ {f}, O f → O fun k => f k * (9 / 10)) : ∀ (n : Nat) (l : List (Frame ℝ)), (∀ f ∈ l, O f) → (fill n l).length = l.length + n ∧ ∀ f ∈ fill n l, O f := by
  intro n
  induction n with
  | zero => intro l hl; exact ⟨rfl, hl⟩
  | succ n ih =>
    intro l hl
    obtain ⟨h1, h2⟩ := ih (l ++ [faded l]) (by
      intro f hf
      rcases List.mem_append.mp hf with hf | hf
      · exact hl f hf
      · rw [List.mem_singleton.mp hf]
        unfold faded
        cases hg : l.getLast? with
        | none => exact hz
        | some x => exact hq (hl x (List.mem_of_getLast? hg)))
    refine ⟨?_, h2⟩
    unfold fill
    rw [h1, List.length_append, List.length_singleton]
    omega

theorem Keeps.finish (h : Keeps c o e X I O D Q R) (first : Bool) {given : List (Frame ℝ)} (hl : given.length ≤ blockSize) (hg : ∀ f ∈ given, I f) :
    (finish c first given).length = blockSize ∧ ∀ f ∈ finish c first given, O f := by
  have hd : ∀ f ∈ given.map (decode c), O f := by
    intro f hf
    obtain ⟨x, hx, rfl⟩ := List.mem_map.mp hf
    exact h.dec (hg x hx)
  unfold LiveAudio.finish
  split
  · split
    · refine ⟨?_, fun f hf => ?_⟩
      · rw [List.length_append, List.length_replicate, List.length_map]; omega
      · rcases List.mem_append.mp hf with hf | hf
        · exact zeros_all h.zeroOut _ f hf
        · exact hd f hf
    · obtain ⟨h1, h2⟩ := fill_spec h.zeroOut h.quieter (blockSize - given.length) _ hd
      refine ⟨?_, h2⟩
      rw [h1, List.length_map]; omega
  · refine ⟨?_, hd⟩
    rw [List.length_map]; omega

theorem feed_pos (p : Live.Params) : 0 < p.feed := by
  unfold Live.Params.feed
  simp only
  split <;> omega

theorem Keeps.shift (h : Keeps c o e X I O D Q R) {s : State κ ρ} (hs : Inv c I D Q R s) {input : Nat → Frame ℝ} (hi : ∀ i < blockSize, X (input i)) :
    ∃ r, shift c o e input s = some r ∧ Inv c I D Q R r.1 ∧ r.1.first = false ∧ r.1.pitch = s.pitch ∧ r.2.length = blockSize ∧ ∀ f ∈ r.2, O f := by
  obtain ⟨hp, p1⟩ := h.prepad hs
  obtain ⟨s1, a1, a2, a3⟩ := h.readIn ⟨hp.inbuf, hp.outbuf, hp.ins, hp.outs, hp.dsp, hp.inRatio, hp.outRatio⟩ (input := (List.range blockSize).map input) (by
    intro f hf
    obtain ⟨i, hi', rfl⟩ := List.mem_map.mp hf
    exact hi i (List.mem_range.mp hi'))
  obtain ⟨s2, b1, b2, b3⟩ := h.generate a2 (c.sizes s1.pitch).need
  obtain ⟨x, x1, x2, x3, x4, x5⟩ := h.readLoop b2.outRatio (s2.outbuf.length + blockSize + 2) (c.sizes s2.pitch).feed ⟨s2.outbuf, s2.outs, []⟩ (feed_pos _) (Nat.zero_le _)
    (by simp only [List.length_nil]; omega) b2.outbuf b2.outs (fun f hf => (by cases hf))
  obtain ⟨f1, f2⟩ := h.finish s2.first x2 x5
  refine ⟨({ s2 with outbuf := x.outbuf, outs := x.outs, first := false }, LiveAudio.finish c s2.first x.given), ?_, ⟨b2.inbuf, x3, b2.ins, x4, b2.dsp, b2.inRatio, b2.outRatio, fun hf => (by cases hf)⟩, rfl,
    b3.trans (a3.trans p1), f1, f2⟩
  unfold LiveAudio.shift
  simp only [a1, b1, x1, Option.bind_eq_bind, Option.bind_some]
  rfl

/-- A history from a state in which all holds is defined, if the resamplers bear any change of ratio or there is none while they are at work. -/
theorem Keeps.run (h : Keeps c o e X I O D Q R) : ∀ (xs : List Call) {s : State κ ρ}, Inv c I D Q R s → (∀ x ∈ xs, x.brings c X Q) → ((∀ q q' r, R q r → R q' r) ∨ steady s.first s.pitch xs) →
    ∃ r, run c o e s xs = some r ∧ Inv c I D Q R r.1 ∧ List.Forall₂ (fun x out => x.gives O out) xs r.2 := by
  intro xs
  induction xs with
  | nil => intro s hs _ _; exact ⟨(s, []), rfl, hs, .nil⟩
  | cons x xs ih =>
    intro s hs hx hf
    obtain ⟨a, a1, a2, a3, a4⟩ : ∃ r, step c o e s x = some r ∧ Inv c I D Q R r.1 ∧ x.gives O r.2 ∧ ((∀ q q' r, R q r → R q' r) ∨ steady r.1.first r.1.pitch xs) := by
      have hb := hx x (by simp)
      cases x with
      | setPitchScale q =>
        obtain ⟨e1, e2, e3⟩ := h.setPitchScale hs (q := q) (by
          rcases hf with hf | hf
          · exact Or.inr (Or.inr hf)
          · exact hf.1.imp_right Or.inl) hb.1 hb.2
        exact ⟨_, rfl, e1, rfl, hf.imp_right fun hf => by show steady (LiveAudio.setPitchScale c e q s).first (LiveAudio.setPitchScale c e q s).pitch xs; rw [e2, e3]; exact hf.2⟩
      | shift input =>
        obtain ⟨r, e1, e2, e3, e4, e5, e6⟩ := h.shift hs hb
        exact ⟨r, e1, e2, ⟨e5, e6⟩, hf.imp_right fun hf => by rw [e3, e4]; exact hf⟩
      | reset => exact ⟨_, rfl, h.reset hs, rfl, hf⟩
      | setFormantScale x => exact ⟨_, rfl, ⟨hs.inbuf, hs.outbuf, hs.ins, hs.outs, hs.dsp, hs.inRatio, hs.outRatio, hs.fresh⟩, rfl, hf⟩
      | setFormantOption on => exact ⟨_, rfl, ⟨hs.inbuf, hs.outbuf, hs.ins, hs.outs, hs.dsp, hs.inRatio, hs.outRatio, hs.fresh⟩, rfl, hf⟩
    obtain ⟨b, b1, b2, b3⟩ := ih a2 (fun y hy => hx y (by simp [hy])) a4
    refine ⟨(b.1, a.2 :: b.2), ?_, b2, .cons a3 b3⟩
    unfold LiveAudio.run
    simp only [a1, b1, Option.bind_eq_bind, Option.bind_some]
    rfl

theorem Keeps.create (h : Keeps c o e X I O D Q R) (hr : ∀ q, R q e.init) (hd : D (begun c o)) (hq : Q 1) : Inv c I D Q R (create c o e) :=
  h.measured ⟨fun f hf => (by cases hf), fun f hf => (by cases hf), hr _, hr _, hd, by show Q (if (1 : Rat) > 1 then _ else _); rw [if_neg (lt_irrefl _)]; exact hq,
    by show Q (if (1 : Rat) < 1 then _ else _); rw [if_neg (lt_irrefl _)]; exact hq, fun _ q => ⟨hr q, hr q⟩⟩

end

end Verif.LiveAudio
