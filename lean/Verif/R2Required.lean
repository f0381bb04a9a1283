import Verif.R2Step
import Verif.R2Reset
import Verif.StretchCalcRT
import Verif.R3Limits
/-!
# The faster engine in real time: how much input makes output available (for C115)
-/
namespace Verif.R2
open Verif.StretchCalc Verif.Round

variable {α σ ρ κ : Type}

/-! ## What processing leaves true of a channel -/

/-- What is wanted of the buffers of a channel, and that it has a resampler. -/
structure Ample (window : Nat) (cd : Chan α σ ρ) : Prop where
  inbuf : window ≤ cd.inbuf.cap
  outbuf : 1 ≤ cd.outbuf.cap
  within : cd.outbuf.data.length ≤ cd.outbuf.cap
  resampler : cd.resampler.isSome = true

/-- Nothing has been lost of the output, and what is wanted stays so. -/
structure Onward (cd cd' : Chan α σ ρ) : Prop where
  sound : ∀ w, Ample w cd → Ample w cd'
  more : cd.outbuf.data.length ≤ cd.outbuf.cap → cd.outbuf.data.length ≤ cd'.outbuf.data.length ∧ cd'.outbuf.data.length ≤ cd'.outbuf.cap
  inputSize : cd'.inputSize = cd.inputSize
  draining : cd'.inputSize = none → cd.draining = false → cd'.draining = false

theorem Onward.refl (cd : Chan α σ ρ) : Onward cd cd := ⟨fun _ h => h, fun h => ⟨le_refl _, h⟩, rfl, fun _ h => h⟩

theorem Onward.trans {a b c : Chan α σ ρ} (h : Onward a b) (h' : Onward b c) : Onward a c :=
  ⟨fun w x => h'.sound w (h.sound w x), fun x => ⟨(h.more x).1.trans (h'.more (h.more x).2).1, (h'.more (h.more x).2).2⟩, h'.inputSize.trans h.inputSize,
    fun x y => h'.draining x (h.draining (h'.inputSize.symm.trans x) y)⟩

theorem onward_of {cd cd' : Chan α σ ρ} (h1 : cd'.inbuf.cap = cd.inbuf.cap) (h2 : cd'.outbuf = cd.outbuf) (h3 : cd'.resampler = cd.resampler) (h4 : cd'.inputSize = cd.inputSize)
    (h5 : cd'.draining = cd.draining) : Onward cd cd' :=
  ⟨fun w h => ⟨by rw [h1]; exact h.inbuf, by rw [h2]; exact h.outbuf, by rw [h2]; exact h.within, by rw [h3]; exact h.resampler⟩, fun h => by rw [h2]; exact ⟨le_refl _, h⟩, h4,
    fun _ h => h5.trans h⟩

theorem write_within (q : Fifo α) (xs : List α) (h : q.data.length ≤ q.cap) : q.data.length ≤ (q.write xs).data.length ∧ (q.write xs).data.length ≤ (q.write xs).cap := by
  unfold Fifo.write Fifo.writeSpace
  simp only [List.length_append, List.length_take]
  omega

theorem onward_write {cd cd' : Chan α σ ρ} (xs : List α) (h1 : cd'.inbuf = cd.inbuf) (h2 : cd'.outbuf = cd.outbuf.write xs) (h3 : cd'.resampler = cd.resampler) (h4 : cd'.inputSize = cd.inputSize)
    (h5 : cd'.draining = cd.draining) : Onward cd cd' := by
  refine ⟨fun w h => ⟨by rw [h1]; exact h.inbuf, by rw [h2]; exact h.outbuf, by rw [h2]; exact (write_within _ _ h.within).2, by rw [h3]; exact h.resampler⟩, fun h => by rw [h2]; exact write_within _ _ h, h4,
    fun _ h => h5.trans h⟩

theorem onward_writeOutput (skip T : Nat) (cd : Chan α σ ρ) (out : List α) : Onward cd (writeOutput skip T cd out) := by
  unfold writeOutput
  split
  · exact onward_write _ rfl rfl rfl rfl rfl
  · split
    · exact onward_of rfl rfl rfl rfl rfl
    · exact onward_write _ rfl rfl rfl rfl rfl

section
variable {p : Params} {env : Env α σ ρ κ} {z : Sizes}

theorem onward_resampled (cd : Chan α σ ρ) (mix : List α) (last : Bool) : Onward cd (resampled p env z cd mix last).1 := by
  unfold resampled
  split
  · exact ⟨fun w h => ⟨h.inbuf, h.outbuf, h.within, rfl⟩, fun h => ⟨le_refl _, h⟩, rfl, fun _ h => h⟩
  · exact Onward.refl _

theorem onward_lessFill (si : Nat) (cd : Chan α σ ρ) : Onward cd (lessFill si cd) := by
  unfold lessFill
  split <;> exact onward_of rfl rfl rfl rfl rfl

theorem onward_writeChunk {si : Nat} {last : Bool} {cd cd' : Chan α σ ρ} (h : writeChunk p env z si last cd = some cd') : Onward cd cd' := by
  unfold writeChunk at h
  split at h
  · cases h
  · simp only [Option.some.injEq] at h
    have a := onward_resampled (p := p) (env := env) (z := z) cd ((List.range si).map (env.emit cd.spec)) last
    generalize resampled p env z cd ((List.range si).map (env.emit cd.spec)) last = y at *
    have b := onward_writeOutput (startSkip p z) (theoreticalOut z y.1) y.1 y.2
    generalize writeOutput (startSkip p z) (theoreticalOut z y.1) y.1 y.2 = w at *
    rw [← h]
    have c : Onward w { w with spec := env.shift w.spec w.accumulatorFill si } := onward_of rfl rfl rfl rfl rfl
    exact ((a.trans b).trans c).trans (onward_lessFill _ _)

theorem onward_ensureOutbuf (si : Nat) (cd : Chan α σ ρ) : Onward cd (ensureOutbuf z si cd) := by
  unfold ensureOutbuf
  simp only
  generalize (if z.pitchScale ≠ 1 then ((si : Rat) / z.pitchScale).floor.toNat + 1 else si) = m
  split
  · have hk : cd.outbuf.data.length ≤ cd.outbuf.cap → cd.outbuf.data.length ≤ (cd.outbuf.resized (cd.outbuf.cap * 2)).data.length ∧
        (cd.outbuf.resized (cd.outbuf.cap * 2)).data.length ≤ (cd.outbuf.resized (cd.outbuf.cap * 2)).cap := by
      intro h
      unfold Fifo.resized
      simp only [List.length_take]
      omega
    refine ⟨fun w h => ⟨h.inbuf, ?_, (hk h.within).2, h.resampler⟩, hk, rfl, fun _ h => h⟩
    have := h.outbuf
    unfold Fifo.resized
    simp only
    omega
  · exact Onward.refl _

theorem onward_spectral (i : Incs) (cd : Chan α σ ρ) : Onward cd (spectral env z i cd) := by
  unfold spectral
  split <;> exact onward_of rfl rfl rfl rfl rfl

theorem onward_processChunk {i : Incs} {cd : Chan α σ ρ} {r : Chan α σ ρ × Bool} (h : processChunk p env z i cd = some r) : Onward cd r.1 := by
  unfold processChunk at h
  refine (onward_spectral (env := env) (z := z) i cd).trans ?_
  simp only at h
  generalize spectral env z i cd = d at *
  split at h
  · split at h
    · cases h; exact Onward.refl _
    · obtain ⟨e, he, h⟩ := Option.map_eq_some_iff.mp h
      rw [← h]
      exact (onward_ensureOutbuf _ _).trans (onward_writeChunk he)
  · obtain ⟨e, he, h⟩ := Option.map_eq_some_iff.mp h
    rw [← h]
    exact (onward_ensureOutbuf _ _).trans (onward_writeChunk he)

theorem onward_testInbuf (cd : Chan α σ ρ) : Onward cd (testInbuf z cd).1 := by
  unfold testInbuf
  simp only
  split
  · split
    · exact Onward.refl _
    · rename_i hs
      split
      · exact Onward.refl _
      · split
        · refine ⟨fun w h => ⟨h.inbuf, h.outbuf, h.within, h.resampler⟩, fun h => ⟨le_refl _, h⟩, rfl, fun hn _ => ?_⟩
          have : cd.inputSize = none := hn
          rw [this] at hs
          exact absurd rfl hs
        · exact Onward.refl _
  · exact Onward.refl _

theorem onward_taken (cd : Chan α σ ρ) : Onward cd (if cd.draining then cd else analyseChunk env z (takeFrame z cd)) := by
  split
  · exact Onward.refl _
  · rename_i hd
    unfold analyseChunk takeFrame
    rw [if_neg hd]
    exact onward_of rfl rfl rfl rfl rfl

/-! ## All channels -/

theorem onward_takeFrames : ∀ l : List (Chan α σ ρ), List.Forall₂ Onward l (takeFrames env z l).1 := by
  intro l
  induction l with
  | nil => exact List.Forall₂.nil
  | cons cd l ih =>
    unfold takeFrames
    have a := onward_testInbuf (z := z) cd
    simp only
    split
    · exact List.Forall₂.cons (a.trans (onward_taken _)) ih
    · exact List.Forall₂.cons a (List.forall₂_same.mpr fun cd _ => Onward.refl cd)

theorem onward_calculate (s : State α σ ρ κ) : List.Forall₂ Onward s.chans (calculateIncrements env s).1.chans := by
  unfold calculateIncrements
  split
  · exact List.forall₂_same.mpr fun cd _ => Onward.refl cd
  · rename_i cd cds heq
    split
    · simp only
      rw [heq]
      exact List.Forall₂.cons (onward_of rfl rfl rfl rfl rfl) (List.forall₂_same.mpr fun cd _ => Onward.refl cd)
    · exact List.forall₂_same.mpr fun cd _ => Onward.refl cd

theorem onward_eachChunk (i : Incs) : ∀ (l : List (Chan α σ ρ)) (last : Bool) (r : List (Chan α σ ρ) × Bool), eachChunk p env z i l last = some r → List.Forall₂ Onward l r.1 := by
  intro l
  induction l with
  | nil => intro last r h; cases h; exact List.Forall₂.nil
  | cons cd l ih =>
    intro last r h
    unfold eachChunk at h
    obtain ⟨y, hy, h⟩ := Option.bind_eq_some_iff.mp h
    obtain ⟨ys, hys, h⟩ := Option.bind_eq_some_iff.mp h
    cases h
    exact List.Forall₂.cons ((onward_processChunk hy).trans (onward_of rfl rfl rfl rfl rfl)) (ih _ _ hys)

theorem forall₂_trans {l m n : List (Chan α σ ρ)} (h : List.Forall₂ Onward l m) (h' : List.Forall₂ Onward m n) : List.Forall₂ Onward l n := by
  induction h generalizing n with
  | nil => exact h'
  | cons a _ ih =>
    cases h' with
    | cons b t => exact List.Forall₂.cons (a.trans b) (ih t)

/-- A chunk of each channel: what stays. -/
theorem onward_one {s : State α σ ρ κ} {r : State α σ ρ κ × Bool} (hi : s.outputIncrements = []) (h : processOneChunk p env s = some r) :
    List.Forall₂ Onward s.chans r.1.chans ∧ r.1.sizes = s.sizes ∧ r.1.mode = s.mode ∧ r.1.outputIncrements = [] := by
  unfold processOneChunk at h
  have a := onward_takeFrames (env := env) (z := s.sizes) s.chans
  generalize takeFrames env s.sizes s.chans = q at h a
  obtain ⟨chans, ready⟩ := q
  simp only at h a
  split at h
  · rw [choose_eq (s := { s with chans := chans }) hi] at h
    have b := onward_calculate (env := env) { s with chans := chans }
    obtain ⟨k1, k2, k3⟩ := calculate_keeps (env := env) { s with chans := chans }
    generalize calculateIncrements env { s with chans := chans } = w at *
    obtain ⟨t, i⟩ := w
    simp only at h b k1 k2 k3
    obtain ⟨⟨cs, l⟩, e1, e2⟩ := Option.bind_eq_some_iff.mp h
    cases e2
    exact ⟨forall₂_trans (forall₂_trans a b) (onward_eachChunk _ _ _ _ e1), k1, k2, k3.trans hi⟩
  · cases h
    exact ⟨a, rfl, rfl, hi⟩

end

end Verif.R2
