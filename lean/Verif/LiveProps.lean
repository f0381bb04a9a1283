import Verif.LiveFlow
/-!
# The live shifter: C42, C70, C71
-/
namespace Verif.Live
open Verif.BQ (ValidRatio)

/-! ## The resamplers the shifter makes -/

/-- The resampler at a valid ratio: its fraction is what `pickNearestRational` gives, and its filter
reaches about 31.8 frames, or as many frames of output, either side. -/
theorem picked_spec {ratio : Rat} (hr : ValidRatio ratio) : ∃ R n d, picked ratio = some R ∧
    MathMisc.pickNearestRational ratio (BQ.maxDenom resamplerCfg ratio) = some (n, d) ∧ 1 ≤ d ∧
    R.num * d = n * R.den ∧ R.Ok ∧ R.reach * R.num * 78 ≤ 2480 * max R.den R.num + 78 := by
  have hpos : 0 < ratio := lt_of_lt_of_le (by norm_num) hr
  obtain ⟨m1, _, _⟩ := BQ.maxDenom_ge resamplerCfg hpos
  obtain ⟨n, d, a1, a2, a3, a4⟩ := MathMisc.C12_partial ratio (BQ.maxDenom resamplerCfg ratio) (le_of_lt hpos) m1
  obtain ⟨q, c1, c2, c3, c4, c5, c6⟩ := BQ.pickParams_spec resamplerCfg hr
  obtain ⟨p, b1, b2, b3, b4, b5, b6, b7⟩ := BQ.fillParams_spec resamplerCfg.quality ratio n d (by omega)
  have hpq : BQ.pickParams resamplerCfg ratio = some p := by
    unfold BQ.pickParams
    simp only [a1, Option.bind_eq_bind, Option.bind_some, b1]
  have hqp : q = p := Option.some.inj (c1.symm.trans hpq)
  subst hqp
  refine ⟨ofParams .fastestTolerable q, n, d, ?_, a1, a2, b5, ⟨c3, c4, Nat.mod_lt _ c3⟩, ?_⟩
  · unfold picked
    rw [hpq]
    rfl
  · show BQ.filterLengthFor .fastestTolerable q / 2 / q.num * q.num * 78 ≤ 2480 * max q.den q.num + 78
    have h1 : BQ.filterLengthFor .fastestTolerable q / 2 / q.num * q.num ≤ BQ.filterLengthFor .fastestTolerable q / 2 :=
      Nat.div_mul_le_self _ _
    have h2 : 39 * BQ.filterLengthFor .fastestTolerable q ≤ 2480 * max q.den q.num + 78 := by
      have e : q.peakToZero * (62 : Nat) + 1 = (2480 * ((max q.den q.num : Nat) : Rat) + 39) / 39 := by
        rw [b7]
        show ((max q.den q.num : Nat) : Rat) / (975 / 1000) * ((62 : Nat) : Rat) + 1 = _
        push_cast
        ring
      have hfl : (q.peakToZero * (62 : Nat) + 1).floor.toNat * 39 ≤ 2480 * max q.den q.num + 39 := by
        have hf : (((q.peakToZero * (62 : Nat) + 1).floor : Int) : Rat) ≤ q.peakToZero * (62 : Nat) + 1 := Rat.floor_le _
        rw [e, le_div_iff₀ (by norm_num)] at hf
        have hf' : (q.peakToZero * (62 : Nat) + 1).floor * 39 ≤ ((2480 * max q.den q.num + 39 : Nat) : Int) := by
          rw [e]
          exact_mod_cast hf
        omega
      unfold BQ.filterLengthFor
      simp only
      have hmul : BQ.Quality.fastestTolerable.pMultiple = 62 := rfl
      rw [hmul]
      split <;> omega
    omega

theorem picked_le {ratio : Rat} {R : Rs} {n d u v : Nat} (hr : 0 < ratio) (hu : ratio ≤ (u : Rat) / v)
    (h : MathMisc.pickNearestRational ratio (BQ.maxDenom resamplerCfg ratio) = some (n, d)) (hd : 1 ≤ d)
    (hR : R.num * d = n * R.den) (hv : 1 ≤ v) (hvm : 2 * v ≤ BQ.maxDenom resamplerCfg ratio)
    (hm : v * BQ.maxDenom resamplerCfg ratio < 1000000000) : R.num * v ≤ u * R.den := by
  have := (MathMisc.C12_simple_partial (u := u) hr h hv hvm hm).1 hu
  rw [div_le_div_iff₀ (by exact_mod_cast hd) (by exact_mod_cast hv)] at this
  have h' : n * v ≤ u * d := by exact_mod_cast this
  have : R.num * v * d ≤ u * R.den * d := by
    calc R.num * v * d = n * v * R.den := by rw [Nat.mul_right_comm, hR, Nat.mul_right_comm]
      _ ≤ u * d * R.den := Nat.mul_le_mul_right _ h'
      _ = u * R.den * d := Nat.mul_right_comm _ _ _
  exact Nat.le_of_mul_le_mul_right this (by omega)

theorem picked_ge {ratio : Rat} {R : Rs} {n d u v : Nat} (hr : 0 < ratio) (hu : (u : Rat) / v ≤ ratio)
    (h : MathMisc.pickNearestRational ratio (BQ.maxDenom resamplerCfg ratio) = some (n, d)) (hd : 1 ≤ d)
    (hR : R.num * d = n * R.den) (hv : 1 ≤ v) (hvm : 2 * v ≤ BQ.maxDenom resamplerCfg ratio)
    (hm : v * BQ.maxDenom resamplerCfg ratio < 1000000000) : u * R.den ≤ R.num * v := by
  have := (MathMisc.C12_simple_partial (u := u) hr h hv hvm hm).2 hu
  rw [div_le_div_iff₀ (by exact_mod_cast hv) (by exact_mod_cast hd)] at this
  have h' : u * d ≤ n * v := by exact_mod_cast this
  have : u * R.den * d ≤ R.num * v * d := by
    calc u * R.den * d = u * d * R.den := Nat.mul_right_comm _ _ _
      _ ≤ n * v * R.den := Nat.mul_le_mul_right _ h'
      _ = R.num * v * d := by rw [Nat.mul_right_comm R.num, hR, Nat.mul_right_comm]
  exact Nat.le_of_mul_le_mul_right this (by omega)

theorem maxDenom_low {ratio : Rat} (h : ratio ≤ 1) : BQ.maxDenom resamplerCfg ratio = 96000 := by
  unfold BQ.maxDenom
  rw [if_neg (by decide), if_neg (not_lt.mpr h)]
  rfl

theorem maxDenom_high {ratio : Rat} (h2 : ratio ≤ 15) :
    6400 ≤ BQ.maxDenom resamplerCfg ratio ∧ BQ.maxDenom resamplerCfg ratio ≤ 96000 := by
  by_cases h1 : ratio > 1
  · unfold BQ.maxDenom
    rw [if_neg (by decide), if_pos h1]
    show 6400 ≤ (((96000 : Nat) : Rat) / ratio).ceil.toNat ∧ (((96000 : Nat) : Rat) / ratio).ceil.toNat ≤ 96000
    have hpos : 0 < ratio := by linarith
    have a1 : (((96000 : Nat) : Rat) / ratio).ceil ≤ 96000 := by
      rw [Rat.ceil_le_iff, div_le_iff₀ hpos]
      push_cast
      nlinarith
    have a2 : (6400 : Rat) ≤ ((96000 : Nat) : Rat) / ratio := by
      rw [le_div_iff₀ hpos]; push_cast; linarith
    have a3 : ((96000 : Nat) : Rat) / ratio ≤ ((((96000 : Nat) : Rat) / ratio).ceil : Rat) := Rat.le_ceil
    have a4 : (6400 : Int) ≤ (((96000 : Nat) : Rat) / ratio).ceil := by
      have : (6400 : Rat) ≤ ((((96000 : Nat) : Rat) / ratio).ceil : Rat) := le_trans a2 a3
      exact_mod_cast this
    omega
  · rw [maxDenom_low (not_lt.mp h1)]
    omega

theorem even_half {n : Nat} (h : 2 ∣ n) : ∃ k, n = 2 * k := h

/-- For pitch scales from 1/15 to 7/2 everything fits. -/
theorem suits {p : Params} (h1 : 1 / 15 ≤ p.pitch) (h2 : p.pitch ≤ 7 / 2) :
    ∃ Rin Rout, picked p.inRatio = some Rin ∧ picked p.outRatio = some Rout ∧ Suits p Rin Rout := by
  have hp0 : 0 < p.pitch := by linarith
  obtain ⟨w, _, _, _, _, w5, w6, w7⟩ := sizes p
  -- the first resampler
  have hin : 2 / 7 ≤ p.inRatio ∧ p.inRatio ≤ 1 := by
    unfold Params.inRatio
    split
    · constructor
      · rw [le_div_iff₀ hp0]; linarith
      · rw [div_le_iff₀ hp0]; linarith
    · constructor <;> norm_num
  obtain ⟨Rin, n, d, a1, a2, a3, a4, a5, a6⟩ := picked_spec (ratio := p.inRatio) (by unfold ValidRatio; linarith [hin.1])
  have hmd := maxDenom_low hin.2
  have b1 : Rin.num * 1 ≤ 1 * Rin.den := picked_le (by linarith [hin.1]) (by norm_num; exact hin.2) a2 a3 a4 (by omega)
    (by omega) (by omega)
  have b2 : 2 * Rin.den ≤ Rin.num * 7 := picked_ge (by linarith [hin.1]) (by push_cast; exact hin.1) a2 a3 a4 (by omega)
    (by omega) (by omega)
  have b3 : Rin.reach < 512 := by
    by_contra hc
    have hn := a5.num
    have : 512 * Rin.num ≤ Rin.reach * Rin.num := Nat.mul_le_mul_right _ (not_lt.mp hc)
    omega
  -- the second
  have hout : 1 ≤ p.outRatio ∧ p.outRatio ≤ 15 := by
    unfold Params.outRatio
    split
    · constructor
      · rw [le_div_iff₀ hp0]; linarith
      · rw [div_le_iff₀ hp0]; linarith
    · constructor <;> norm_num
  have hout0 : 0 < p.outRatio := by linarith [hout.1]
  obtain ⟨Rout, n', d', c1, c2, c3, c4, c5, c6⟩ := picked_spec (ratio := p.outRatio) (by unfold ValidRatio; linarith [hout.1])
  obtain ⟨m1, m2⟩ := maxDenom_high hout.2
  -- the frames per block
  have hq1 : (34 : Rat) ≤ (blockSize : Rat) / p.outRatio := by
    rw [le_div_iff₀ hout0]; unfold blockSize; push_cast; linarith [hout.2]
  have hq2 : (blockSize : Rat) / p.outRatio ≤ 512 := by
    rw [div_le_iff₀ hout0]; unfold blockSize; push_cast; linarith [hout.1]
  have hneed0 : 34 ≤ ((blockSize : Rat) / p.outRatio).ceil := by
    have : ((34 : Int) : Rat) ≤ ((((blockSize : Rat) / p.outRatio).ceil : Int) : Rat) := by
      push_cast; exact le_trans hq1 Rat.le_ceil
    exact_mod_cast this
  have hneed1 : ((blockSize : Rat) / p.outRatio).ceil ≤ 512 := Rat.ceil_le_iff.mpr (by push_cast; exact hq2)
  have hfeed0 : 34 ≤ ((blockSize : Rat) / p.outRatio).floor := Rat.le_floor_iff.mpr (by push_cast; exact hq1)
  have hceil : (p.need : Int) = ((blockSize : Rat) / p.outRatio).ceil := by unfold Params.need; omega
  have hfloor : (p.feed : Int) = ((blockSize : Rat) / p.outRatio).floor := by
    unfold Params.feed; simp only; rw [if_neg (by omega)]; omega
  have hle1 : (p.feed : Rat) ≤ (blockSize : Rat) / p.outRatio := by
    have : ((((blockSize : Rat) / p.outRatio).floor : Int) : Rat) ≤ (blockSize : Rat) / p.outRatio := Rat.floor_le _
    rw [← hfloor] at this
    exact_mod_cast this
  have hle2 : (blockSize : Rat) / p.outRatio ≤ (p.need : Rat) := by
    have : (blockSize : Rat) / p.outRatio ≤ ((((blockSize : Rat) / p.outRatio).ceil : Int) : Rat) := Rat.le_ceil
    rw [← hceil] at this
    exact_mod_cast this
  have hlt : p.need ≤ p.feed + 1 := by
    have g1 : ((blockSize : Rat) / p.outRatio).ceil ≤ ((blockSize : Rat) / p.outRatio).floor + 1 := by
      rw [Rat.ceil_le_iff]
      exact le_of_lt (Rat.lt_floor_add_one _)
    omega
  have hfn : p.feed ≤ p.need := by
    have : (p.feed : Rat) ≤ p.need := le_trans hle1 hle2
    exact_mod_cast this
  have hfeedpos : 1 ≤ p.feed := by omega
  have hneedpos : 1 ≤ p.need := by omega
  have k1 : Rout.num * p.feed ≤ 512 * Rout.den := by
    refine picked_le hout0 ?_ c2 c3 c4 hfeedpos (by omega) ?_
    · rw [le_div_iff₀ (by exact_mod_cast hfeedpos)]
      rw [le_div_iff₀ hout0] at hle1
      unfold blockSize at hle1
      push_cast at hle1 ⊢
      linarith
    · calc p.feed * BQ.maxDenom resamplerCfg p.outRatio ≤ 512 * 96000 := Nat.mul_le_mul (by omega) m2
        _ < _ := by norm_num
  have k2 : 512 * Rout.den ≤ Rout.num * p.need := by
    refine picked_ge hout0 ?_ c2 c3 c4 hneedpos (by omega) ?_
    · rw [div_le_iff₀ (by exact_mod_cast hneedpos)]
      rw [div_le_iff₀ hout0] at hle2
      unfold blockSize at hle2
      push_cast at hle2 ⊢
      linarith
    · calc p.need * BQ.maxDenom resamplerCfg p.outRatio ≤ 512 * 96000 := Nat.mul_le_mul (by omega) m2
        _ < _ := by norm_num
  have k3 : 1 * Rout.den ≤ Rout.num * 1 := picked_ge hout0 (by norm_num; exact hout.1) c2 c3 c4 (by omega) (by omega) (by omega)
  have k4 : Rout.reach ≤ 32 := by
    by_contra hc
    have hn := c5.num
    have : 33 * Rout.num ≤ Rout.reach * Rout.num := Nat.mul_le_mul_right _ (by omega)
    omega
  refine ⟨Rin, Rout, a1, c1, ⟨a5, by omega, by omega, b3, ⟨c5, by omega, hfeedpos, hfn, ?_, ?_⟩, by omega, ⟨by omega, by omega⟩, hlt,
    ?_, ?_, ?_⟩⟩
  · rw [Nat.mul_comm]; exact k1
  · rw [Nat.mul_comm p.need]; exact k2
  · have e1 : (1 : Rat) ≤ (blockSize : Rat) * p.inRatio := by unfold blockSize; push_cast; linarith [hin.1]
    have e2 : (blockSize : Rat) * p.inRatio ≤ 512 := by unfold blockSize; push_cast; linarith [hin.2]
    have f1 : (1 : Int) ≤ ((blockSize : Rat) * p.inRatio).floor := Rat.le_floor_iff.mpr (by push_cast; exact e1)
    have f2 : ((blockSize : Rat) * p.inRatio).floor ≤ 512 := by
      have : ((((blockSize : Rat) * p.inRatio).floor : Int) : Rat) ≤ ((512 : Int) : Rat) := by
        push_cast; exact le_trans (Rat.floor_le _) e2
      exact_mod_cast this
    unfold Params.expected
    omega
  · obtain ⟨k, hk⟩ := even_half w7
    unfold Params.pad Params.ringSize
    split
    · rename_i hgt
      have e1 : ((p.windowSourceSize : Rat) * p.pitch).ceil ≤ ((7 * k : Nat) : Int) := by
        rw [Rat.ceil_le_iff, hk]
        push_cast
        have : (0 : Rat) ≤ k := Nat.cast_nonneg _
        nlinarith
      have e2 : ((p.windowSourceSize : Nat) : Int) ≤ ((p.windowSourceSize : Rat) * p.pitch).ceil := by
        have h0 : (p.windowSourceSize : Rat) ≤ (p.windowSourceSize : Rat) * p.pitch := by
          have : (0 : Rat) ≤ p.windowSourceSize := Nat.cast_nonneg _
          nlinarith
        have : (((p.windowSourceSize : Nat) : Int) : Rat) ≤ ((((p.windowSourceSize : Rat) * p.pitch).ceil : Int) : Rat) := by
          push_cast; exact le_trans h0 Rat.le_ceil
        exact_mod_cast this
      omega
    · omega
  · unfold Params.pad
    split
    · rename_i hgt
      right
      unfold Params.need Params.outRatio
      rw [if_neg (not_lt.mpr (le_of_lt hgt))]
      decide +kernel
    · exact Or.inl rfl

/-! ## C42 -/

/-- C42 in full: whatever the rate and the pitch scale, and however many blocks are processed, every
call gives a whole block. -/
def C42_statement : Prop :=
  ∀ (p : Params) (Rin Rout : Rs) (n : Nat) (s : State) (reports : List Report), 0 < p.pitch →
    picked p.inRatio = some Rin → picked p.outRatio = some Rout → run p Rin Rout n = some (s, reports) →
    ∀ r ∈ reports, r.got = blockSize

namespace Ex
/-- At 44100 Hz, four octaves and a bit lower. -/
def low : Params := { sampleRate := 44100, pitch := 1 / 20 }
def lowIn : Rs := ⟨1, 1, 32, 0⟩
def lowOut : Rs := ⟨20, 1, 31, 16⟩
/-- At 44100 Hz, two octaves and a bit higher. -/
def high : Params := { sampleRate := 44100, pitch := 5 }
def highIn : Rs := ⟨1, 5, 159, 0⟩
/-- At 8000 Hz, more than six octaves lower. -/
def deep : Params := { sampleRate := 8000, pitch := 1 / 100 }
def deepOut : Rs := ⟨100, 1, 31, 79⟩
def deepReports : List Report := [512, 0, 0, 80, 512, 512, 512, 512, 512, 512].map (⟨true, ·, 0⟩)
/-- A fifth lower. -/
def fifth : Params := { sampleRate := 48000, readahead := true, pitch := 2 / 3 }
end Ex

/-- C42 is false of the code: at 1/20 of the pitch the second block is made of 417 frames and 95
that only repeat the last of them, ever quieter.  The first block puts 26 frames into the second resampler,
fewer than its filter needs to begin, and the shortage appears in the second. -/
theorem C42_violated : ¬ C42_statement := by
  intro h
  have := h Ex.low Ex.lowIn Ex.lowOut 2 ⟨2048, 0, ⟨1024, 992⟩, ⟨52, 417⟩, false⟩ [⟨true, 512, 0⟩, ⟨true, 417, 0⟩]
    (by norm_num [Ex.low]) (by decide +kernel) (by decide +kernel) (by decide +kernel) ⟨true, 417, 0⟩ (by simp)
  exact absurd this (by decide)

/-- **C42 (partial).**  For every sample rate and every pitch scale from 1/15 to 7/2, and for any number
of blocks, every call gives a whole block.  Missing: other pitch scales, for some of
which it is false (`C42_violated`). -/
theorem C42_partial {p : Params} (h1 : 1 / 15 ≤ p.pitch) (h2 : p.pitch ≤ 7 / 2) :
    ∃ Rin Rout, picked p.inRatio = some Rin ∧ picked p.outRatio = some Rout ∧
      ∀ n, ∃ s reports, run p Rin Rout n = some (s, reports) ∧ reports.length = n ∧
        ∀ r ∈ reports, r.got = blockSize := by
  obtain ⟨Rin, Rout, a1, a2, a3⟩ := suits h1 h2
  refine ⟨Rin, Rout, a1, a2, ?_⟩
  intro n
  obtain ⟨s, b1, _⟩ := run_spec a3 n
  refine ⟨s, _, b1, List.length_replicate, ?_⟩
  intro r hr
  rw [List.mem_replicate] at hr
  rw [hr.2]
  rfl

example : 1 / 15 ≤ Ex.fifth.pitch ∧ Ex.fifth.pitch ≤ 7 / 2 ∧ picked Ex.fifth.outRatio = some ⟨3, 2, 31, 2⟩ ∧
    (run Ex.fifth ⟨1, 1, 32, 0⟩ ⟨3, 2, 31, 2⟩ 3).map (fun x => x.2.map (·.got)) = some [512, 512, 512] := by
  refine ⟨by norm_num [Ex.fifth], by norm_num [Ex.fifth], by decide +kernel, by decide +kernel⟩

/-! ## C70 -/

/-- C70 in full: no block of input is refused, and no frame lost between the stages. -/
def C70_statement : Prop :=
  ∀ (p : Params) (Rin Rout : Rs) (n : Nat) (s : State) (reports : List Report), 0 < p.pitch →
    picked p.inRatio = some Rin → picked p.outRatio = some Rout → run p Rin Rout n = some (s, reports) →
    ∀ r ∈ reports, r.accepted = true ∧ r.lost = 0

/-- C70 is false of the code: with the pitch raised fivefold, the padding for the first block fills the
input buffer, and the block itself is thrown away. -/
theorem C70_violated : ¬ C70_statement := by
  intro h
  have := h Ex.high Ex.highIn Ex.lowIn 1 ⟨2048, 0, {}, ⟨516, 484⟩, false⟩ [⟨false, 512, 0⟩]
    (by norm_num [Ex.high]) (by decide +kernel) (by decide +kernel) (by decide +kernel) ⟨false, 512, 0⟩ (by simp)
  exact absurd this.1 (by decide)

/-- **C70 (partial).**  For every sample rate, every pitch scale from 1/15 to 7/2 and any number of blocks,
every block of input is accepted and no frame is lost.  Missing: other pitch scales, for some of
which it is false (`C70_violated`). -/
theorem C70_partial {p : Params} (h1 : 1 / 15 ≤ p.pitch) (h2 : p.pitch ≤ 7 / 2) :
    ∃ Rin Rout, picked p.inRatio = some Rin ∧ picked p.outRatio = some Rout ∧
      ∀ n, ∃ s reports, run p Rin Rout n = some (s, reports) ∧ reports.length = n ∧
        ∀ r ∈ reports, r.accepted = true ∧ r.lost = 0 := by
  obtain ⟨Rin, Rout, a1, a2, a3⟩ := suits h1 h2
  refine ⟨Rin, Rout, a1, a2, ?_⟩
  intro n
  obtain ⟨s, b1, _⟩ := run_spec a3 n
  refine ⟨s, _, b1, List.length_replicate, ?_⟩
  intro r hr
  rw [List.mem_replicate] at hr
  rw [hr.2]
  exact ⟨rfl, rfl⟩

/-! ## C71 -/

/-- C71 in full: after every block the frames held between the resamplers are within 64 of a number fixed by
the settings. -/
def C71_statement : Prop :=
  ∀ (p : Params) (Rin Rout : Rs), 0 < p.pitch → picked p.inRatio = some Rin → picked p.outRatio = some Rout →
    ∃ k, ∀ n s reports, run p Rin Rout (n + 1) = some (s, reports) → k ≤ s.inbuf + s.outbuf + 64 ∧ s.inbuf + s.outbuf ≤ k + 64

/-- C71 is false of the code: at 8000 Hz and 1/100 of the pitch, a block needs 6 frames of output,
but each round of generation makes one in each of eight hops.  After some blocks a round is skipped, and a block of input
left behind. -/
theorem C71_violated : ¬ C71_statement := by
  intro h
  obtain ⟨k, hk⟩ := h Ex.deep Ex.lowIn Ex.deepOut (by norm_num [Ex.deep]) (by decide +kernel) (by decide +kernel)
  have h1 := hk 0 ⟨1024, 0, ⟨512, 480⟩, ⟨8, 0⟩, false⟩ [⟨true, 512, 0⟩] (by decide +kernel)
  have h2 := hk 9 ⟨1536, 9, ⟨5120, 5088⟩, ⟨63, 3152⟩, false⟩ Ex.deepReports (by decide +kernel)
  simp only at h1 h2
  omega

/-- **C71 (partial).**  For every sample rate and every pitch scale from 1/15 to 7/2 the shifter holds, after
any number of blocks, one window of input but for at most 50 frames, and no more than 51 frames
of output: the delay does not drift.  Missing: other pitch scales, for some of which it is false
(`C71_violated`). -/
theorem C71_partial {p : Params} (h1 : 1 / 15 ≤ p.pitch) (h2 : p.pitch ≤ 7 / 2) :
    ∃ Rin Rout, picked p.inRatio = some Rin ∧ picked p.outRatio = some Rout ∧
      ∀ n, ∃ s reports, run p Rin Rout (n + 1) = some (s, reports) ∧
        s.inbuf ≤ p.windowSourceSize ∧ p.windowSourceSize ≤ s.inbuf + 50 ∧ s.outbuf ≤ 51 := by
  obtain ⟨Rin, Rout, a1, a2, a3⟩ := suits h1 h2
  refine ⟨Rin, Rout, a1, a2, ?_⟩
  intro n
  obtain ⟨s, b1, b2⟩ := run_spec a3 (n + 1)
  rcases b2 with ⟨b2, _⟩ | b2
  · omega
  · exact ⟨s, _, b1, b2.inLe, b2.inGe, b2.outLe⟩

/-- With the pitch raised three and a half times, the first round overshoots, and the second
makes up for it. -/
example : (run { sampleRate := 8000, readahead := true, pitch := 7 / 2 } ⟨2, 7, 111, 1⟩ ⟨1, 1, 32, 0⟩ 1).map
      (fun x => (x.1.inbuf, x.1.outbuf)) = some (1074, 0) ∧
    (run { sampleRate := 8000, readahead := true, pitch := 7 / 2 } ⟨2, 7, 111, 1⟩ ⟨1, 1, 32, 0⟩ 2).map
      (fun x => (x.1.inbuf, x.1.outbuf)) = some (1087, 6) := by
  constructor <;> decide +kernel

end Verif.Live
