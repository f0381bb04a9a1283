import Verif.R2Given
/-!
# The faster engine in real time: what is given is resampled once and stretched (C150)
-/
namespace Verif.R2
open Verif.Round Verif.StretchCalc

variable {α σ ρ κ : Type}

section
variable [Zero α] [Add α] [Sub α] {p : Params} {env : Env α σ ρ κ} {ratio : Rat} (M : Modest env ratio)

/-- As `Whole` for a channel, before the end. -/
structure HeardBy (p : Params) (env : Env α σ ρ κ) (ok : ρ → Prop) (c : Nat) (g : List (Frame α)) (cd : Chan α σ (ρ × Log α)) : Prop where
  log : ∃ r log, cd.resampler = some (r, log) ∧ ok r ∧ Log.putIn log = g.map (prepared p env c) ∧ (∀ x ∈ log, x.2.1 = false) ∧ cd.inbuf.data <:+ Log.cameOut log
  bound : cd.inbuf.data.length ≤ cd.inbuf.cap

theorem HeardBy.rest {ok : ρ → Prop} {c : Nat} {g : List (Frame α)} {cd cd' : Chan α σ (ρ × Log α)} (h : HeardBy p env ok c g cd) (hr : Rest cd cd') : HeardBy p env ok c g cd' := by
  obtain ⟨r, log, h1, h2, h3, h4, h5⟩ := h.log
  obtain ⟨n, hn⟩ := hr.data
  refine ⟨⟨r, log, hr.resampler.trans h1, h2, h3, h4, ?_⟩, ?_⟩
  · rw [hn]; exact (List.drop_suffix n _).trans h5
  · rw [hn, hr.cap, List.length_drop]; exact le_trans (Nat.sub_le _ _) h.bound

/-- So many samples, resampled, fit. -/
theorem toResample_fits {z : Sizes} (hz : 0 < z.pitchScale) (c : Nat) (cd : Chan α σ (ρ × Log α)) (samples : Nat) :
    (((toResample p z c cd samples).1 : Rat) / z.pitchScale).ceil.toNat ≤ cd.inbuf.writeSpace := by
  have key : ∀ n : Nat, (if cd.inbuf.writeSpace < ((samples : Rat) / z.pitchScale).ceil.toNat then ((cd.inbuf.writeSpace : Rat) * z.pitchScale).floor.toNat else samples) ≥ n →
      ((n : Rat) / z.pitchScale).ceil.toNat ≤ cd.inbuf.writeSpace := by
    intro n hn
    split at hn
    · have h1 : (n : Rat) ≤ cd.inbuf.writeSpace * z.pitchScale := by
        have h0 : (0 : Int) ≤ ((cd.inbuf.writeSpace : Rat) * z.pitchScale).floor := Rat.le_floor_iff.mpr (by push_cast; positivity)
        have h2 : (n : Int) ≤ ((cd.inbuf.writeSpace : Rat) * z.pitchScale).floor := by omega
        exact_mod_cast Rat.le_floor_iff.mp h2
      have h2 : (n : Rat) / z.pitchScale ≤ cd.inbuf.writeSpace := by rw [div_le_iff₀ hz]; exact h1
      have h3 : ((n : Rat) / z.pitchScale).ceil ≤ (cd.inbuf.writeSpace : Int) := Rat.ceil_le_iff.mpr (by exact_mod_cast h2)
      omega
    · rename_i h
      have h1 : (n : Rat) / z.pitchScale ≤ (samples : Rat) / z.pitchScale := by
        apply div_le_div_of_nonneg_right _ hz.le
        exact_mod_cast hn
      have h3 : ((n : Rat) / z.pitchScale).ceil ≤ ((samples : Rat) / z.pitchScale).ceil := Rat.ceil_le_iff.mpr (le_trans h1 Rat.le_ceil)
      omega
  apply key
  unfold toResample
  simp only [decide_eq_true_eq]
  generalize (if cd.inbuf.writeSpace < ((samples : Rat) / z.pitchScale).ceil.toNat then ((cd.inbuf.writeSpace : Rat) * z.pitchScale).floor.toNat else samples) = m
  split
  · rename_i h
    rw [Bool.and_eq_true, decide_eq_true_eq] at h
    exact h.2.le
  · exact le_refl _

/-- StretcherProcess.cpp:149-242 `consumeChannel` when it resamples (`consumeResampled`), told how much is to be resampled and what resamples it; as `consume_with` says, nothing else. -/
def consumeWith {π : Type} (f : π → Nat → List α → Rat → Bool → π × List α) (z : Sizes) (n : Nat) (shortened : Bool) (xs : List α) (cd : Chan α σ π) (r : π) (final : Bool) : Chan α σ π × Nat :=
  if shortened && n == 0 then (cd, 0)
  else
    let room := max cd.resamplebufSize ((n : Rat) / z.pitchScale).ceil.toNat
    let y := f r room xs (1 / z.pitchScale) (final && !shortened)
    let cd := { cd with resampler := some y.1, resamplebufSize := room }
    if cd.inbuf.writeSpace < (y.2.take room).length then (cd, 0)
    else ({ cd with inbuf := cd.inbuf.write (y.2.take room), inCount := cd.inCount + n }, n)

theorem consume_with {π : Type} (E : Env α σ π κ) (z : Sizes) (c : Nat) (cd : Chan α σ π) (r : π) (input : List (Frame α)) (final : Bool) :
    consumeResampled p E z c cd r input final =
      consumeWith E.resample z (toResample p z c cd input.length).1 (toResample p z c cd input.length).2 ((input.take (toResample p z c cd input.length).1).map (prepared p E c)) cd r final := rfl

theorem heard_consume {z : Sizes} (hz : 0 < z.pitchScale) (hr : ratio = 1 / z.pitchScale) {c : Nat} {g : List (Frame α)} {cd : Chan α σ (ρ × Log α)} (h : HeardBy p env M.ok c g cd)
    {r : ρ × Log α} (hres : cd.resampler = some r) (input : List (Frame α)) :
    HeardBy p env M.ok c (g ++ input.take (consumeResampled p (logged env) z c cd r input false).2) (consumeResampled p (logged env) z c cd r input false).1 := by
  rw [consume_with]
  obtain ⟨f, hf⟩ : ∃ f, f = (logged env).resample := ⟨_, rfl⟩
  rw [← hf]
  have hfit := toResample_fits (p := p) hz c cd input.length
  generalize toResample p z c cd input.length = x at hfit
  obtain ⟨n, shortened⟩ := x
  simp only at hfit ⊢
  unfold consumeWith
  split
  · simpa using h
  · obtain ⟨r', log, h1, h2, h3, h4, h5⟩ := h.log
    rw [hres] at h1
    obtain rfl := Option.some.inj h1
    generalize hroom : max cd.resamplebufSize ((n : Rat) / z.pitchScale).ceil.toNat = room
    generalize hxs : (input.take n).map (prepared p (logged env) c) = xs
    have hlen : (xs.length : Rat) * ratio ≤ (n : Rat) / z.pitchScale := by
      rw [hr, mul_one_div]
      apply div_le_div_of_nonneg_right _ hz.le
      rw [← hxs, List.length_map, List.length_take]
      exact_mod_cast Nat.min_le_left _ _
    have hceil : ((xs.length : Rat) * ratio).ceil.toNat ≤ ((n : Rat) / z.pitchScale).ceil.toNat := by
      have : ((xs.length : Rat) * ratio).ceil ≤ ((n : Rat) / z.pitchScale).ceil := Rat.ceil_le_iff.mpr (le_trans hlen Rat.le_ceil)
      omega
    obtain ⟨s1, s2⟩ := M.step r' room xs h2 (by omega)
    simp only [Bool.false_and]
    rw [show f (r', log) room xs (1 / z.pitchScale) false =
      (((env.resample r' room xs ratio false).1, log ++ [(xs, false, (env.resample r' room xs ratio false).2)]), (env.resample r' room xs ratio false).2) by rw [hr, hf]; rfl]
    generalize env.resample r' room xs ratio false = y at s1 s2
    simp only
    have htake : y.2.take room = y.2 := List.take_of_length_le (by omega)
    rw [htake, if_neg (show ¬ cd.inbuf.writeSpace < y.2.length by omega)]
    have hw : cd.inbuf.write y.2 = { cd.inbuf with data := cd.inbuf.data ++ y.2 } := by
      unfold Fifo.write
      rw [List.take_of_length_le (by omega)]
    refine ⟨⟨y.1, log ++ [(xs, false, y.2)], rfl, s1, ?_, ?_, ?_⟩, ?_⟩
    · rw [show Log.putIn (log ++ [(xs, false, y.2)]) = Log.putIn log ++ xs by simp [Log.putIn], h3, List.map_append, ← hxs]
      rfl
    · intro e he
      rcases List.mem_append.mp he with he | he
      · exact h4 e he
      · rw [List.mem_singleton.mp he]
    · rw [show Log.cameOut (log ++ [(xs, false, y.2)]) = Log.cameOut log ++ y.2 by simp [Log.cameOut]]
      show (cd.inbuf.write y.2).data <:+ _
      rw [hw]
      obtain ⟨t, ht⟩ := h5
      exact ⟨t, by rw [← List.append_assoc, ht]⟩
    · show (cd.inbuf.write y.2).data.length ≤ (cd.inbuf.write y.2).cap
      have hb := h.bound
      have hs : y.2.length ≤ cd.inbuf.writeSpace := by omega
      unfold Fifo.writeSpace at hs
      rw [hw]
      simp only [List.length_append]
      omega

theorem heard_round (hrt : p.realTime = true) {z : Sizes} (hz : 0 < z.pitchScale) (hb : resampleBefore p z.pitchScale = true) (hr : ratio = 1 / z.pitchScale) {incs : List Int} {c : Nat}
    {g input : List (Frame α)} {cd : Chan α σ (ρ × Log α)} {used : Nat} (h : HeardBy p env M.ok c (g ++ input.take used) cd) {r : Chan α σ (ρ × Log α) × Nat}
    (e : channelRound p (logged env) z incs c input false cd used = some r) : HeardBy p env M.ok c (g ++ input.take r.2) r.1 := by
  obtain ⟨⟨r0, log⟩, hres⟩ : ∃ r, cd.resampler = some r := by
    obtain ⟨r, log, h1, _⟩ := h.log; exact ⟨_, h1⟩
  unfold channelRound at e
  simp only [Option.bind_eq_bind, consumeChannel, hb, if_true, hres, Option.map_some, Option.bind_some, Bool.false_eq_true, and_false, if_false, hrt] at e
  obtain rfl := Option.some.inj e
  have := heard_consume M hz hr h hres (input.drop used)
  rw [List.append_assoc, ← List.take_add] at this
  exact this

theorem heard_channels (hrt : p.realTime = true) {z : Sizes} (hz : 0 < z.pitchScale) (hb : resampleBefore p z.pitchScale = true) (hr : ratio = 1 / z.pitchScale) {incs : List Int}
    {g input : List (Frame α)} : ∀ (l : List (Chan α σ (ρ × Log α) × Nat)) (c : Nat) (r : List (Chan α σ (ρ × Log α) × Nat)),
    (∀ i x, l[i]? = some x → HeardBy p env M.ok (c + i) (g ++ input.take x.2) x.1) → channelsRound p (logged env) z incs input false c l = some r →
    ∀ i x, r[i]? = some x → HeardBy p env M.ok (c + i) (g ++ input.take x.2) x.1
  | [], c, r, h, e => by
    obtain rfl := Option.some.inj e
    intro i x hx
    simp at hx
  | (cd, used) :: l, c, r, h, e => by
    unfold channelsRound at e
    simp only [Option.bind_eq_bind] at e
    obtain ⟨y, e1, e⟩ := Option.bind_eq_some_iff.mp e
    obtain ⟨ys, e2, e⟩ := Option.bind_eq_some_iff.mp e
    obtain rfl := Option.some.inj e
    intro i x hx
    cases i with
    | zero =>
      obtain rfl := Option.some.inj hx
      exact heard_round M hrt hz hb hr (h 0 (cd, used) rfl) e1
    | succ i =>
      have := heard_channels hrt hz hb hr l (c + 1) ys (fun j w hw => by
        have := h (j + 1) w hw
        rwa [show c + (j + 1) = c + 1 + j by omega] at this) e2 i x hx
      rwa [show c + 1 + i = c + (i + 1) by omega] at this

/-- All channels. -/
def HeardAll (p : Params) (env : Env α σ ρ κ) (ok : ρ → Prop) (g : List (Frame α)) (s : State α σ (ρ × Log α) κ) : Prop :=
  ∀ c cd, s.chans[c]? = some cd → HeardBy p env ok c g cd

theorem rests_get {l m : List (Chan α σ ρ)} (h : Rests l m) {c : Nat} {y : Chan α σ ρ} (hy : m[c]? = some y) : ∃ x, l[c]? = some x ∧ Rest x y := by
  unfold Rests at h
  induction h generalizing c with
  | nil => simp at hy
  | cons a _ ih =>
    cases c with
    | zero => obtain rfl := Option.some.inj hy; exact ⟨_, rfl, a⟩
    | succ c => exact ih hy

theorem HeardAll.stays {ok : ρ → Prop} {g : List (Frame α)} {s s' : State α σ (ρ × Log α) κ} (h : HeardAll p env ok g s) (hs : Stays s s') : HeardAll p env ok g s' := by
  intro c cd hc
  obtain ⟨x, h1, h2⟩ := rests_get hs.chans hc
  exact (h c x h1).rest h2

theorem heard_loop (hrt : p.realTime = true) {g input : List (Frame α)} : ∀ (fuel : Nat) (s s' : State α σ (ρ × Log α) κ) (used : List Nat), 0 < s.sizes.pitchScale →
    resampleBefore p s.sizes.pitchScale = true → ratio = 1 / s.sizes.pitchScale → used.length = s.chans.length →
    (∀ c cd n, s.chans[c]? = some cd → used[c]? = some n → HeardBy p env M.ok c (g ++ input.take n) cd) → processLoop p (logged env) input false fuel s used = some s' →
    HeardAll p env M.ok (g ++ input) s' ∧ s'.sizes = s.sizes ∧ s'.mode = s.mode
  | 0, s, s', used, _, _, _, _, _, e => by simp [processLoop] at e
  | fuel + 1, s, s', used, hz, hb, hr, hlen, h, e => by
    unfold processLoop at e
    obtain ⟨⟨t, used'⟩, e1, e⟩ := Option.bind_eq_some_iff.mp e
    unfold processRound at e1
    simp only [Option.bind_eq_bind, hrt, if_true] at e1
    obtain ⟨xs, e2, e1⟩ := Option.bind_eq_some_iff.mp e1
    obtain ⟨t', e3, e1⟩ := Option.bind_eq_some_iff.mp e1
    simp only [Option.pure_def, Option.some.injEq, Prod.mk.injEq] at e1
    obtain ⟨rfl, rfl⟩ := e1
    obtain ⟨y, e4, rfl⟩ := Option.map_eq_some_iff.mp e3
    have h1 := heard_channels M hrt hz hb hr (g := g) (input := input) (s.chans.zip used) 0 xs (fun i x hx => by
      rw [List.getElem?_zip_eq_some] at hx
      rw [Nat.zero_add]
      exact h i x.1 x.2 hx.1 hx.2) e2
    have h2 := stays_oneChunk (s := { s with chans := xs.map fun x => x.1 }) hb e4
    have h3 : ∀ c cd n, y.1.chans[c]? = some cd → (xs.map fun x => x.2)[c]? = some n → HeardBy p env M.ok c (g ++ input.take n) cd := by
      intro c cd n hc hn
      obtain ⟨x, hx1, hx2⟩ := rests_get h2.chans hc
      rw [List.getElem?_map, Option.map_eq_some_iff] at hx1 hn
      obtain ⟨w, hw1, hw2⟩ := hx1
      obtain ⟨w', hw1', hw2'⟩ := hn
      rw [hw1] at hw1'
      obtain rfl := Option.some.inj hw1'
      have := h1 c w hw1
      rw [Nat.zero_add, hw2, hw2'] at this
      exact this.rest hx2
    have h4 : (xs.map fun x => x.2).length = y.1.chans.length := by
      have := h2.chans.length_eq
      simpa using this
    have h5 : y.1.sizes = s.sizes := h2.sizes
    have h6 : y.1.mode = s.mode := h2.mode
    simp only at e
    split at e
    · rename_i hall
      obtain rfl := Option.some.inj e
      refine ⟨?_, h5, h6⟩
      intro c cd hc
      obtain ⟨n, hn⟩ : ∃ n, (xs.map fun x => x.2)[c]? = some n := by
        have : c < (xs.map fun x => x.2).length := by
          rw [h4]; exact (List.getElem?_eq_some_iff.mp hc).1
        exact ⟨_, List.getElem?_eq_getElem this⟩
      have h7 := h3 c cd n hc hn
      have h8 : n ≥ input.length := by
        rw [List.all_eq_true] at hall
        simpa using hall n (List.mem_of_getElem? hn)
      rwa [List.take_of_length_le h8] at h7
    · obtain ⟨a, b, d⟩ := heard_loop hrt fuel y.1 s' _ (by rw [h5]; exact hz) (by rw [h5]; exact hb) (by rw [h5]; exact hr) h4 h3 e
      exact ⟨a, b.trans h5, d.trans h6⟩

/-! ## Calls -/

theorem fixRatios_pitch (q : Rat) {b : Rat} (hb : 0 < b) : (R3.fixRatios (.fin q) (.fin b)).2 = b := by
  rcases lt_or_ge 0 q with hq | hq
  · rw [R3.fixRatios_fin hq hb]
  · have h1 := R3.fixRatios_fin (t := 1) (ps := b) one_pos hb
    have e : (R3.Dbl.fin q).nonPos = true := by simp [R3.Dbl.nonPos, hq]
    have e1 : (R3.Dbl.fin 1).nonPos = false := by decide
    unfold R3.fixRatios at h1 ⊢
    simp only [e, e1, if_true, Bool.false_eq_true, if_false] at h1 ⊢
    rw [h1]

theorem heard_reconfigure (hrt : p.realTime = true) {g : List (Frame α)} {s t : State α σ (ρ × Log α) κ} {q : Rat} (hz : 0 < s.sizes.pitchScale)
    (h : HeardAll p env M.ok g s) (e : reconfigure p (logged env) s (.fin q) (.fin s.sizes.pitchScale) = some t) :
    HeardAll p env M.ok g t ∧ t.sizes.pitchScale = s.sizes.pitchScale ∧ t.mode = s.mode := by
  unfold reconfigure at e
  rw [if_pos hrt] at e
  obtain ⟨u, hu, e⟩ := Option.bind_eq_some_iff.mp e
  unfold resize at hu
  obtain ⟨z, hz', hu⟩ := Option.bind_eq_some_iff.mp hu
  have hps : z.pitchScale = s.sizes.pitchScale := by
    unfold calculateSizes at hz'
    obtain ⟨base, _, hz'⟩ := Option.bind_eq_some_iff.mp hz'
    obtain ⟨l, _, hz'⟩ := Option.bind_eq_some_iff.mp hz'
    obtain ⟨inc, _, hz'⟩ := Option.bind_eq_some_iff.mp hz'
    cases hz'
    exact fixRatios_pitch q hz
  have hu1 : u.sizes = z ∧ u.chans = s.chans ∧ u.mode = s.mode := by
    cases hu; exact ⟨rfl, rfl, rfl⟩
  obtain ⟨u1, u2, u3⟩ := hu1
  have hset : ∀ (l : List (Chan α σ (ρ × Log α))) w f, (∀ c cd, l[c]? = some cd → HeardBy p env M.ok c g cd) →
      ∀ c cd, (l.map (Chan.setSizes (logged env) w f))[c]? = some cd → HeardBy p env M.ok c g cd := by
    intro l w f hl c cd hc
    rw [List.getElem?_map, Option.map_eq_some_iff] at hc
    obtain ⟨x, hx, rfl⟩ := hc
    obtain ⟨⟨r, log, h1, h2, h3, h4, h5⟩, h6⟩ := hl c x hx
    unfold Chan.setSizes
    simp only
    split
    · exact ⟨⟨r, log, h1, h2, h3, h4, h5⟩, h6⟩
    · rename_i hm
      refine ⟨⟨r, log, h1, h2, h3, h4, ?_⟩, ?_⟩
      · show List.take _ _ <:+ _
        rw [List.take_of_length_le (by omega)]
        exact h5
      · show (List.take _ _).length ≤ _
        rw [List.length_take]
        exact Nat.min_le_left _ _
  have hout : ∀ (l : List (Chan α σ (ρ × Log α))) n, (∀ c cd, l[c]? = some cd → HeardBy p env M.ok c g cd) →
      ∀ c cd, (l.map (Chan.setOutbufSize n))[c]? = some cd → HeardBy p env M.ok c g cd := by
    intro l n hl c cd hc
    rw [List.getElem?_map, Option.map_eq_some_iff] at hc
    obtain ⟨x, hx, rfl⟩ := hc
    exact (hl c x hx).rest (.of_eq rfl rfl)
  simp only [Option.pure_def, Option.some.injEq] at e
  have ht : t.sizes = u.sizes ∧ t.mode = u.mode := by rw [← e]; exact ⟨rfl, rfl⟩
  refine ⟨?_, by rw [ht.1, u1, hps], by rw [ht.2, u3]⟩
  have h0 : ∀ c cd, u.chans[c]? = some cd → HeardBy p env M.ok c g cd := by rw [u2]; exact h
  have h1 : ∀ c cd, (if u.sizes.window ≠ s.sizes.window then u.chans.map (Chan.setSizes (logged env) u.sizes.window u.sizes.fftSize) else u.chans)[c]? = some cd → HeardBy p env M.ok c g cd := by
    split
    · exact hset _ _ _ h0
    · exact h0
  rw [← e]
  show ∀ c cd, _ → _
  simp only
  split
  · exact hout _ _ h1
  · exact h1

/-- What is true between calls. -/
structure Amid (p : Params) (env : Env α σ ρ κ) (ok : ρ → Prop) (ratio : Rat) (g : List (Frame α)) (s : State α σ (ρ × Log α) κ) : Prop where
  heard : HeardAll p env ok g s
  pos : 0 < s.sizes.pitchScale
  before : resampleBefore p s.sizes.pitchScale = true
  ratio : ratio = 1 / s.sizes.pitchScale
  mode : s.mode = .justCreated ∨ s.mode = .processing

theorem Amid.stays {ok : ρ → Prop} {g : List (Frame α)} {s s' : State α σ (ρ × Log α) κ} (h : Amid p env ok ratio g s) (hs : Stays s s') : Amid p env ok ratio g s' :=
  ⟨h.heard.stays hs, by rw [hs.sizes]; exact h.pos, by rw [hs.sizes]; exact h.before, by rw [hs.sizes]; exact h.ratio, by rw [hs.mode]; exact h.mode⟩

theorem between_reconfigure (hrt : p.realTime = true) {g : List (Frame α)} {s t : State α σ (ρ × Log α) κ} {q : Rat} (h : Amid p env M.ok ratio g s)
    (e : reconfigure p (logged env) s (.fin q) (.fin s.sizes.pitchScale) = some t) : Amid p env M.ok ratio g t := by
  obtain ⟨a, b, c⟩ := heard_reconfigure M hrt h.pos h.heard e
  exact ⟨a, by rw [b]; exact h.pos, by rw [b]; exact h.before, by rw [b]; exact h.ratio, by rw [c]; exact h.mode⟩

theorem between_process (hrt : p.realTime = true) {g input : List (Frame α)} {s t : State α σ (ρ × Log α) κ} (h : Amid p env M.ok ratio g s)
    (e : process p (logged env) s input false = some t) : Amid p env M.ok ratio (g ++ input) t := by
  unfold process at e
  have hm : s.mode ≠ .finished := by rcases h.mode with h | h <;> rw [h] <;> simp
  rw [if_neg hm] at e
  simp only [Option.bind_eq_bind] at e
  obtain ⟨u, e1, e⟩ := Option.bind_eq_some_iff.mp e
  obtain ⟨v, e2, e'⟩ := Option.bind_eq_some_iff.mp e
  clear e
  have hu : u = { s with mode := .processing } := by
    unfold prologue at e1
    rcases h.mode with hm | hm
    · rw [hm] at e1; exact (Option.some.inj e1).symm
    · rw [hm] at e1
      obtain rfl := Option.some.inj e1
      rw [← hm]
  simp only [Bool.false_eq_true, if_false, Option.pure_def, Option.some.injEq] at e'
  subst hu
  obtain ⟨a, b, c⟩ := heard_loop M hrt (g := g) (input := input) _ { s with mode := .processing } v _ h.pos h.before h.ratio List.length_replicate (fun i cd n hi hn => by
    obtain rfl : n = 0 := List.eq_of_mem_replicate (List.mem_of_getElem? hn)
    simpa using h.heard i cd hi) e2
  rw [← e']
  exact ⟨a, by rw [b]; exact h.pos, by rw [b]; exact h.before, by rw [b]; exact h.ratio, Or.inr c⟩

theorem rests_read : ∀ (l : List (Chan α σ ρ)) (n : Nat), Rests l (readChannels l n).1
  | [], n => .nil
  | cd :: l, n => by
    unfold readChannels
    simp only
    exact .cons (.of_eq rfl rfl) (rests_read l _)

/-- A call that leaves the pitch scale alone and gives no last block. -/
def Ongoing : Call α → Prop
  | .process _ final => final = false
  | c => Steady c

theorem between_call (hrt : p.realTime = true) {g : List (Frame α)} {s : State α σ (ρ × Log α) κ} (h : Amid p env M.ok ratio g s) {c : Call α} (hc : Ongoing c)
    {r : State α σ (ρ × Log α) κ × List (List α)} (e : call p (logged env) s c = some r) : Amid p env M.ok ratio (putTo g [c]) r.1 := by
  have e' := e
  clear e
  cases c with
  | setTimeRatio x =>
    obtain ⟨q, rfl⟩ := hc
    obtain ⟨t, e, rfl⟩ := Option.map_eq_some_iff.mp e'
    unfold setTimeRatio at e
    split at e
    · obtain rfl := Option.some.inj e; exact h
    · split at e
      · obtain rfl := Option.some.inj e; exact h
      · exact between_reconfigure M hrt h e
  | setPitchScale x => exact absurd hc (by simp [Ongoing, Steady])
  | setExpectedInputDuration n =>
    obtain ⟨t, e, rfl⟩ := Option.map_eq_some_iff.mp e'
    unfold setExpectedInputDuration at e
    split at e
    · obtain rfl := Option.some.inj e; exact h
    · exact between_reconfigure M hrt (s := { s with expected := n }) ⟨h.heard, h.pos, h.before, h.ratio, h.mode⟩ e
  | setMaxProcessSize n =>
    obtain ⟨t, e, rfl⟩ := Option.map_eq_some_iff.mp e'
    unfold setMaxProcessSize at e
    split at e
    · obtain rfl := Option.some.inj e; exact h
    · exact between_reconfigure M hrt (s := { s with maxProcessSize := n }) ⟨h.heard, h.pos, h.before, h.ratio, h.mode⟩ e
  | setKeyFrameMap m =>
    obtain rfl := Option.some.inj e'
    show Amid _ _ _ _ _ (setKeyFrameMap p s m)
    unfold setKeyFrameMap
    rw [if_pos hrt]
    exact h
  | study x y => exact absurd hc (by simp [Ongoing, Steady])
  | process input final =>
    obtain rfl : final = false := hc
    obtain ⟨t, e, rfl⟩ := Option.map_eq_some_iff.mp e'
    exact between_process M hrt h e
  | available =>
    obtain ⟨x, e1, rfl⟩ := Option.map_eq_some_iff.mp e'
    obtain ⟨t, e, rfl⟩ := Option.map_eq_some_iff.mp e1
    exact h.stays (stays_finish hrt h.before e)
  | retrieve n =>
    obtain rfl := Option.some.inj e'
    exact h.stays ⟨rfl, rfl, rests_read s.chans n⟩
  | reset =>
    obtain ⟨t, e, rfl⟩ := Option.map_eq_some_iff.mp e'
    unfold reset at e
    refine between_reconfigure M hrt (g := []) (s := { s with
      calculator := StretchCalc.reset s.calculator, chans := s.chans.map (Chan.reset (logged env)), mode := .justCreated,
      curves := (logged env).curveReset s.curves, expected := 0, maxProcessSize := 0, inputDuration := 0, silentHistory := 0 }) ⟨?_, h.pos, h.before, h.ratio, Or.inl rfl⟩ e
    intro c cd hcd
    have hcd' : (s.chans.map (Chan.reset (logged env)))[c]? = some cd := hcd
    rw [List.getElem?_map, Option.map_eq_some_iff] at hcd'
    obtain ⟨x, hx, rfl⟩ := hcd'
    obtain ⟨r, log, h1, h2, h3, h4, h5⟩ := (h.heard c x hx).log
    refine ⟨⟨env.rsReset r, [], ?_, M.reset r h2, rfl, by simp, ?_⟩, ?_⟩
    · show x.resampler.map _ = _
      rw [h1]; rfl
    · exact List.nil_suffix
    · exact Nat.zero_le _

theorem between_run (hrt : p.realTime = true) : ∀ (cs : List (Call α)) (g : List (Frame α)) (s : State α σ (ρ × Log α) κ), Amid p env M.ok ratio g s → (∀ c ∈ cs, Ongoing c) →
    ∀ (r : State α σ (ρ × Log α) κ × List (List (List α))), run p (logged env) s cs = some r → Amid p env M.ok ratio (putTo g cs) r.1
  | [], g, s, h, _, r, e => by
    obtain rfl := Option.some.inj e
    exact h
  | c :: cs, g, s, h, hc, r, e => by
    unfold run at e
    simp only [Option.bind_eq_bind] at e
    obtain ⟨⟨t, o⟩, e1, e⟩ := Option.bind_eq_some_iff.mp e
    obtain ⟨⟨u, os⟩, e2, e⟩ := Option.bind_eq_some_iff.mp e
    obtain rfl := Option.some.inj e
    have h1 := between_call M hrt h (hc c (by simp)) e1
    have h2 := between_run hrt cs _ t h1 (fun d hd => hc d (by simp [hd])) _ e2
    have : putTo g (c :: cs) = putTo (putTo g [c]) cs := by cases c <;> rfl
    rw [this]
    exact h2

theorem between_create (hrt : p.realTime = true) {a b : R3.Dbl} {s : State α σ (ρ × Log α) κ} (hs : create p (logged env) a b = some s) (hz : 0 < s.sizes.pitchScale)
    (hb : resampleBefore p s.sizes.pitchScale = true) (hr : ratio = 1 / s.sizes.pitchScale) : Amid p env M.ok ratio [] s := by
  refine ⟨?_, hz, hb, hr, ?_⟩
  · unfold create configure at hs
    obtain ⟨t, _, hs⟩ := Option.bind_eq_some_iff.mp hs
    obtain ⟨fresh, hf, hs⟩ := Option.bind_eq_some_iff.mp hs
    simp only [hrt, Bool.true_or, if_true, Option.pure_def, Option.some.injEq] at hs
    intro c cd hc
    rw [← hs] at hc
    simp only [List.getElem?_map, Option.map_eq_some_iff] at hc
    obtain ⟨x, hx, rfl⟩ := hc
    obtain rfl := List.eq_of_mem_replicate (List.mem_of_getElem? hx)
    unfold newChan at hf
    obtain ⟨base, _, hf⟩ := Option.bind_eq_some_iff.mp hf
    obtain rfl := Option.some.inj hf
    unfold Chan.withResampler
    simp only [hrt, Bool.or_true, Bool.true_and, Option.isNone_none, if_true]
    exact ⟨⟨env.rsInit, [], rfl, M.init, rfl, by simp, List.nil_suffix⟩, Nat.zero_le _⟩
  · left
    unfold create configure at hs
    obtain ⟨t, ht, hs⟩ := Option.bind_eq_some_iff.mp hs
    obtain ⟨fresh, hf, hs⟩ := Option.bind_eq_some_iff.mp hs
    unfold resize at ht
    obtain ⟨z, _, ht⟩ := Option.bind_eq_some_iff.mp ht
    simp only [Option.pure_def, Option.some.injEq] at hs ht
    rw [← hs, ← ht]

include M in
/-- **C150**, in part: as long as no block has been the last. -/
theorem C150_partial (hrt : p.realTime = true) {timeRatio pitchScale : R3.Dbl} {s₀ s : State α σ (ρ × Log α) κ} {cs : List (Call α)} {outs : List (List (List α))}
    (h0 : create p (logged env) timeRatio pitchScale = some s₀) (hz : 0 < s₀.sizes.pitchScale) (hb : resampleBefore p s₀.sizes.pitchScale = true) (hr : ratio = 1 / s₀.sizes.pitchScale)
    (hc : ∀ c ∈ cs, Ongoing c) (h1 : run p (logged env) s₀ cs = some (s, outs)) : Whole p env (putTo [] cs) s := by
  have h := between_run M hrt cs [] s₀ (between_create M hrt h0 hz hb hr) hc _ h1
  intro c cd hcd
  obtain ⟨r, log, a1, _, a3, a4, a5⟩ := (h.heard c cd hcd).log
  exact ⟨r, log, a1, a3, fun x hx => a4 x (List.mem_of_mem_dropLast hx), a5⟩

end

/-! ## Of the end -/

/-- `thirds` gives what is due. -/
def thirdsModest : Modest thirds (1 / 3) where
  ok := fun r => r.2 = thirdsDue false r.1
  init := rfl
  reset := fun _ _ => by show (0 : Nat) = thirdsDue false 0; rfl
  step := by
    intro r room xs hr hroom
    have hc : ((xs.length : Rat) * (1 / 3)).ceil.toNat = (xs.length + 2) / 3 := by
      generalize xs.length = n
      obtain ⟨k, hk⟩ : ∃ k, k = (n + 2) / 3 := ⟨_, rfl⟩
      rw [← hk]
      have h1 : ((n : Rat) * (1 / 3)).ceil = (k : Int) := by
        apply le_antisymm
        · rw [Rat.ceil_le_iff]
          have : (n : Rat) ≤ 3 * (k : Rat) := by exact_mod_cast (by omega : n ≤ 3 * k)
          push_cast
          linarith
        · by_contra hlt
          have hle : ((n : Rat) * (1 / 3)).ceil ≤ (k : Int) - 1 := by omega
          rw [Rat.ceil_le_iff] at hle
          have h3 : n + 3 ≤ 3 * k := by
            have : (n : Rat) + 3 ≤ 3 * (k : Rat) := by push_cast at hle; linarith
            exact_mod_cast this
          omega
      omega
    rw [hc]
    constructor
    · show r.2 + (thirdsDue false (r.1 + xs.length) - r.2) = thirdsDue false (r.1 + xs.length)
      rw [hr]
      unfold thirdsDue
      simp only [Bool.false_eq_true, if_false]
      omega
    · show ((List.replicate (thirdsCall r xs.length false).2 (1 : Int)).take room).length ≤ _
      rw [List.length_take, List.length_replicate]
      unfold thirdsCall
      simp only [hr]
      unfold thirdsDue
      simp only [Bool.false_eq_true, if_false]
      omega

/-- One channel, in real time. -/
def Given.mono : Params := { rate := 8000, channels := 1, realTime := true }

/-- What the resampler was given in all and what came out with each call. -/
def Given.told (cs : List (Call Int)) : Option (List (Nat × List (Nat × Bool × Nat))) :=
  (create Given.mono (logged thirds) (.fin 1) (.fin 3)).bind fun s => (run Given.mono (logged thirds) s cs).map fun x =>
    x.1.chans.map fun cd => match cd.resampler with
      | some (_, log) => ((Log.putIn log).length, log.map (fun e => (e.1.length, e.2.1, e.2.2.length)))
      | none => (0, [])

set_option maxRecDepth 100000 in
/-- The 986 samples made of the last block do not fit; they are dropped, and the resampler is given the block again. -/
theorem Given.told_twice : Given.told [.setMaxProcessSize 4096, .process (List.replicate 300 fun _ => 1) false, .process (List.replicate 2865 fun _ => 1) true] =
    some [(6030, [(300, false, 69), (2865, true, 986), (2865, true, 955)])] := by
  decide +kernel

/-- The numbers are those of the built-in resampler (`thirds_is_builtin`). -/
example : thirdsCounts (0, 0) [(300, false), (2865, true), (2865, true)] = [69, 986, 955] := by decide

set_option maxRecDepth 100000 in
/-- The same blocks, of which none is the last, are resampled once (`C150_partial`). -/
theorem Given.told_once : Given.told [.setMaxProcessSize 4096, .process (List.replicate 300 fun _ => 1) false, .process (List.replicate 2865 fun _ => 1) false, .available, .retrieve 100] =
    some [(3165, [(300, false, 69), (2865, false, 955)])] := by
  decide +kernel

theorem Given.sizes {s₀ : State Int Unit ((Nat × Nat) × Log Int) Unit} (h0 : create Given.mono (logged thirds) (.fin 1) (.fin 3) = some s₀) : s₀.sizes.pitchScale = 3 := by
  have h : (create Given.mono (logged thirds) (.fin 1) (.fin 3)).map (fun s => s.sizes.pitchScale) = some 3 := by decide +kernel
  rw [h0] at h
  exact Option.some.inj h

/-- `C150_partial` is about it. -/
example : ∃ s₀ s outs, create Given.mono (logged thirds) (.fin 1) (.fin 3) = some s₀ ∧
    run Given.mono (logged thirds) s₀ [.setMaxProcessSize 4096, .process (List.replicate 300 fun _ => 1) false, .process (List.replicate 2865 fun _ => 1) false, .available, .retrieve 100] = some (s, outs) ∧
    Whole Given.mono thirds (List.replicate 300 (fun _ => 1) ++ List.replicate 2865 fun _ => 1) s := by
  have hrun := Given.told_once
  unfold Given.told at hrun
  obtain ⟨s₀, h0, h1⟩ := Option.bind_eq_some_iff.mp hrun
  obtain ⟨⟨s, outs⟩, h2, _⟩ := Option.map_eq_some_iff.mp h1
  have hz := Given.sizes h0
  exact ⟨s₀, s, outs, h0, h2, C150_partial thirdsModest rfl h0 (by rw [hz]; norm_num) (by rw [hz]; decide) (by rw [hz]) (by
    intro c hc
    simp only [List.mem_cons, List.not_mem_nil, or_false] at hc
    rcases hc with rfl | rfl | rfl | rfl | rfl <;> first | rfl | trivial) h2⟩

/-- **C150** is false of the code: the last block may be given to the resampler more than once, and what it made of it the first time is lost. -/
theorem C150_violated : ¬ C150_statement := by
  intro h
  have hrun := Given.told_twice
  unfold Given.told at hrun
  obtain ⟨s₀, h0, h1⟩ := Option.bind_eq_some_iff.mp hrun
  obtain ⟨⟨s, outs⟩, h2, h3⟩ := Option.map_eq_some_iff.mp h1
  have hz := Given.sizes h0
  have hw := h Int Unit (Nat × Nat) Unit Given.mono thirds _ _ s₀ s _ outs rfl h0 (by rw [hz]; norm_num) (by rw [hz]; decide) (by rw [hz]; exact ⟨thirdsModest⟩)
    (by
      intro c hc
      simp only [List.mem_cons, List.not_mem_nil, or_false] at hc
      rcases hc with rfl | rfl | rfl <;> trivial) (by exact ⟨rfl, rfl, trivial⟩) h2
  simp only at h3
  cases hc : s.chans with
  | nil => rw [hc] at h3; simp at h3
  | cons cd cds =>
    obtain ⟨r, log, a1, a2, _⟩ := hw 0 cd (by rw [hc]; rfl)
    rw [hc, List.map_cons, a1] at h3
    have h4 : (Log.putIn log).length = 6030 := by
      simp only [List.cons.injEq, Prod.mk.injEq] at h3
      exact h3.1.1
    rw [a2, List.length_map] at h4
    simp only [putTo, List.nil_append, List.length_append, List.length_replicate] at h4
    omega

/-! ## The built-in resampler -/

theorem ceil_quot {m a b : Nat} (hb : 0 < b) {q : Rat} (hq : q = (a : Rat) / b) : (m * a + b - 1) / b ≤ ((m : Rat) * q).ceil.toNat := by
  have h1 : ((m * a : Nat) : Rat) / b ≤ (((m : Rat) * q).ceil.toNat : Rat) := by
    have h2 : (m : Rat) * q ≤ ((m : Rat) * q).ceil := Rat.le_ceil
    have h3 : (((m : Rat) * q).ceil : Rat) ≤ (((m : Rat) * q).ceil.toNat : Rat) := by exact_mod_cast Int.self_le_toNat _
    have h4 : ((m * a : Nat) : Rat) / b = (m : Rat) * q := by rw [hq]; push_cast; ring
    linarith
  have hb' : (0 : Rat) < b := by exact_mod_cast hb
  rw [div_le_iff₀ hb'] at h1
  have h5 : m * a ≤ ((m : Rat) * q).ceil.toNat * b := by exact_mod_cast h1
  rw [Nat.div_le_iff_le_mul_add_pred hb]
  rw [Nat.mul_comm _ b] at h5
  omega

/-- What more input makes due. -/
theorem due_step {R : Live.Rs} (h : R.Ok) (n m : Nat) : Live.Rs.due R (n + m) ≤ Live.Rs.due R n + (m * R.num + R.den - 1) / R.den := by
  have hd : 0 < R.den := h.den
  have hp := h.phase
  unfold Live.Rs.due
  by_cases h1 : n + m ≤ R.reach
  · rw [if_pos h1]; exact Nat.zero_le _
  · rw [if_neg h1]
    by_cases h2 : n ≤ R.reach
    · rw [if_pos h2, Nat.zero_add]
      have hm : (n + m - R.reach - 1) * R.num + R.phase + 1 ≤ m * R.num := by
        have : (n + m - R.reach - 1 + 1) * R.num ≤ m * R.num := Nat.mul_le_mul_right _ (by omega)
        rw [Nat.add_mul, Nat.one_mul] at this
        omega
      generalize (n + m - R.reach - 1) * R.num + R.phase = A at hm
      generalize m * R.num = B at hm
      rw [← Nat.add_div_right _ hd]
      exact Nat.div_le_div_right (by omega)
    · rw [if_neg h2, show n + m - R.reach - 1 = (n - R.reach - 1) + m by omega, Nat.add_mul]
      generalize (n - R.reach - 1) * R.num = A
      generalize m * R.num = B
      have e1 := Nat.div_add_mod (A + R.phase) R.den
      have e2 := Nat.mod_lt (A + R.phase) hd
      have e3 := Nat.div_add_mod (B + R.den - 1) R.den
      have e4 := Nat.mod_lt (B + R.den - 1) hd
      generalize (A + R.phase) / R.den = x at *
      generalize (B + R.den - 1) / R.den = y at *
      have : (A + B + R.phase) / R.den < x + y + 1 := by
        rw [Nat.div_lt_iff_lt_mul hd, Nat.mul_comm]
        have : R.den * (x + y + 1) = R.den * x + R.den * y + R.den := by ring
        omega
      omega

/-- The built-in resampler gives no more than it is asked to turn its input into, if the ratio is a fraction that it can use. -/
def builtinModest (cfg : BQ.Cfg α) (hc : cfg.channels = 1) (base : Env α σ ρ κ) {ratio : Rat} (hr : BQ.ValidRatio ratio)
    (he : ∀ p, BQ.pickParams cfg ratio = some p → 0 < p.den ∧ ratio = (p.num : Rat) / p.den) : Modest (builtin cfg base) ratio where
  ok := fun r => ∃ p xs, 0 < p.num ∧ BQ.Going cfg ratio p xs ((Live.ofParams cfg.quality p).due xs.length) r
  init := by
    obtain ⟨p, h1, h2, h3, _⟩ := BQ.init_going (cfg := cfg) hr
    exact ⟨p, [], h2, by rw [show (Live.ofParams cfg.quality p).due ([] : List α).length = 0 from if_pos (Nat.zero_le _)]; exact h1⟩
  reset := by
    rintro r ⟨p, xs, h1, h2⟩
    refine ⟨p, [], h1, ?_⟩
    rw [show (Live.ofParams cfg.quality p).due ([] : List α).length = 0 from if_pos (Nat.zero_le _)]
    refine ⟨h2.pick, h2.pratio, rfl, h2.fade, Or.inl ⟨rfl, rfl, rfl, ?_⟩⟩
    rcases h2.state with h | h
    · exact h.2.2.2
    · exact h.2.at_.good.ch
  step := by
    rintro r room xs ⟨p, ys, h1, h2⟩ hroom
    obtain ⟨hd, hq⟩ := he p h2.pick
    obtain ⟨r', out', zs, a1, a2, a3, a4⟩ := Live.resample_call hc hr h1 hd h2 (le_refl _) (out := List.replicate room cfg.ar.zero) (outspace := room) (by simp) (inp := xs) (incount := xs.length) (le_refl _)
    have hok : (Live.ofParams cfg.quality p).Ok := Live.ofParams_ok cfg.quality h1 hd
    have hnum : (Live.ofParams cfg.quality p).num = p.num := rfl
    have hden : (Live.ofParams cfg.quality p).den = p.den := rfl
    generalize hR : Live.ofParams cfg.quality p = R at h2 a1 a2 a3 a4 hok hnum hden
    have hstep := due_step hok ys.length xs.length
    have hceil := ceil_quot (m := xs.length) hd hq
    rw [hnum, hden] at hstep
    have htakes := Live.takes_le (R := R) (R.due ys.length + room) xs.length ys.length
    have hmono : R.due (ys.length + R.takes (R.due ys.length + room) xs.length ys.length) ≤ R.due (ys.length + xs.length) := Live.due_mono hok (by omega)
    have hmono' : R.due ys.length ≤ R.due (ys.length + R.takes (R.due ys.length + room) xs.length ys.length) := Live.due_mono hok (by omega)
    have hn : (R.call ⟨ys.length, R.due ys.length⟩ xs.length room).2 = R.due (ys.length + R.takes (R.due ys.length + room) xs.length ys.length) - R.due ys.length := by
      unfold Live.Rs.call
      simp only
      omega
    have hz : zs.length = ys.length + R.takes (R.due ys.length + room) xs.length ys.length := by
      have := congrArg Live.Pos.taken a2
      simp only [Live.Rs.call] at this
      exact this.symm
    have hsame : R.due ys.length + (R.call ⟨ys.length, R.due ys.length⟩ xs.length room).2 = R.due zs.length := by rw [hn, hz]; omega
    have hb : (builtin cfg base).resample r room xs ratio false = (r', out'.take (R.call ⟨ys.length, R.due ys.length⟩ xs.length room).2) := by
      simp only [builtin, a1]
    rw [hb]
    refine ⟨⟨p, zs, h1, by rw [hR, ← hsame]; exact a3⟩, ?_⟩
    rw [List.length_take]
    omega

/-- A pitch scale of 3, and of 6/5. -/
example (cfg : BQ.Cfg α) (hc : cfg.channels = 1) (hq : cfg.quality = .fastestTolerable) (hm : cfg.mostlyFixed = false) (base : Env α σ ρ κ) :
    Nonempty (Modest (builtin cfg base) (1 / 3)) ∧ Nonempty (Modest (builtin cfg base) (5 / 6)) := by
  have h : ∀ (ratio : Rat) (n d : Nat), 0 < d → ratio = (n : Rat) / d → BQ.ValidRatio ratio →
      ((BQ.pickParams (⟨unknown, .fastestTolerable, false, true, 44100, 1⟩ : BQ.Cfg Unit) ratio).map fun p => (p.num, p.den)) = some (n, d) → Nonempty (Modest (builtin cfg base) ratio) := by
    intro ratio n d hd hr hv hp
    refine ⟨builtinModest cfg hc base hv ?_⟩
    intro p e
    rw [Live.pickParams_cfg cfg (⟨unknown, .fastestTolerable, false, true, 44100, 1⟩ : BQ.Cfg Unit) hq hm] at e
    rw [e] at hp
    simp only [Option.map_some, Option.some.injEq, Prod.mk.injEq] at hp
    rw [hp.1, hp.2]
    exact ⟨hd, hr⟩
  exact ⟨h _ 1 3 (by norm_num) (by norm_num) (by unfold BQ.ValidRatio; norm_num) (by decide +kernel), h _ 5 6 (by norm_num) (by norm_num) (by unfold BQ.ValidRatio; norm_num) (by decide +kernel)⟩

end Verif.R2
