import Verif.BQPlanar
/-!
# Maps between kinds of samples, for the resampler

A map of samples that agrees with the arithmetic (`Along`) turns what the resampler does with some samples into what it does with others.
-/
namespace Verif.BQ
open Verif.MovingMedian (setAt)

variable {α β : Type}

/-- Maps of samples (`val`) and of filter values (`co`) that agree with the arithmetic. -/
structure Along (ar : Arith α) (ar' : Arith β) where
  val : α → β
  co : α → β
  zero : val ar.zero = ar'.zero
  coZero : co ar.zero = ar'.zero
  window : ∀ n ptz i, co (ar.window n ptz i) = ar'.window n ptz i
  lerp : ∀ x y r, co (ar.lerp x y r) = ar'.lerp (co x) (co y) r
  dot : ∀ cs xs, val (ar.dot cs xs) = ar'.dot (cs.map co) (xs.map val)
  dot1 : ∀ cs xs, val (ar.dot1 cs xs) = ar'.dot1 (cs.map co) (xs.map val)
  scaled : ∀ q x, val (ar.scaled q x) = ar'.scaled q (val x)
  mix : ∀ m n r f, val (ar.mix m n r f) = ar'.mix m n (val r) (val f)
  mixNone : ∀ r f, val (ar.mixNone r f) = ar'.mixNone (val r) (val f)

/-- The same resampler for other samples. -/
def Cfg.over (cfg : Cfg α) (ar : Arith β) : Cfg β := ⟨ar, cfg.quality, cfg.mostlyFixed, cfg.smooth, cfg.rate, cfg.channels⟩

section
variable {ar' : Arith β} {cfg : Cfg α} (h : Along cfg.ar ar')

/-- The state for other samples. -/
def Along.state {ar : Arith α} (h : Along ar ar') (s : State α) : State β :=
  ⟨s.params, s.initialPhase, s.currentPhase, s.currentChannel, s.filterLength, s.phaseInfo, s.sorted.map h.co, s.buffer.map h.val, s.left, s.centre, s.fill⟩

def Along.res {ar : Arith α} (h : Along ar ar') (r : Res α) : Res β := ⟨h.state r.s, h.state r.fade, r.fadeCount, r.initialised⟩

theorem setAt_map {γ δ : Type} (f : γ → δ) (l : List γ) (i : Nat) (x : γ) : setAt (l.map f) i (f x) = (setAt l i x).map (List.map f) := by
  unfold setAt
  rw [List.length_map]
  split
  · rw [Option.map_some, List.map_set]
  · rfl

theorem pickParams_over (ratio : Rat) : pickParams (cfg.over ar') ratio = pickParams cfg ratio := rfl

theorem component_map {γ δ : Type} (f : γ → δ) (filter : List γ) (sp p : Nat) : ∀ n i, component (filter.map f) sp p n i = (component filter sp p n i).map (List.map f)
  | 0, _ => rfl
  | n + 1, i => by
    unfold component
    rw [List.getElem?_map, component_map f filter sp p n (i + 1)]
    cases filter[i * sp + p]? with
    | none => rfl
    | some x => cases component filter sp p n (i + 1) <;> rfl

theorem sortFilter_map {γ δ : Type} (f : γ → δ) (filter : List γ) (sp initial : Nat) : ∀ fuel p table sorted,
    sortFilter (filter.map f) sp initial fuel p table (sorted.map f) = (sortFilter filter sp initial fuel p table sorted).map fun x => (x.1, x.2.map f)
  | 0, _, _, _ => rfl
  | fuel + 1, p, table, sorted => by
    unfold sortFilter
    cases table[p]? with
    | none => rfl
    | some rc =>
      simp only [Option.bind_eq_bind, Option.bind_some, List.length_map]
      cases setAt table p { rc with start := sorted.length } with
      | none => rfl
      | some table =>
        simp only [Option.bind_some]
        rw [component_map]
        cases component filter sp p rc.length 0 with
        | none => rfl
        | some part =>
          simp only [Option.bind_some, Option.map_some, ← List.map_append]
          split
          · rfl
          · exact sortFilter_map f filter sp initial fuel rc.next table _

theorem phaseDataFor_map {γ δ : Type} (f : γ → δ) (fixed : Bool) (sorted : List γ) (n : Nat) (filter : Nat → γ) (initial a b : Nat) :
    phaseDataFor fixed (sorted.map f) n (fun i => f (filter i)) initial a b = (phaseDataFor fixed sorted n filter initial a b).map fun x => (x.1, x.2.map f) := by
  unfold phaseDataFor
  cases phaseTable n a b a 0 with
  | none => rfl
  | some table =>
    simp only [Option.bind_eq_bind, Option.bind_some]
    split
    · have := sortFilter_map f ((List.range n).map filter) a initial a initial table []
      rw [List.map_map] at this
      exact this
    · rfl

theorem carryLoop_map {ar : Arith α} (h : Along ar ar') (prev : State α) (centre len : Nat) : ∀ n i buffer fill,
    carryLoop (h.state prev) centre len n i (buffer.map h.val) fill = (carryLoop prev centre len n i buffer fill).map fun x => (x.1.map h.val, x.2)
  | 0, _, _, _ => rfl
  | n + 1, i, buffer, fill => by
    unfold carryLoop
    simp only [Option.bind_eq_bind]
    rw [show (h.state prev).centre = prev.centre from rfl, show (h.state prev).buffer = prev.buffer.map h.val from rfl]
    split
    · rw [List.getElem?_map]
      cases prev.buffer[i]? with
      | none => rfl
      | some x =>
        simp only [Option.map_some, Option.bind_some]
        rw [setAt_map]
        cases setAt buffer _ x with
        | none => rfl
        | some buffer => exact carryLoop_map h prev centre len n (i + 1) buffer _
    · exact carryLoop_map h prev centre len n (i + 1) buffer fill

theorem carry_map {ar : Arith α} (h : Along ar ar') (prev : State α) (centre len : Nat) :
    carry ar'.zero (h.state prev) centre len = (carry ar.zero prev centre len).map fun x => (x.1.map h.val, x.2) := by
  unfold carry
  rw [show (h.state prev).buffer = prev.buffer.map h.val from rfl, List.length_map]
  split
  · rfl
  · have := carryLoop_map h prev centre len prev.fill 0 (List.replicate len ar.zero) centre
    rw [List.map_replicate, h.zero] at this
    exact this

include h in
theorem stateForRatio_map (target : State α) (ratio : Rat) (prev : State α) :
    stateForRatio (cfg.over ar') (h.state target) ratio (h.state prev) = (stateForRatio cfg target ratio prev).map h.state := by
  unfold stateForRatio
  rw [pickParams_over]
  cases pickParams cfg ratio with
  | none => rfl
  | some params =>
    simp only [Option.bind_eq_bind, Option.bind_some]
    split
    · rfl
    · have e := phaseDataFor_map h.co cfg.mostlyFixed target.sorted (filterLengthFor cfg.quality params) (cfg.ar.window (filterLengthFor cfg.quality params) params.peakToZero)
        (filterLengthFor cfg.quality params / 2 % params.num) params.num params.den
      rw [show (fun i => h.co (cfg.ar.window (filterLengthFor cfg.quality params) params.peakToZero i)) = ar'.window (filterLengthFor cfg.quality params) params.peakToZero from
        funext fun i => h.window _ _ i] at e
      rw [show phaseDataFor (cfg.over ar').mostlyFixed (h.state target).sorted (filterLengthFor (cfg.over ar').quality params)
        ((cfg.over ar').ar.window (filterLengthFor (cfg.over ar').quality params) params.peakToZero) (filterLengthFor (cfg.over ar').quality params / 2 % params.num) params.num params.den = _ from e]
      cases phaseDataFor cfg.mostlyFixed target.sorted (filterLengthFor cfg.quality params) (cfg.ar.window (filterLengthFor cfg.quality params) params.peakToZero)
        (filterLengthFor cfg.quality params / 2 % params.num) params.num params.den with
      | none => rfl
      | some td =>
        obtain ⟨table, sorted⟩ := td
        simp only [Option.map_some, Option.bind_some]
        rw [show (cfg.over ar').channels = cfg.channels from rfl, show (cfg.over ar').quality = cfg.quality from rfl, show (cfg.over ar').ar = ar' from rfl]
        split
        · rfl
        · rw [show (h.state prev).buffer.length = prev.buffer.length from List.length_map ..]
          split
          · rw [carry_map]
            generalize carry cfg.ar.zero prev _ _ = c
            cases c with
            | none => rfl
            | some c =>
              simp only [Option.map_some, Option.bind_some]
              rw [show carryPhase (h.state prev) table.length = carryPhase prev table.length from rfl]
              cases carryPhase prev table.length <;> rfl
          · simp only [Option.pure_def, Option.map_some]
            unfold Along.state
            simp only [List.map_replicate, h.zero]

theorem gather_map {γ δ : Type} (f : γ → δ) (buffer : List γ) (left channels channel : Nat) : ∀ n i, gather (buffer.map f) left channels channel n i = (gather buffer left channels channel n i).map (List.map f)
  | 0, _ => rfl
  | n + 1, i => by
    unfold gather
    rw [List.getElem?_map, gather_map f buffer left channels channel n (i + 1)]
    cases buffer[left + i * channels + channel]? with
    | none => rfl
    | some x => cases gather buffer left channels channel n (i + 1) <;> rfl

include h in
theorem protoCoefs_map (s : State α) : ∀ n i, protoCoefs (cfg.over ar') (h.state s) n i = (protoCoefs cfg s n i).map (List.map h.co)
  | 0, _ => rfl
  | n + 1, i => by
    unfold protoCoefs
    simp only [Option.bind_eq_bind]
    rw [show (cfg.over ar').quality = cfg.quality from rfl, show (cfg.over ar').ar = ar' from rfl, show (h.state s).params = s.params from rfl,
      show (h.state s).filterLength = s.filterLength from rfl, show (h.state s).currentPhase = s.currentPhase from rfl]
    split
    · rw [protoCoefs_map s n (i + 1)]
      cases protoCoefs cfg s n (i + 1) with
      | none => rfl
      | some rest =>
        simp only [Option.map_some, Option.bind_some, Option.pure_def, List.map_cons, h.lerp]
        congr 3
        · split
          · rw [h.coZero]
          · rw [h.window]
        · split
          · rw [h.coZero]
          · rw [h.window]
    · rfl

theorem load_map {γ δ : Type} (f : γ → δ) (l : List γ) (b n : Nat) : RingBuffer.load (l.map f) b n = (RingBuffer.load l b n).map (List.map f) := by
  unfold RingBuffer.load
  rw [List.length_map]
  split
  · rw [Option.map_some, List.map_take, List.map_drop]
  · rfl

include h in
theorem convolve_map (s : State α) (pr : PhaseRec) : convolve (cfg.over ar') (h.state s) pr = (convolve cfg s pr).map h.val := by
  unfold convolve
  simp only [Option.bind_eq_bind]
  rw [show (h.state s).buffer = s.buffer.map h.val from rfl, List.length_map, gather_map, show (cfg.over ar').channels = cfg.channels from rfl, show (cfg.over ar').ar = ar' from rfl,
    show (h.state s).left = s.left from rfl, show (h.state s).currentChannel = s.currentChannel from rfl, show (cfg.over ar').mostlyFixed = cfg.mostlyFixed from rfl, show (h.state s).sorted = s.sorted.map h.co from rfl]
  cases gather s.buffer s.left cfg.channels s.currentChannel (min pr.length ((s.buffer.length - s.left) / cfg.channels)) 0 with
  | none => rfl
  | some xs =>
    simp only [Option.map_some, Option.bind_some]
    split
    · rw [load_map]
      cases RingBuffer.load s.sorted pr.start (min pr.length ((s.buffer.length - s.left) / cfg.channels)) with
      | none => rfl
      | some cs =>
        simp only [Option.map_some, Option.bind_some, Option.pure_def]
        split
        · rw [h.dot1]
        · rw [h.dot]
    · rw [protoCoefs_map h]
      cases protoCoefs cfg s (min pr.length ((s.buffer.length - s.left) / cfg.channels)) 0 with
      | none => rfl
      | some cs => simp only [Option.map_some, Option.bind_some, Option.pure_def, h.dot]

theorem dropFront_map {ar : Arith α} (h : Along ar ar') (s : State α) (d : Nat) : dropFront ar'.zero (h.state s) d = (dropFront ar.zero s d).map h.state := by
  unfold dropFront
  rw [show (h.state s).buffer = s.buffer.map h.val from rfl, List.length_map, show (h.state s).fill = s.fill from rfl]
  split
  · rfl
  · split
    · simp only [Option.map_some]
      unfold Along.state
      simp only [List.map_append, List.map_drop, List.map_replicate, h.zero]
    · rfl

include h in
theorem advance_map (s : State α) (pr : PhaseRec) : advance (cfg.over ar') (h.state s) pr = (advance cfg s pr).map h.state := by
  unfold advance
  simp only [Option.bind_eq_bind]
  rw [show (h.state s).currentChannel = s.currentChannel from rfl, show (cfg.over ar').channels = cfg.channels from rfl, show (cfg.over ar').ar = ar' from rfl]
  split
  · rw [show ({ h.state s with currentChannel := (s.currentChannel + 1) % cfg.channels } : State β) = h.state { s with currentChannel := (s.currentChannel + 1) % cfg.channels } from rfl, dropFront_map]
    cases dropFront cfg.ar.zero { s with currentChannel := (s.currentChannel + 1) % cfg.channels } (pr.drop * cfg.channels) <;> rfl
  · rfl

include h in
theorem reconstructOne_map (s : State α) : reconstructOne (cfg.over ar') (h.state s) = (reconstructOne cfg s).map fun x => (h.state x.1, h.val x.2) := by
  unfold reconstructOne
  simp only [Option.bind_eq_bind]
  rw [show (h.state s).phaseInfo = s.phaseInfo from rfl, show (h.state s).currentPhase = s.currentPhase from rfl]
  cases s.phaseInfo[s.currentPhase]? with
  | none => rfl
  | some pr =>
    simp only [Option.bind_some]
    rw [convolve_map h, advance_map h]
    cases convolve cfg s pr with
    | none => rfl
    | some x =>
      cases advance cfg s pr with
      | none => rfl
      | some s' =>
        simp only [Option.map_some, Option.bind_some, Option.pure_def, h.scaled]
        rfl

theorem fillLoop_map {ar : Arith α} (h : Along ar ar') (inp : List α) : ∀ n i s, fillLoop (inp.map h.val) n i (h.state s) = (fillLoop inp n i s).map fun x => (x.1, h.state x.2)
  | 0, _, _ => rfl
  | n + 1, i, s => by
    unfold fillLoop
    simp only [Option.bind_eq_bind]
    rw [show (h.state s).buffer = s.buffer.map h.val from rfl, List.length_map, show (h.state s).fill = s.fill from rfl, List.getElem?_map]
    split
    · cases inp[i]? with
      | none => rfl
      | some x =>
        simp only [Option.map_some, Option.bind_some]
        rw [setAt_map]
        cases setAt s.buffer s.fill x with
        | none => rfl
        | some buffer => exact fillLoop_map h inp n (i + 1) { s with buffer := buffer, fill := s.fill + 1 }
    · rfl

theorem ready_map {ar : Arith α} (h : Along ar ar') (final : Bool) (s : State α) : ready final (h.state s) = ready final s := by
  unfold ready
  rw [show (h.state s).buffer.length = s.buffer.length from List.length_map ..]
  rfl

include h in
theorem mainLoop_map (final : Bool) (inp : List α) (count : Nat) : ∀ n i o s out,
    mainLoop (cfg.over ar') final (inp.map h.val) count n i o (h.state s) (out.map h.val) = (mainLoop cfg final inp count n i o s out).map fun x => (h.state x.1, x.2.1, x.2.2.map h.val)
  | 0, _, _, _, _ => rfl
  | n + 1, i, o, s, out => by
    unfold mainLoop
    simp only [Option.bind_eq_bind]
    rw [fillLoop_map]
    cases fillLoop inp (count - i) i s with
    | none => rfl
    | some x =>
      obtain ⟨i, s⟩ := x
      simp only [Option.map_some, Option.bind_some, ready_map]
      split
      · rw [reconstructOne_map h]
        cases reconstructOne cfg s with
        | none => rfl
        | some y =>
          simp only [Option.map_some, Option.bind_some]
          rw [setAt_map]
          cases setAt out o y.2 with
          | none => rfl
          | some out => exact mainLoop_map final inp count n i (o + 1) y.1 out
      · rfl

theorem mixed_map {ar : Arith α} (h : Along ar ar') (m n : Nat) (r f : α) : mixed ar' m n (h.val r) (h.val f) = h.val (mixed ar m n r f) := by
  unfold mixed
  split
  · rw [h.mixNone]
  · rw [h.mix]

include h in
theorem fadeLoop_map (inp : List α) (count fl : Nat) : ∀ n fi fo s fc out,
    fadeLoop (cfg.over ar') (inp.map h.val) count fl n fi fo (h.state s) fc (out.map h.val) = (fadeLoop cfg inp count fl n fi fo s fc out).map fun x => (h.state x.1, x.2.1, x.2.2.map h.val)
  | 0, _, _, _, _, _ => rfl
  | n + 1, fi, fo, s, fc, out => by
    unfold fadeLoop
    simp only [Option.bind_eq_bind]
    split
    · rfl
    · rw [fillLoop_map]
      cases fillLoop inp (count - fi) fi s with
      | none => rfl
      | some x =>
        obtain ⟨fi, s⟩ := x
        simp only [Option.map_some, Option.bind_some]
        rw [show (h.state s).fill = s.fill from rfl, show (h.state s).buffer.length = s.buffer.length from List.length_map ..]
        split
        · rw [reconstructOne_map h]
          cases reconstructOne cfg s with
          | none => rfl
          | some y =>
            simp only [Option.map_some, Option.bind_some]
            rw [List.getElem?_map]
            cases out[fo]? with
            | none => rfl
            | some f =>
              simp only [Option.map_some, Option.bind_some]
              rw [show (cfg.over ar').ar = ar' from rfl, mixed_map, setAt_map]
              cases setAt out fo (mixed cfg.ar fc fl y.2 f) with
              | none => rfl
              | some out => exact fadeLoop_map inp count fl n fi (fo + 1) y.1 _ out
        · rfl

include h in
theorem prepare_map (r : Res α) (ratio : Rat) (fl : Nat) : prepare (cfg.over ar') (h.res r) ratio fl = (prepare cfg r ratio fl).map h.res := by
  unfold prepare
  rw [show (h.res r).initialised = r.initialised from rfl, show (h.res r).s = h.state r.s from rfl, show (h.res r).fade = h.state r.fade from rfl, show (h.state r.s).params = r.s.params from rfl]
  split
  · rw [stateForRatio_map h]
    cases stateForRatio cfg r.s ratio r.fade <;> rfl
  · split
    · rw [stateForRatio_map h]
      cases stateForRatio cfg r.fade ratio r.s <;> rfl
    · rfl

include h in
theorem resample_map (r : Res α) (out : List α) (outspace : Nat) (inp : List α) (incount : Nat) (ratio : Rat) (final : Bool) :
    resample (cfg.over ar') (h.res r) (out.map h.val) outspace (inp.map h.val) incount ratio final =
      (resample cfg r out outspace inp incount ratio final).map fun x => (h.res x.1, x.2.1.map h.val, x.2.2) := by
  unfold resample
  simp only [Option.bind_eq_bind]
  rw [show fadeLengthFor (cfg.over ar') outspace incount ratio = fadeLengthFor cfg outspace incount ratio from rfl, prepare_map h, show (cfg.over ar').channels = cfg.channels from rfl]
  cases prepare cfg r ratio (fadeLengthFor cfg outspace incount ratio) with
  | none => rfl
  | some r =>
    simp only [Option.map_some, Option.bind_some]
    rw [show (h.res r).s = h.state r.s from rfl, mainLoop_map h]
    cases mainLoop cfg final inp (incount * cfg.channels) (outspace * cfg.channels) 0 0 r.s out with
    | none => rfl
    | some x =>
      obtain ⟨s, o, out⟩ := x
      simp only [Option.map_some, Option.bind_some]
      rw [show (h.res r).fade = h.state r.fade from rfl, show (h.res r).fadeCount = r.fadeCount from rfl, fadeLoop_map h]
      cases fadeLoop cfg inp (incount * cfg.channels) (fadeLengthFor cfg outspace incount ratio) o 0 0 r.fade r.fadeCount out <;> rfl

/-- The same calls with other samples. -/
def mapOp (f : α → β) : Op α → Op β
  | .call a => .call ⟨a.out.map f, a.outspace, a.inp.map f, a.incount, a.ratio, a.final⟩
  | .reset => .reset

include h in
theorem run_map : ∀ (ops : List (Op α)) (r : Res α), run (cfg.over ar') (h.res r) (ops.map (mapOp h.val)) = (run cfg r ops).map (List.map fun x => (x.1.map h.val, x.2))
  | [], _ => rfl
  | .reset :: ops, r => run_map ops (reset r)
  | .call a :: ops, r => by
    rw [List.map_cons]
    unfold mapOp
    unfold run
    simp only [Option.bind_eq_bind]
    rw [resample_map h]
    cases resample cfg r a.out a.outspace a.inp a.incount a.ratio a.final with
    | none => rfl
    | some x =>
      obtain ⟨r, out, n⟩ := x
      simp only [Option.map_some, Option.bind_some]
      have := run_map ops r
      unfold mapOp at this
      rw [this]
      cases run cfg r ops <;> rfl

end

end Verif.BQ
