import Verif.BQFixed
/-!
# Histories of resampler calls

What a user of `BQResampler` does: construct it, then make calls of
`resampleInterleaved` and `reset` in any order.
-/
namespace Verif.BQ
variable {α : Type}

/-- A call of `resampleInterleaved`: `out` and `inp` are the caller's arrays. -/
structure Call (α : Type) where
  out : List α
  outspace : Nat
  inp : List α
  incount : Nat
  ratio : Rat
  final : Bool := false

/-- The arrays are as large as the caller says, and the ratio is not absurdly small. -/
structure Call.Valid (c : Nat) (a : Call α) : Prop where
  out : a.outspace * c ≤ a.out.length
  inp : a.incount * c ≤ a.inp.length
  ratio : ValidRatio a.ratio

/-- What a user can do. -/
inductive Op (α : Type) where
  | call (a : Call α)
  | reset

def Op.Valid (c : Nat) : Op α → Prop
  | .call a => a.Valid c
  | .reset => True

/-- The results of a history, from resampler `r`: for each call, the output array
afterwards and the number of frames returned. -/
def run (cfg : Cfg α) : Res α → List (Op α) → Option (List (List α × Nat))
  | _, [] => some []
  | r, .reset :: ops => run cfg (reset r) ops
  | r, .call a :: ops => do
    let (r, out, n) ← resample cfg r a.out a.outspace a.inp a.incount a.ratio a.final
    let rest ← run cfg r ops
    pure ((out, n) :: rest)

/-- Channel `j` of the first `n` frames of `b`, which has `c` channels. -/
def chan (c j n : Nat) (b : List α) : List α := (List.range n).filterMap fun i => b[i * c + j]?

/-- The same call for channel `j` only. -/
def Call.chan (c j : Nat) (a : Call α) : Call α :=
  { a with out := BQ.chan c j a.outspace a.out, inp := BQ.chan c j a.incount a.inp }

def Op.chan (c j : Nat) : Op α → Op α
  | .call a => .call (a.chan c j)
  | .reset => .reset

/-- The calls in a history. -/
def calls : List (Op α) → List (Call α)
  | [] => []
  | .reset :: ops => calls ops
  | .call a :: ops => a :: calls ops

/-- Everything put out on channel `j` of `c`. -/
def output (c j : Nat) (res : List (List α × Nat)) : List α :=
  (res.map fun on => chan c j on.2 on.1).flatten

/-- Everything put in on channel `j` of `c`. -/
def input (c j : Nat) (cs : List (Call α)) : List α :=
  (cs.map fun a => chan c j a.incount a.inp).flatten

/-- Every call returned fewer frames than there was room for. -/
def Roomy (cs : List (Call α)) (res : List (List α × Nat)) : Prop :=
  List.Forall₂ (fun a on => on.2 < a.outspace) cs res

/-- A session: calls all at the same ratio, the last of them, and no other, perhaps with the
final flag. -/
structure Session (c : Nat) (ratio : Rat) (final : Bool) (blocks : List (Call α)) (last : Call α) : Prop where
  blocks : ∀ a ∈ blocks, a.Valid c ∧ a.ratio = ratio ∧ a.final = false
  last : last.Valid c ∧ last.ratio = ratio ∧ last.final = final

/-! ## Lemmas -/

theorem chan_length {c j n : Nat} {b : List α} (hj : j < c) (hb : n * c ≤ b.length) :
    (chan c j n b).length = n ∧ ∀ i, i < n → (chan c j n b)[i]? = b[i * c + j]? := by
  have hall : ∀ i, i < n → i * c + j < b.length := fun i hi => by
    have := index_lt hj hi; omega
  have : chan c j n b = (List.range n).pmap (fun i (h : i < n) => b[i * c + j]'(hall i h))
      (fun i hi => List.mem_range.mp hi) := by
    unfold chan
    have : ∀ (l : List Nat) (h : ∀ i ∈ l, i < n), l.filterMap (fun i => b[i * c + j]?) =
        l.pmap (fun i (h : i < n) => b[i * c + j]'(hall i h)) h := by
      intro l
      induction l with
      | nil => intro _; rfl
      | cons x l ih =>
        intro h
        rw [List.filterMap_cons, List.getElem?_eq_getElem (hall x (h x (by simp)))]
        simp only [List.pmap_cons]
        rw [ih]
    exact this _ _
  constructor
  · rw [this]; simp
  · intro i hi
    rw [this, List.getElem?_eq_getElem (by simpa using hi)]
    simp [List.getElem?_eq_getElem (hall i hi)]

theorem chan_inter {c n : Nat} {b : List α} (hb : n * c ≤ b.length) :
    Inter c n b (fun j => chan c j n b) := by
  refine ⟨hb, fun j hj => by rw [(chan_length hj hb).1], ?_⟩
  intro j i hj hi
  exact ((chan_length hj hb).2 i hi).symm

theorem Inter.chan {c n : Nat} {b : List α} {t : Nat → List α} (h : Inter c n b t) {j m : Nat}
    (hj : j < c) (hm : m ≤ n) : BQ.chan c j m b = (t j).take m := by
  have hl := (h.mono hm).len
  obtain ⟨a1, a2⟩ := chan_length hj hl
  apply List.ext_getElem?
  intro i
  by_cases hi : i < m
  · rw [a2 i hi, List.getElem?_take_of_lt hi, h.at_ j i hj (by omega)]
  · have := h.lens j hj
    rw [List.getElem?_eq_none (by omega), List.getElem?_eq_none (by simp; omega)]

theorem chan_one (n : Nat) (b : List α) (hb : n ≤ b.length) : chan 1 0 n b = b.take n := by
  obtain ⟨a1, a2⟩ := chan_length (c := 1) (j := 0) (n := n) (b := b) (by omega) (by omega)
  apply List.ext_getElem?
  intro i
  by_cases hi : i < n
  · rw [a2 i hi, List.getElem?_take_of_lt hi]; simp
  · rw [List.getElem?_eq_none (by omega), List.getElem?_eq_none (by simp; omega)]

/-- A history is, channel by channel, the history of mono resamplers, and stays within its
buffers. -/
theorem run_sim {cfg : Cfg α} {c : Nat} (hc : cfg.channels = c) (hpos : 0 < c) :
    ∀ (ops : List (Op α)) (r : Res α) (q : Nat → Res α), SimRes c r q →
    (∀ j, j < c → GoodRes (monoCfg cfg) (q j)) → (∀ op ∈ ops, op.Valid c) →
    ∃ res, run cfg r ops = some res ∧
      List.Forall₂ (fun a on => on.2 ≤ a.outspace ∧ on.1.length = a.out.length ∧
        ∀ k, on.2 * c ≤ k → on.1[k]? = a.out[k]?) (calls ops) res ∧
      ∀ j, j < c → ∃ res', run (monoCfg cfg) (q j) (ops.map (Op.chan c j)) = some res' ∧
        List.Forall₂ (fun on on' => on.2 = on'.2 ∧ chan c j on.2 on.1 = on'.1.take on.2) res res' := by
  intro ops
  induction ops with
  | nil =>
    intro r q _ _ _
    exact ⟨[], rfl, List.Forall₂.nil, fun j hj => ⟨[], rfl, List.Forall₂.nil⟩⟩
  | cons op ops ih =>
    intro r q hs hg hv
    cases op with
    | reset =>
      obtain ⟨res, a1, a2, a3⟩ := ih (reset r) (fun j => reset (q j)) (reset_sim hs)
        (fun j hj => reset_good (hg j hj)) (fun o ho => hv o (by simp [ho]))
      exact ⟨res, a1, a2, a3⟩
    | call a =>
      have va : a.Valid c := hv (.call a) (by simp)
      obtain ⟨r', q', n, out', outs', b1, b2, b3, b4, b5, b6⟩ := resample_sim hc hpos hs hg va.ratio
        (chan_inter va.out) (chan_inter va.inp) a.final
      have hq : ∀ j, j < c → GoodRes (monoCfg cfg) (q' j) ∧ n ≤ a.outspace := by
        intro j hj
        obtain ⟨r1, o1, n1, d1, d2, _, _, d5, _⟩ := resample_good (cfg := monoCfg cfg) rfl (hg j hj) va.ratio
          (chan c j a.outspace a.out) a.outspace (by rw [(chan_length hj va.out).1]) (chan c j a.incount a.inp) a.incount
          (by rw [(chan_length hj va.inp).1]) a.final
        rw [b2 j hj] at d1
        cases d1
        exact ⟨d2, d5⟩
      obtain ⟨res, a1, a2, a3⟩ := ih r' q' b3 (fun j hj => (hq j hj).1) (fun o ho => hv o (by simp [ho]))
      refine ⟨(out', n) :: res, ?_, ?_, ?_⟩
      · simp only [run, b1, Option.bind_eq_bind, Option.bind_some, a1]
        rfl
      · exact List.Forall₂.cons ⟨(hq 0 hpos).2, b5, b6⟩ a2
      · intro j hj
        obtain ⟨res', e1, e2⟩ := a3 j hj
        refine ⟨(outs' j, n) :: res', ?_, List.Forall₂.cons ⟨rfl, b4.chan hj (hq j hj).2⟩ e2⟩
        simp only [List.map_cons, Op.chan, Call.chan, run, b2 j hj, Option.bind_eq_bind, Option.bind_some, e1]
        rfl

end Verif.BQ
