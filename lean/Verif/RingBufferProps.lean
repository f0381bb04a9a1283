import Verif.RingBufferLemmas
/-!
# Ring buffer properties C01, C04, C05
-/
namespace Verif.RingBuffer
variable {α : Type}

/-- **C01.**  A ring buffer of capacity `n`, whatever garbage its storage holds
at first, run through any list of calls whose destinations are large enough,
never leaves its storage and shows the caller exactly what a bounded FIFO queue
of capacity `n` shows: returned counts, destination contents, read space, write
space and size. -/
theorem C01_fifo [Zero α] [Add α] (n : Nat) (junk : List α) (hj : junk.length = n + 1)
    (ops : List (Op α)) (ho : ∀ op ∈ ops, op.Ok) :
    ∃ b', run (init n junk) ops = some (b', (Queue.run n [] ops).2) := by
  obtain ⟨b', h, _⟩ := run_refines ops (init_inv n junk hj) ho
  rw [contents_init] at h
  exact ⟨b', h⟩

/-- A concrete history with wrap-around meeting the hypotheses of `C01_fifo`. -/
example : ((run (init 3 [9, 9, 9, 9]) [.write [1, 2, 3, 4], .read [0, 0] 2, .write [5, 6, 7],
    .peek [0, 0, 0, 0] 4, .skip 1, .readOne, .getReadSpace, .getWriteSpace] :
      Option (RB Int × _)).map (·.2)) =
    some [⟨[], 3⟩, ⟨[1, 2], 2⟩, ⟨[], 2⟩, ⟨[3, 5, 6, 0], 3⟩, ⟨[], 1⟩, ⟨[5], 0⟩, ⟨[], 1⟩, ⟨[], 2⟩] := by
  decide

example : ∀ op ∈ ([.write [1, 2, 3, 4], .read [0, 0] 2, .write [5, 6, 7],
    .peek [0, 0, 0, 0] 4, .skip 1] : List (Op Int)), op.Ok := by simp [Op.Ok]

/-- Samples handed out (and removed) by a `read` call: the first `count`
samples of the destination. -/
def delivered : Op α → Out α → List α
  | .read _ _, o => o.data.take o.count
  | _, _ => []

/-- Calls that transfer or look at samples without discarding any. -/
def Op.Keeps : Op α → Prop
  | .write _ | .zero _ | .read _ _ | .peek _ _ | .peekOne => True
  | .getReadSpace | .getWriteSpace | .getSize => True
  | _ => False

theorem queue_stream [Zero α] [Add α] (cap : Nat) (ops : List (Op α)) (q : List α)
    (hk : ∀ op ∈ ops, op.Keeps) :
    q ++ (List.zipWith accepted ops (Queue.run cap q ops).2).flatten =
      (List.zipWith delivered ops (Queue.run cap q ops).2).flatten ++ (Queue.run cap q ops).1 := by
  induction ops generalizing q with
  | nil => simp [Queue.run]
  | cons op ops ih =>
    have hk' := hk op (by simp)
    have ih' := ih (Queue.step cap q op).1 (fun o h => hk o (by simp [h]))
    have hop : q ++ accepted op (Queue.step cap q op).2
        = delivered op (Queue.step cap q op).2 ++ (Queue.step cap q op).1 := by
      cases op with
      | read dest n =>
        simp only [Queue.step, accepted, delivered, List.append_nil]
        rw [List.take_append_of_le_length (by simp)]
        simp [List.take_take, List.take_append_drop]
      | peekOne => cases q <;> simp [Queue.step, accepted, delivered]
      | _ => first
        | (simp [Queue.step, accepted, delivered]; done)
        | simp [Op.Keeps] at hk'
    simp only [Queue.run, List.zipWith_cons_cons, List.flatten_cons]
    rw [← List.append_assoc, hop, List.append_assoc, ih', List.append_assoc]

/-- **C01, stream form.**  Over any history of writing, reading, peeking and
querying calls, the samples accepted by the writing calls, in order, are the
samples delivered by the reading calls followed by samples still unread, and
the number still unread is at most the capacity. -/
theorem C01_stream [Zero α] [Add α] (n : Nat) (junk : List α) (hj : junk.length = n + 1)
    (ops : List (Op α)) (ho : ∀ op ∈ ops, op.Ok) (hk : ∀ op ∈ ops, op.Keeps) :
    ∃ b' outs unread, run (init n junk) ops = some (b', outs) ∧
      (List.zipWith accepted ops outs).flatten
        = (List.zipWith delivered ops outs).flatten ++ unread ∧
      unread.length = getReadSpace b' ∧ getReadSpace b' + getWriteSpace b' = n := by
  obtain ⟨b', h, hi, hz, hc⟩ := run_refines ops (init_inv n junk hj) ho
  refine ⟨b', _, contents b', h, ?_, contents_length hi, ?_⟩
  · rw [contents_init] at *
    have := queue_stream n ops [] hk
    rw [hc]
    simpa [init] using this
  · rw [space_sum hi, hz]; simp [init]

example : ∀ op ∈ ([.write [1, 2, 3, 4], .read [0, 0] 2, .write [5, 6, 7],
    .peek [0, 0, 0, 0] 4, .zero 3] : List (Op Int)), op.Ok ∧ op.Keeps := by
  simp [Op.Ok, Op.Keeps]

/-- **C04.**  After any history, `resized m` gives (without leaving any storage
and without looping forever) a buffer of capacity `m` on which every further
history of calls shows exactly what a queue of capacity `m` holding the oldest
`m` unread samples shows; and the unread samples of the original are as they
were (the model's `resized` takes the original by value). -/
theorem C04_resized [Zero α] [Add α] (n : Nat) (junk : List α) (hj : junk.length = n + 1)
    (ops : List (Op α)) (ho : ∀ op ∈ ops, op.Ok)
    (m : Nat) (junk' : List α) (hj' : junk'.length = m + 1)
    (later : List (Op α)) (hl : ∀ op ∈ later, op.Ok) :
    ∃ b b' b'', run (init n junk) ops = some (b, (Queue.run n [] ops).2) ∧
      resized b m junk' = some b' ∧ getSize b' = m ∧
      run b' later =
        some (b'', (Queue.run m ((Queue.run n [] ops).1.take m) later).2) := by
  obtain ⟨b, h, hi, hz, hc⟩ := run_refines ops (init_inv n junk hj) ho
  have hsum := space_sum hi
  obtain ⟨b', h1, hi1, hz1, hc1⟩ := resizedLoop_eq hi b.size b.reader (init m junk') hi.r
    (init_inv m junk' hj') (by
      show getReadSpace b ≤ _
      omega)
  obtain ⟨b'', h2, _⟩ := run_refines later hi1 hl
  rw [contents_init] at h hc hc1
  have e : (init n junk).size - 1 = n := by simp [init]
  have e' : (init m junk').size - 1 = m := by simp [init]
  rw [e] at h hc
  refine ⟨b, b', b'', h, h1, ?_, ?_⟩
  · simp [getSize, hz1, init]
  · rw [h2, hz1, e', hc1, e']
    simp only [List.nil_append, List.length_nil, Nat.sub_zero]
    rw [← hc]

/-- Growing a wrapped-around buffer of capacity 3 to capacity 5. -/
example : ((do
    let (b, _) ← run (init 3 [9, 9, 9, 9] : RB Int) [.write [1, 2, 3], .skip 2, .write [4, 5]]
    let b' ← resized b 5 [7, 7, 7, 7, 7, 7]
    let (_, o) ← run b' [.write [6, 7], .read [0, 0, 0, 0, 0] 5]
    pure o) : Option (List (Out Int))) = some [⟨[], 2⟩, ⟨[3, 4, 5, 6, 7], 5⟩] := by decide +kernel

/-- The English statement of C05 for `read`: a read of `n` samples with fewer
available leaves the rest of the requested destination zero. -/
def C05_statement : Prop :=
  ∀ (n : Nat) (junk : List Int) (_ : junk.length = n + 1) (xs dest : List Int) (k : Nat)
    (_ : k ≤ dest.length) (b b' : RB Int) (dest' : List Int) (got c : Nat)
    (_ : write (init n junk) xs = some (b, c)) (_ : read b dest k = some (b', dest', got)),
    ∀ i, got ≤ i → i < k → dest'[i]? = some 0

/-- **C05 is false of the code**: `read` leaves the remainder of the destination
as it was (RingBuffer.h:96-99 documents that it is zeroed). -/
theorem C05_violated : ¬ C05_statement := by
  intro h
  have := h 3 [9, 9, 9, 9] rfl [1] [5, 5] 2 (by decide) ⟨[1, 9, 9, 9], 1, 0, 4⟩
    ⟨[1, 9, 9, 9], 1, 1, 4⟩ [1, 5] 1 1 rfl rfl 1 (by decide) (by decide)
  revert this
  decide

/-- **C05 (partial).**  What is true of every short `read` and `peek`: the
samples beyond those returned keep the caller's previous contents, so the
remainder is zero exactly if the caller had zeroed it.  Missing from the full
statement: the zero filling itself, which the code does not do. -/
theorem C05_partial [Zero α] [Add α] (n : Nat) (junk : List α) (hj : junk.length = n + 1)
    (ops : List (Op α)) (ho : ∀ op ∈ ops, op.Ok) (dest : List α) (k : Nat)
    (hk : k ≤ dest.length) :
    ∃ b got b1 d1 d2, run (init n junk) ops = some (b, (Queue.run n [] ops).2) ∧
      read b dest k = some (b1, d1, got) ∧ peek b dest k = some (d2, got) ∧
      got = min k (getReadSpace b) ∧
      ∀ i, got ≤ i → d1[i]? = dest[i]? ∧ d2[i]? = dest[i]? := by
  obtain ⟨b, h, hi, hz, hc⟩ := run_refines ops (init_inv n junk hj) ho
  rw [contents_init] at h hc
  obtain ⟨b1, h1, _⟩ := step_refines hi (.read dest k) hk
  obtain ⟨b2, h2, _⟩ := step_refines hi (.peek dest k) hk
  simp only [step, Queue.step, Option.bind_eq_bind, Option.pure_def, Option.bind_eq_some_iff] at h1 h2
  obtain ⟨⟨b1', d1, g1⟩, hr, he1⟩ := h1
  obtain ⟨⟨d2, g2⟩, hp, he2⟩ := h2
  simp only [Option.some.injEq, Prod.mk.injEq, Out.mk.injEq] at he1 he2
  refine ⟨b, g1, b1', d1, d2, h, hr, ?_, ?_, ?_⟩
  · rw [hp]; simp [he1.2.2, he2.2.2]
  · rw [he1.2.2, contents_length hi]
  · intro i hgi
    rw [he1.2.2] at hgi
    rw [he1.2.1, he2.2.1]
    rw [List.getElem?_append_right (by simp; omega)]
    simp only [List.getElem?_drop, List.length_take]
    constructor <;> congr 1 <;> omega

end Verif.RingBuffer
