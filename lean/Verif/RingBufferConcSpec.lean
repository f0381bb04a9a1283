import Verif.RingBufferConc
/-!
# What the two threads may rely on: specification over the logs of completed calls

Logs are newest first.
-/
namespace Verif.RingBuffer.Conc
variable {α : Type}

/-- The stream of samples accepted by completed writes, oldest first. -/
def stream : List (WRes α) → List α
  | [] => []
  | .write xs count :: older => stream older ++ xs.take count
  | .space _ :: older => stream older

/-- How many samples the completed reading calls have taken out. -/
def taken : List (RRes α) → Nat
  | [] => 0
  | .read _ got :: older => taken older + got.length
  | .skip _ count :: older => taken older + count
  | .peek _ _ :: older => taken older
  | .space _ :: older => taken older

/-- Every completed reading call obtained exactly the samples of `str` that
follow those already taken, and no more than asked for. -/
def Faithful (str : List α) : List (RRes α) → Prop
  | [] => True
  | .read n got :: older =>
      got = (str.drop (taken older)).take got.length ∧ got.length ≤ n ∧ Faithful str older
  | .peek n got :: older =>
      got = (str.drop (taken older)).take got.length ∧ got.length ≤ n ∧ Faithful str older
  | .skip n count :: older => count ≤ n ∧ Faithful str older
  | .space _ :: older => Faithful str older

/-- Storage cell the writer is about to write, if it is copying. -/
def WPC.about (size : Nat) : WPC α → Nat → Prop
  | .copying _ w n wrote, i => ∃ j, j < n ∧ wrote j = false ∧ slot size w j = i
  | _, _ => False

/-- Storage cell the reader is about to read, if it is copying. -/
def RPC.about (size : Nat) : RPC α → Nat → Prop
  | .reading _ r n got, i => ∃ j, j < n ∧ got j = none ∧ slot size r j = i
  | .peeking _ r n got, i => ∃ j, j < n ∧ got j = none ∧ slot size r j = i
  | _, _ => False

end Verif.RingBuffer.Conc
