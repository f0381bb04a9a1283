import Verif.Scavenger
/-!
# Notions used in the statement of C25
-/
namespace Verif.Scavenger

/-- Objects handed over in a history, with the times. -/
def claims (ops : List Op) : List (Nat × Int) :=
  ops.filterMap (fun op => match op with | .claim t now => some (t, now) | .scavenge _ _ => none)

/-- Before each claim of a history, fewer objects are held (claimed and not yet
deleted) than there are slots. -/
def NeverFull (sec : Int) (n : Nat) (ops : List Op) : Prop :=
  ∀ pre t now post, ops = pre ++ .claim t now :: post →
    (claims pre).length < (run (init sec n) pre).deleted.length + n

end Verif.Scavenger
