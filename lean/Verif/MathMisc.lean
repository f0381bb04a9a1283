import Mathlib.Data.Rat.Floor
/-!
# Model of `src/common/mathmisc.cpp`

`size_t` is 64 bits wide.  `double` is exact rational arithmetic; division by
the `double` 0 in the last comparison of `pickNearestRational` (an infinity) is
treated explicitly.  `none` is undefined behaviour (a shift by 64 or more, a
conversion of a too large number) or a loop that has not ended.
-/
namespace Verif.MathMisc

/-- mathmisc.cpp:73 `while (value) { ++bits; value >>= 1; }`; `value` rounds are
more than enough. -/
def countBits : (fuel value bits : Nat) → Nat
  | 0, _, bits => bits
  | fuel + 1, value, bits => if value ≠ 0 then countBits fuel (value >>> 1) (bits + 1) else bits

/-- mathmisc.cpp:69-76 `roundUp`, on a 64-bit `value`.  `value - 1` wraps. -/
def roundUp (value : Nat) : Option Nat :=
  if value &&& ((value + 2 ^ 64 - 1) % 2 ^ 64) = 0 then some value
  else
    let bits := countBits value value 0
    if bits < 64 then some (1 <<< bits) else none

/-- mathmisc.cpp:78-82 `roundUpDiv`. -/
def roundUpDiv (divisionOf : Rat) (divisor : Nat) : Option Nat :=
  if divisionOf < 0 then some 0
  else if divisor = 0 then none
  else
    let q := (divisionOf / divisor).ceil
    if q < 2 ^ 64 then roundUp q.toNat else none

/-- The local variables of `pickNearestRational` (mathmisc.cpp:32-33). -/
structure Farey where
  a : Nat := 0
  b : Nat := 1
  c : Nat := 1
  d : Nat := 0
  pa : Nat := 0
  pb : Nat := 1
  pc : Nat := 1
  pd : Nat := 0

/-- mathmisc.cpp:34. -/
def eps : Rat := 1 / 1000000000

/-- mathmisc.cpp:36. -/
def Farey.mediant (s : Farey) : Rat := ((s.a + s.c : Nat) : Rat) / ((s.b + s.d : Nat) : Rat)

/-- mathmisc.cpp:38-50, the results given when the mediant is near enough. -/
def Farey.close (s : Farey) (maxDenom : Nat) : Nat × Nat :=
  if s.b + s.d ≤ maxDenom then (s.a + s.c, s.b + s.d)
  else if s.d > s.b then (s.c, s.d)
  else (s.a, s.b)

/-- mathmisc.cpp:52-58, the step. -/
def Farey.next (s : Farey) (ratio : Rat) : Farey :=
  if ratio > s.mediant then { s with pa := s.a, pb := s.b, a := s.a + s.c, b := s.b + s.d }
  else { s with pc := s.c, pd := s.d, c := s.c + s.a, d := s.d + s.b }

/-- mathmisc.cpp:60-66, the choice after the loop. -/
def Farey.final (s : Farey) (ratio : Rat) : Nat × Nat :=
  if s.pd ≠ 0 ∧ |ratio - (s.pc : Rat) / s.pd| < |ratio - (s.pa : Rat) / s.pb| then (s.pc, s.pd)
  else (s.pa, s.pb)

/-- mathmisc.cpp:35-66, one test of the loop condition and what follows it: either
a result or the variables for the next round. -/
def Farey.turn (s : Farey) (ratio : Rat) (maxDenom : Nat) : (Nat × Nat) ⊕ Farey :=
  if s.b ≤ maxDenom ∧ s.d ≤ maxDenom then
    if |ratio - s.mediant| < eps then .inl (s.close maxDenom)
    else .inr (s.next ratio)
  else .inl (s.final ratio)

/-- mathmisc.cpp:35-66, the loop. -/
def pickLoop (ratio : Rat) (maxDenom : Nat) : (fuel : Nat) → Farey → Option (Nat × Nat)
  | 0, _ => none
  | fuel + 1, s =>
    match s.turn ratio maxDenom with
    | .inl r => some r
    | .inr s => pickLoop ratio maxDenom fuel s

/-- mathmisc.cpp:28-67 `pickNearestRational`; the result is `(num, denom)`. -/
def pickNearestRational (ratio : Rat) (maxDenom : Nat) : Option (Nat × Nat) :=
  pickLoop ratio maxDenom (ratio.ceil.toNat + 2 * maxDenom + 2) {}

end Verif.MathMisc
