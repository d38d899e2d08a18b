import Mathlib.Data.Nat.Log

/-!
# Whole numbers rounded to 53 bits, and the row of an index of a triangle

Written in whole numbers only: no reference to the model of `f64` or to the code.
-/

namespace Householder.Spec

/-- `i` rounded to 53 significant binary digits; a tie goes to the even neighbour. -/
def round53 (i : Nat) : Nat :=
  let g := 2 ^ (Nat.log 2 i - 52)
  let q := i / g
  let rest := i % g
  if 2 * rest < g then q * g
  else if g < 2 * rest then (q + 1) * g
  else (q + q % 2) * g

/-- The index `i`, rounded and doubled, stays far enough below `(a + 3/2)^2` for a square root
with 53 bits not to reach `a + 3/2`: with `k` binary places left after the point, the square root
stays below `a + 3/2 - 1 / 2^(k+1)`. -/
def RowKept (i a : Nat) : Prop :=
  let x := 2 * round53 i
  let k := 52 - Nat.log 2 x / 2
  x * (2 * 2 ^ k) ^ 2 < (2 ^ k * (2 * a + 3) - 1) ^ 2

instance (i a : Nat) : Decidable (RowKept i a) :=
  inferInstanceAs (Decidable (_ < _))

end Householder.Spec
