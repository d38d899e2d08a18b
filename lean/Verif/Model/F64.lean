import Mathlib.Data.Int.Log
import Mathlib.Data.Rat.Floor
import Mathlib.Data.Nat.Sqrt

/-!
# binary64 arithmetic, as used by `UpperTriangular::convert_1d_2d`

A finite binary64 value is a rational. `rne` rounds to 53 significant bits, ties
to even; `fsqrt` is the correctly rounded square root. Subnormals, infinities and
NaN are not modelled: the values met are `0` or lie between `1/4` and `2^66`.
-/

namespace Householder.F64

/-- Round a rational to an integer, to nearest, ties to even (IEEE-754 §4.3.1
`roundTiesToEven`). -/
def roundHalfEven (q : ℚ) : Int :=
  let f := ⌊q⌋
  if q - f < 1 / 2 then f
  else if 1 / 2 < q - f then f + 1
  else if f % 2 = 0 then f else f + 1

/-- The unit in the last place of binary64 at a positive rational. -/
def ulp (x : ℚ) : ℚ := (2 : ℚ) ^ (Int.log 2 x - 52)

/-- Round a non-negative rational to binary64 (53 significant bits). -/
def rne (x : ℚ) : ℚ := if x ≤ 0 then 0 else roundHalfEven (x / ulp x) * ulp x

/-- `index as f64` (Rust: round to nearest, ties to even). -/
def ofUsize (n : Nat) : ℚ := rne n

/-- `x + y` on binary64, for non-negative results. -/
def add (x y : ℚ) : ℚ := rne (x + y)

/-- `x * y` on binary64, for non-negative results. -/
def mul (x y : ℚ) : ℚ := rne (x * y)

/-- `f64::sqrt` of a positive binary64 value: correctly rounded (IEEE-754 §5.4.1).
With `u` the unit in the last place of the result and `q = x / u²`, the result is
the integer nearest to `√q`, ties to even, times `u`. -/
def fsqrt (x : ℚ) : ℚ :=
  let u : ℚ := (2 : ℚ) ^ (Int.log 2 x / 2 - 52)
  let q : ℚ := x / (u * u)
  let s : Nat := Nat.sqrt ⌊q⌋₊
  let mid : ℚ := ((s : ℚ) + 1 / 2) * ((s : ℚ) + 1 / 2)
  let n : Nat := if q < mid then s else if mid < q then s + 1 else if s % 2 = 0 then s else s + 1
  n * u

/-- `f64::floor(x) as usize` for a non-negative value (the cast saturates at
`usize::MAX`, which the values met do not reach). -/
def floorToUsize (x : ℚ) : Nat := ⌊x⌋₊

/-- src/layouts/upper_triangular.rs:26-27
`let p = -0.5 + f64::sqrt(0.25 + 2.0 * (index as f64)); f64::floor(p) as IndexType` -/
def triRow (index : Nat) : Nat :=
  floorToUsize (add (-1 / 2) (fsqrt (add (1 / 4) (mul 2 (ofUsize index)))))

end Householder.F64
