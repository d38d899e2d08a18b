import Verif.Model.Base
import Mathlib.Analysis.Real.Sqrt

/-!
# IEEE-754 binary64, declaratively

Which real numbers are binary64 values, and what it means for one of them to be the correctly
rounded result of an operation. Nothing here refers to how `Model/F64.lean` computes results.
-/

namespace Householder.Spec

/-- The finite binary64 values (IEEE-754 §3.3: `p = 53`, `emax = 1023`, subnormals included). -/
def Binary64 (y : ℝ) : Prop :=
  ∃ m e : ℤ, |m| < 2 ^ 53 ∧ -1074 ≤ e ∧ e ≤ 971 ∧ y = m * 2 ^ e

/-- The last bit of the significand of a binary64 value is 0. The significand is the one with 53
bits, or, for subnormal values, that of exponent -1074. -/
def EvenSignificand (y : ℝ) : Prop :=
  ∃ m e : ℤ, |m| < 2 ^ 53 ∧ -1074 ≤ e ∧ e ≤ 971 ∧ (2 ^ 52 ≤ |m| ∨ e = -1074) ∧ y = m * 2 ^ e ∧ Even m

/-- `y` is the binary64 result of an operation with exact result `x` (IEEE-754 §4.3.1,
`roundTiesToEven`): `x` is not so large as to give an infinity, `y` is nearest to `x`, and among two
nearest values the one with the even significand. -/
def RoundsTo (x y : ℝ) : Prop :=
  |x| < 2 ^ 1024 - 2 ^ 970 ∧ Binary64 y ∧ (∀ z, Binary64 z → |x - y| ≤ |x - z|) ∧
  ∀ z, Binary64 z → |x - z| = |x - y| → z ≠ y → EvenSignificand y

/-- `n` is what src/layouts/upper_triangular.rs:26-27 computes on a target with `usize` below `W`, by
the standard: `let p = -0.5 + f64::sqrt(0.25 + 2.0 * (index as f64)); f64::floor(p) as usize`. Every
operation rounds; the final cast saturates. -/
def IeeeRow [Target] (index n : ℕ) : Prop :=
  ∃ a b c d p : ℝ, RoundsTo index a ∧ RoundsTo (2 * a) b ∧ RoundsTo (1 / 4 + b) c ∧
    RoundsTo (√c) d ∧ RoundsTo (-1 / 2 + d) p ∧ n = min ⌊p⌋₊ (W - 1)

end Householder.Spec
