import Verif.Spec.Expr
import Verif.Spec.MatMul
import Mathlib.Algebra.Order.Round
import Mathlib.Data.Int.Log
import Mathlib.Data.Rat.Floor
import Mathlib.Algebra.BigOperators.Group.Finset.Basic
import Mathlib.Algebra.Order.BigOperators.Group.Finset

/-!
# Floating-point scalars

Scalars whose sum and product are those of the numbers they stand for up to a relative error `u`, as
IEEE 754 guarantees in the absence of overflow and underflow, and what an expression and a product
would be in exact arithmetic. Floating-point numbers are rational, so values are rational numbers.
-/

namespace Householder.Spec

variable {F : Type}

/-- The standard model of rounded arithmetic. -/
structure Rounding (F : Type) [Add F] [Mul F] where
  /-- the number a scalar stands for -/
  val : F → ℚ
  /-- the unit roundoff -/
  u : ℚ
  u_nonneg : 0 ≤ u
  add_error : ∀ a b, |val (a + b) - (val a + val b)| ≤ u * |val a + val b|
  mul_error : ∀ a b, |val (a * b) - val a * val b| ≤ u * |val a * val b|

/-- The exact value of an expression at a position, where `X b` is the element of the matrix `b`. -/
def Ex.exact [Add F] [Mul F] (R : Rounding F) (X : BaseMatrix → F) : Ex F → ℚ
  | .leaf b => R.val (X b)
  | .ref a => a.exact R X
  | .add _ _ a b => a.exact R X + b.exact R X
  | .scale _ _ s a => R.val s * a.exact R X

/-- The same with absolute values throughout. -/
def Ex.magnitude [Add F] [Mul F] (R : Rounding F) (X : BaseMatrix → F) : Ex F → ℚ
  | .leaf b => |R.val (X b)|
  | .ref a => a.magnitude R X
  | .add _ _ a b => a.magnitude R X + b.magnitude R X
  | .scale _ _ s a => |R.val s| * a.magnitude R X

/-- The largest number of arithmetic operations between a matrix and the result. -/
def Ex.depth : Ex F → Nat
  | .leaf _ => 0
  | .ref a => a.depth
  | .add _ _ a b => max a.depth b.depth + 1
  | .scale _ _ _ a => a.depth + 1

/-- The exact product of one element. -/
def exactProduct [Add F] [Mul F] (R : Rounding F) (alpha : F) (A B : Arr F) (beta : F) (C : Arr F)
    (k i j : Nat) : ℚ :=
  R.val alpha * (∑ l ∈ Finset.range k, R.val (A i l) * R.val (B l j)) + R.val beta * R.val (C i j)

/-- The same with absolute values throughout. -/
def productMagnitude [Add F] [Mul F] (R : Rounding F) (alpha : F) (A B : Arr F) (beta : F) (C : Arr F)
    (k i j : Nat) : ℚ :=
  |R.val alpha| * (∑ l ∈ Finset.range k, |R.val (A i l)| * |R.val (B l j)|) +
    |R.val beta| * |R.val (C i j)|

/-- A kernel with relative error `g k` (of the sum of magnitudes) for inner dimension `k`. -/
def KernError [Add F] [Mul F] (R : Rounding F) (g : Nat → ℚ) (kern : Kern F) : Prop :=
  ∀ m n alpha A B beta C k i j,
    |R.val (kern ⟨m, n, i, j⟩ alpha ((List.range k).map fun l => (A i l, B l j)) beta (C i j)) -
      exactProduct R alpha A B beta C k i j| ≤ g k * productMagnitude R alpha A B beta C k i j

/-! ## Binary floating point with unbounded exponents -/

/-- `x` rounded to `p` binary digits, to nearest (ties upwards; only the size of the error is used). -/
def fl (p : Nat) (x : ℚ) : ℚ :=
  let ulp : ℚ := 2 ^ (Int.log 2 |x| - p + 1)
  round (x / ulp) * ulp

/-- A rational number used as a `p`-digit floating-point number. -/
structure Fl (p : Nat) where
  /-- the number -/
  q : ℚ
deriving DecidableEq

instance (p : Nat) : Add (Fl p) := ⟨fun a b => ⟨fl p (a.q + b.q)⟩⟩
instance (p : Nat) : Mul (Fl p) := ⟨fun a b => ⟨fl p (a.q * b.q)⟩⟩
instance (p : Nat) : Zero (Fl p) := ⟨⟨0⟩⟩
instance (p : Nat) : One (Fl p) := ⟨⟨1⟩⟩

end Householder.Spec
