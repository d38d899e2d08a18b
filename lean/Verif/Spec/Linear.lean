import Verif.Spec.Expr
import Mathlib.Algebra.BigOperators.Group.Finset.Basic
import Mathlib.Algebra.BigOperators.Ring.Finset

/-!
# Expressions as linear combinations of their matrices
-/

namespace Householder.Spec

variable {α : Type}

/-- The total coefficient of the matrix `b` in an expression: one for the matrix itself, summed
over the operands of a sum, multiplied by the scalar of a multiple. -/
def Ex.coeff [Zero α] [One α] [Add α] [Mul α] (b : BaseMatrix) : Ex α → α
  | .leaf b' => if b' = b then 1 else 0
  | .ref a => a.coeff b
  | .add _ _ a a' => a.coeff b + a'.coeff b
  | .scale _ _ s a => s * a.coeff b

end Householder.Spec
