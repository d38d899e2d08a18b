import Verif.Spec.Turned
import Verif.Spec.Expr

/-!
# Multiplying floating-point numbers by powers of two
-/

namespace Householder.Spec

/-- No digit of `x` is lost because the smallest exponent is reached: `x` is a multiple of the smallest positive
value, or at least as large as the smallest number with all `p` digits. -/
def Format.Retains (f : Format) (x : ℚ) : Prop :=
  (∃ n : ℤ, x = n * 2 ^ f.lo) ∨ 2 ^ (f.lo + f.p - 1) ≤ |x|

/-- The expression is a sum of matrices, without scalars. -/
def Ex.SumsOnly {α : Type} : Ex α → Prop
  | .leaf _ => True
  | .ref a => a.SumsOnly
  | .add _ _ a b => a.SumsOnly ∧ b.SumsOnly
  | .scale .. => False

section

variable {F : Type} [Add F] [Sub F] [Mul F] {f : Format}

/-- No product, fused or not, in these operations loses digits to underflow. -/
def Fp.Retains (R : Ieee f F) : Fp F → Prop
  | .lit _ => True
  | .add s t => s.Retains R ∧ t.Retains R
  | .sub s t => s.Retains R ∧ t.Retains R
  | .mul s t => s.Retains R ∧ t.Retains R ∧
      ∀ x y, R.val (s.run R) = some x → R.val (t.run R) = some y → f.Retains (x * y)
  | .fma s t r => s.Retains R ∧ t.Retains R ∧ r.Retains R ∧
      ∀ x y z, R.val (s.run R) = some x → R.val (t.run R) = some y → R.val (r.run R) = some z →
        f.Retains (x * y + z)

/-- If both scalars are finite, the second is `2 ^ k` times the first. -/
def Ieee.Times (R : Ieee f F) (k : ℤ) (a a' : F) : Prop :=
  ∀ x x', R.val a = some x → R.val a' = some x' → x' = 2 ^ k * x

/-- A kernel does the operations of `T`, which depend on `alpha`, `beta`, the position and the number of terms, not
on the elements, and add nothing but terms. -/
structure Performs (R : Ieee f F) (kern : Kern F) (z : F) (T : F → F → Site → ℕ → Fp Operand) : Prop where
  zero : R.val z = some 0
  terms : ∀ alpha beta site k, (T alpha beta site k).Is .term
  result : ∀ site alpha ps beta c, R.val (kern site alpha ps beta c) =
    R.val (((T alpha beta site ps.length).fill (Operand.value z alpha ps beta c)).run R)

end

end Householder.Spec
