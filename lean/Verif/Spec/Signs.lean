import Verif.Spec.Special
import Verif.Spec.Terms

/-!
# Signs of floating-point numbers
-/

namespace Householder.Spec

namespace Datum

/-- The sign bit is `s`, if it is not NaN. -/
def Bears (s : Bool) (d : Datum) : Prop := d = nan ∨ d.negative = s

/-- The same for everything but zeros. -/
def Leans (s : Bool) (d : Datum) : Prop := d = nan ∨ d.negative = s ∨ d.IsZero

end Datum

section

variable {F : Type} [Add F] [Sub F] [Mul F] {f : Format}

/-- By the rule of signs the element of the expression has the sign `s`, where `X b` is the element of the
matrix `b`. -/
def Ex.SignIs (S : Ieee754 f F) (X : BaseMatrix → F) : Bool → Ex F → Prop
  | s, .leaf b => (S.datum (X b)).Bears s
  | s, .ref a => a.SignIs S X s
  | s, .add _ _ a b => a.SignIs S X s ∧ b.SignIs S X s
  | s, .scale _ _ k a => a.SignIs S X (s != (S.datum k).negative)

end

/-- What the signs of the operands mean for the element `d = alpha * Σ a b + beta * c` of a product of `k`
terms, in whatever order it is computed. -/
structure Datum.Signs (alpha : Datum) (k : ℕ) (a b : ℕ → Datum) (beta c d : Datum) : Prop where
  /-- if all terms have the same sign by the rule of signs, so has the element, unless it is a zero -/
  leans : ∀ s, (∀ l < k, (alpha.negative != ((a l).negative != (b l).negative)) = s) →
    (beta.IsZero ∨ (beta.negative != c.negative) = s) → d.Leans s
  /-- if `alpha` and all products are positive, the element is not even a negative zero -/
  bears : 0 < k → alpha.negative = false → (∀ l < k, (a l).negative = (b l).negative) →
    (beta.IsZero ∨ beta.negative = c.negative) → d.Bears false

end Householder.Spec
