import Verif.Spec.Monotone

/-!
# Changing signs of floating-point numbers, and kernels whose order does not depend on the elements
-/

namespace Householder.Spec

/-- `-x` or `x`. -/
def turn (s : Bool) (x : ℚ) : ℚ := if s then -x else x

/-- The second is the opposite of the first (`s = true`) or the same (`s = false`), up to the sign of zeros and of
NaN. -/
def Datum.Turned (s : Bool) : Datum → Datum → Prop
  | .nan, .nan => True
  | .inf a, .inf b => b = (a != s)
  | .fin _ x, .fin _ y => y = turn s x
  | _, _ => False

/-- What a number in the computation of an element of a product is made of. -/
inductive Made where
  /-- a number made of `alpha` and `beta` -/
  | scalar
  /-- a sum of multiples of elements of the row -/
  | row
  /-- a sum of multiples of elements of the column -/
  | column
  /-- a sum of multiples of products of an element of the row and one of the column, and of the old element -/
  | term
  deriving DecidableEq

/-- What a product of two such numbers is made of. -/
def Made.times : Made → Made → Option Made
  | .scalar, k => some k
  | k, .scalar => some k
  | .row, .column => some .term
  | .column, .row => some .term
  | _, _ => none

/-- What an operand is made of (zeros: of anything). -/
def Operand.Is : Operand → Made → Prop
  | .alpha, k => k = .scalar
  | .beta, k => k = .scalar
  | .old, k => k = .term
  | .left _, k => k = .row
  | .right _, k => k = .column
  | .zero, _ => True

/-- The operations compute numbers of this kind: only numbers of the same kind are added. -/
def Fp.Is : Made → Fp Operand → Prop
  | k, .lit o => o.Is k
  | k, .add s t => s.Is k ∧ t.Is k
  | k, .sub s t => s.Is k ∧ t.Is k
  | k, .mul s t => ∃ i j, i.times j = some k ∧ s.Is i ∧ t.Is j
  | k, .fma s t r => (∃ i j, i.times j = some k ∧ s.Is i ∧ t.Is j) ∧ r.Is k

section

variable {F : Type} [Add F] [Sub F] [Mul F] {f : Format}

/-- A kernel that decides what to do by `alpha`, `beta`, the shape and the position, not by the elements, and adds
nothing but terms. -/
def Oblivious (S : Ieee754 f F) (R : Ieee f F) (kern : Kern F) : Prop :=
  ∃ (z : F) (T : F → F → Site → ℕ → Fp Operand), (S.datum z).IsZero ∧
    (∀ alpha beta site k, (T alpha beta site k).Is .term) ∧
    ∀ site alpha ps beta c, S.datum (kern site alpha ps beta c) =
      S.datum (((T alpha beta site ps.length).fill (Operand.value z alpha ps beta c)).run R)

end

end Householder.Spec
