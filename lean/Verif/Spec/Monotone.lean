import Verif.Spec.Signs

/-!
# The order of floating-point numbers, and kernels that always do the same operations
-/

namespace Householder.Spec

namespace Datum

/-- The comparison `a <= b` (IEEE-754 §5.11): the zeros are equal, NaN compares with nothing. -/
def Le : Datum → Datum → Prop
  | nan, _ => False
  | _, nan => False
  | inf true, _ => True
  | _, inf false => True
  | fin _ x, fin _ y => x ≤ y
  | _, _ => False

/-- `a <= b` unless one of them is NaN. -/
def UpTo (a b : Datum) : Prop := a = nan ∨ b = nan ∨ a.Le b

/-- `0 <= a <= b` unless one of them is NaN. -/
def Between (a b : Datum) : Prop := a = nan ∨ b = nan ∨ ((fin false 0).Le a ∧ a.Le b)

end Datum

section

variable {F : Type} [Add F] [Sub F] [Mul F] {f : Format}

/-- By the rule of signs the element of the expression grows (`s = false`) or falls (`s = true`) when the
elements `X b` of the matrices are replaced by `X' b`. -/
def Ex.Grows (S : Ieee754 f F) (X X' : BaseMatrix → F) : Bool → Ex F → Prop
  | false, .leaf b => (S.datum (X b)).UpTo (S.datum (X' b))
  | true, .leaf b => (S.datum (X' b)).UpTo (S.datum (X b))
  | s, .ref a => a.Grows S X X' s
  | s, .add _ _ a b => a.Grows S X X' s ∧ b.Grows S X X' s
  | s, .scale _ _ k a => a.Grows S X X' (s != (S.datum k).negative)

/-- A number that a kernel is given. -/
inductive Operand where
  /-- `alpha` -/
  | alpha
  /-- `beta` -/
  | beta
  /-- the old element -/
  | old
  /-- the `l`-th element of the row -/
  | left (l : ℕ)
  /-- the `l`-th element of the column -/
  | right (l : ℕ)
  /-- a zero -/
  | zero

/-- The numbers, with `z` for the zero. -/
def Operand.value (z alpha : F) (ps : List (F × F)) (beta c : F) : Operand → F
  | .alpha => alpha
  | .beta => beta
  | .old => c
  | .left l => (ps[l]?.map Prod.fst).getD z
  | .right l => (ps[l]?.map Prod.snd).getD z
  | .zero => z

/-- The same operations on other operands. -/
def Fp.fill {A B : Type} (v : A → B) : Fp A → Fp B
  | .lit a => .lit (v a)
  | .add s t => .add (s.fill v) (t.fill v)
  | .sub s t => .sub (s.fill v) (t.fill v)
  | .mul s t => .mul (s.fill v) (t.fill v)
  | .fma s t r => .fma (s.fill v) (t.fill v) (r.fill v)

/-- No subtractions. -/
def Fp.Additive {A : Type} : Fp A → Prop
  | .lit _ => True
  | .add s t => s.Additive ∧ t.Additive
  | .sub _ _ => False
  | .mul s t => s.Additive ∧ t.Additive
  | .fma s t r => s.Additive ∧ t.Additive ∧ r.Additive

/-- A kernel that does always the same sums, products and fused multiply-adds for the same shape and
position: `T true site k` for `k` terms if `beta` is 0, in which case kernels do not read the old element, and
`T false site k` otherwise. -/
def Fixed (S : Ieee754 f F) (R : Ieee f F) (kern : Kern F) : Prop :=
  ∃ (z : F) (T : Bool → Site → ℕ → Fp Operand), (S.datum z).IsZero ∧ (∀ b site k, (T b site k).Additive) ∧
    ∀ site alpha ps beta c, S.datum (kern site alpha ps beta c) =
      S.datum (((T ((S.datum beta).val = some 0) site ps.length).fill (Operand.value z alpha ps beta c)).run R)

end

end Householder.Spec
