import Verif.Spec.Array
import Verif.Model.MatMul

/-!
# Transposition

The crate has no transposition, but row-major and column-major storage are each other's mirror
image: the same memory read with the roles of rows and columns exchanged. This file says what the
mirror image of a layout, a matrix, an expression and an operation is. The upper triangular layout
has no mirror image (the crate has no lower triangular layout).
-/

namespace Householder.Spec

variable {α : Type}

/-- The layout with the roles of rows and columns exchanged. -/
def mirror : Layout → Layout
  | .rowMajor l => .columnMajor ⟨l.dim.swap⟩
  | .columnMajor l => .rowMajor ⟨l.dim.swap⟩
  | .rowVector l => .columnVector ⟨l.dim⟩
  | .columnVector l => .rowVector ⟨l.dim⟩
  | .asRowMajor l => .asColumnMajor ⟨l.dim.swap, l.stride.swap⟩
  | .asColumnMajor l => .asRowMajor ⟨l.dim.swap, l.stride.swap⟩
  | .asRowVector l => .asColumnVector ⟨l.dim, l.stride⟩
  | .asColumnVector l => .asRowVector ⟨l.dim, l.stride⟩
  | .upperTriangular l => .upperTriangular l

/-- The same for the layout types. -/
def mirrorKind : BaseKind → BaseKind
  | .rowMajor => .columnMajor
  | .columnMajor => .rowMajor
  | .rowVector => .columnVector
  | .columnVector => .rowVector
  | .upperTriangular => .upperTriangular

/-- The same data with the mirrored layout. -/
def mirrorMat (m : BaseMatrix) : BaseMatrix := ⟨m.data, mirror m.layout, m.cs, m.rs⟩

/-- The expression with all matrices mirrored. -/
def mirrorExpr : Mat α → Mat α
  | .base b => .base (mirrorMat b)
  | .ref m => .ref (mirrorExpr m)
  | .addition m1 m2 l => .addition (mirrorExpr m1) (mirrorExpr m2) (mirror l)
  | .scalarMult m s => .scalarMult (mirrorExpr m) s

/-- No layout in the expression is triangular. -/
def NoTriangle : Mat α → Prop
  | .base b => NotTriangular b.layout
  | .ref m => NoTriangle m
  | .addition m1 m2 l => NoTriangle m1 ∧ NoTriangle m2 ∧ NotTriangular l
  | .scalarMult m _ => NoTriangle m

/-- The operation with row and column exchanged; 1D indices stay. -/
def mirrorOp : ArrOp α → ArrOp α
  | .get r c => .get c r
  | .get1d k => .get1d k
  | .set r c v => .set c r v
  | .set1d k v => .set1d k v
  | .update r c f => .update c r f
  | .update1d k f => .update1d k f

/-- Applying a function to the value returned. -/
def Out.on {β γ : Type} (f : β → γ) : Out β → Out γ
  | .ok x => .ok (f x)
  | .panic => .panic
  | .ub => .ub

/-- The kernel does not care which factor comes first, as in exact arithmetic over a commutative
ring (and in floating-point arithmetic with the same order of summation at an element and at its
mirror image). -/
def FactorsAlike (kern : Kern α) : Prop :=
  ∀ m n i j alpha ps beta c, kern ⟨n, m, j, i⟩ alpha (ps.map Prod.swap) beta c =
    kern ⟨m, n, i, j⟩ alpha ps beta c

end Householder.Spec
