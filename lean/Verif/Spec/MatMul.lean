import Verif.Spec.Array
import Verif.Model.MatMul
import Mathlib.Data.Matrix.Mul

/-!
# Matrix products
-/

namespace Householder.Spec

variable {α : Type}

/-- The distances to the next row and column that a layout claims to have (`stride()`), for
layouts that have the method. -/
def claimed : Layout → Nat × Nat
  | .rowMajor l => (l.dim.2, 1)
  | .columnMajor l => (1, l.dim.1)
  | .rowVector _ => (1, 1)
  | .columnVector _ => (1, 1)
  | .asRowMajor l => (l.dim.2, 1)
  | .asColumnMajor l => (1, l.dim.1)
  | .asRowVector l => (1, l.stride)
  | .asColumnVector l => (l.stride, 1)
  | .upperTriangular _ => (0, 0)

/-- The memory cell that someone who trusts the claimed distances takes for element `(i, j)`. -/
def seen (m : BaseMatrix) (i j : Nat) : Loc :=
  ⟨m.data.buf, m.data.off + (i * (claimed m.layout).1 + j * (claimed m.layout).2)⟩

/-- All cells taken for elements are in the container, and the container in memory. -/
structure SeenIn [Target] (m : BaseMatrix) (mem : Mem α) : Prop where
  container : ContainerOK m.data mem
  notTri : NotTriangular m.layout
  inside : ∀ i j, i < m.layout.dim.1 → j < m.layout.dim.2 →
    i * (claimed m.layout).1 + j * (claimed m.layout).2 < m.data.len

/-- The layout claims the distances it has. -/
def Honest : Layout → Prop
  | .asRowMajor l => (1 < l.dim.1 → 0 < l.dim.2 → l.stride.1 = l.dim.2) ∧
      (1 < l.dim.2 → 0 < l.dim.1 → l.stride.2 = 1)
  | .asColumnMajor l => (1 < l.dim.1 → 0 < l.dim.2 → l.stride.1 = 1) ∧
      (1 < l.dim.2 → 0 < l.dim.1 → l.stride.2 = l.dim.1)
  | .upperTriangular _ => False
  | _ => True

/-- Row- and column-major layouts, contiguous or not, and contiguous vectors. -/
def NotStridedVector (l : Layout) : Prop :=
  IsMajor l ∨ (∃ v, l = .rowVector v) ∨ ∃ v, l = .columnVector v

/-- The shapes of `C = A * B`. -/
def Compatible (a b c : Layout) : Prop :=
  a.dim.2 = b.dim.1 ∧ c.dim.1 = a.dim.1 ∧ c.dim.2 = b.dim.2

/-- The top left `R × C` part of an array as a matrix. -/
def toMatrix (R C : Nat) (A : Arr α) : Matrix (Fin R) (Fin C) α := Matrix.of fun i j => A i j

/-- With these operands, `matmul(1, a, b, 0, c)` stores the product of `a` and `b` in `c`, whatever
their contents. -/
def Multiplies [Target] (cfg : Cfg) (a b c : BaseMatrix) : Prop :=
  ∀ (mem : Mem Int) (A B : Nat → Nat → Int), Sound a mem → Sound b mem → Sound c mem →
    (∀ i l, i < a.layout.dim.1 → l < a.layout.dim.2 → a.get cfg mem i l = .ok (A i l)) →
    (∀ l j, l < b.layout.dim.1 → j < b.layout.dim.2 → b.get cfg mem l j = .ok (B l j)) →
    ∃ mem', matmul exactKern 1 a b 0 c mem = .ok mem' ∧
      ∀ i j, i < c.layout.dim.1 → j < c.layout.dim.2 →
        c.get cfg mem' i j = .ok (∑ l ∈ Finset.range a.layout.dim.2, A i l * B l j)

end Householder.Spec
