import Verif.Model.Layouts

/-!
# What a layout should mean

Independent of the code: shape, stored positions, logical (1D) order and memory map
of each layout, in unbounded arithmetic, as documented in src/layouts.rs:1-20,
src/traits/layout.rs:1-83 and src/layouts/*.rs (headers).
-/

namespace Householder.Spec

/-- Row by row, left to right. -/
def rowMajorOrder (R C : Nat) : List (Nat × Nat) :=
  (List.range R).flatMap fun r => (List.range C).map fun c => (r, c)

/-- Column by column, top to bottom. -/
def columnMajorOrder (R C : Nat) : List (Nat × Nat) :=
  (List.range C).flatMap fun c => (List.range R).map fun r => (r, c)

/-- Upper triangle, last row first, left to right from the diagonal. -/
def triangularOrder (n : Nat) : List (Nat × Nat) :=
  (List.range n).reverse.flatMap fun r => (List.range (n - r)).map fun c => (r, r + c)

/-- The positions of a layout in logical (1D) order. -/
def order : Layout → List (Nat × Nat)
  | .rowMajor l => rowMajorOrder l.dim.1 l.dim.2
  | .columnMajor l => columnMajorOrder l.dim.1 l.dim.2
  | .rowVector l => (List.range l.dim).map fun c => (0, c)
  | .columnVector l => (List.range l.dim).map fun r => (r, 0)
  | .asRowMajor l => rowMajorOrder l.dim.1 l.dim.2
  | .asColumnMajor l => columnMajorOrder l.dim.1 l.dim.2
  | .asRowVector l => (List.range l.dim).map fun c => (0, c)
  | .asColumnVector l => (List.range l.dim).map fun r => (r, 0)
  | .upperTriangular l => triangularOrder l.dim

/-- The position is inside the matrix and holds an element. -/
def Stored (l : Layout) (r c : Nat) : Prop :=
  r < l.dim.1 ∧ c < l.dim.2 ∧ (∀ u, l = .upperTriangular u → r ≤ c)

/-- Number of elements, unbounded. -/
def count : Layout → Nat
  | .rowMajor l => l.dim.1 * l.dim.2
  | .columnMajor l => l.dim.1 * l.dim.2
  | .rowVector l => l.dim
  | .columnVector l => l.dim
  | .asRowMajor l => l.dim.1 * l.dim.2
  | .asColumnMajor l => l.dim.1 * l.dim.2
  | .asRowVector l => l.dim
  | .asColumnVector l => l.dim
  | .upperTriangular l => l.dim * (l.dim + 1) / 2

/-- The logical index of a position, unbounded. -/
def index : Layout → Nat → Nat → Nat
  | .rowMajor l, r, c => r * l.dim.2 + c
  | .columnMajor l, r, c => c * l.dim.1 + r
  | .rowVector _, _, c => c
  | .columnVector _, r, _ => r
  | .asRowMajor l, r, c => r * l.dim.2 + c
  | .asColumnMajor l, r, c => c * l.dim.1 + r
  | .asRowVector _, _, c => c
  | .asColumnVector _, r, _ => r
  | .upperTriangular l, r, c => (l.dim - r) * (l.dim - r - 1) / 2 + (c - r)

/-- The memory offset of a position, unbounded. -/
def raw : Layout → Nat → Nat → Nat
  | .rowMajor l, r, c => r * l.dim.2 + c
  | .columnMajor l, r, c => c * l.dim.1 + r
  | .rowVector _, _, c => c
  | .columnVector _, r, _ => r
  | .asRowMajor l, r, c => l.stride.1 * r + l.stride.2 * c
  | .asColumnMajor l, r, c => l.stride.1 * r + l.stride.2 * c
  | .asRowVector l, _, c => c * l.stride
  | .asColumnVector l, r, _ => r * l.stride
  | .upperTriangular l, r, c => (l.dim - r) * (l.dim - r - 1) / 2 + (c - r)

/-- Layouts without gaps: those that implement `BaseLayoutType`. -/
def Contiguous : Layout → Prop
  | .rowMajor _ | .columnMajor _ | .rowVector _ | .columnVector _ | .upperTriangular _ => True
  | _ => False

/-- The four matrix layouts that are not triangular. -/
def IsMajor : Layout → Prop
  | .rowMajor _ | .columnMajor _ | .asRowMajor _ | .asColumnMajor _ => True
  | _ => False

/-- The four vector layouts. -/
def IsVector : Layout → Prop
  | .rowVector _ | .columnVector _ | .asRowVector _ | .asColumnVector _ => True
  | _ => False

/-- Not upper triangular. -/
def NotTriangular (l : Layout) : Prop := ∀ u, l ≠ .upperTriangular u

/-- The strides keep distinct positions apart: rows (columns, elements) do not overlap.
No condition on contiguous layouts. -/
def NonOverlapping : Layout → Prop
  | .asRowMajor l => 1 ≤ l.stride.2 ∧ l.stride.2 * l.dim.2 ≤ l.stride.1
  | .asColumnMajor l => 1 ≤ l.stride.1 ∧ l.stride.1 * l.dim.1 ≤ l.stride.2
  | .asRowVector l => 1 ≤ l.stride
  | .asColumnVector l => 1 ≤ l.stride
  | _ => True

/-- The intermediate products of the triangular formulas fit in `usize`; nothing for the
other layouts. -/
def TriFits [Target] : Layout → Prop
  | .upperTriangular l => l.dim * (l.dim + 1) < W
  | _ => True

end Householder.Spec
