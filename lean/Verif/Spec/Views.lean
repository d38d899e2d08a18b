import Verif.Spec.Array
import Verif.Model.Constructors
import Mathlib.Data.List.FinRange

/-!
# Views of row- and column-major matrices
-/

namespace Householder.Spec

variable {α : Type}

/-- The memory distances to the next row and to the next column (row- and column-major
layouts). -/
def steps : Layout → Nat × Nat
  | .rowMajor l => (l.dim.2, 1)
  | .columnMajor l => (1, l.dim.1)
  | .asRowMajor l => l.stride
  | .asColumnMajor l => l.stride
  | _ => (0, 0)

/-- The distances a contiguous layout of the same shape and order would have. -/
def tight : Layout → Nat × Nat
  | .rowMajor l => (l.dim.2, 1)
  | .columnMajor l => (1, l.dim.1)
  | .asRowMajor l => (l.dim.2, 1)
  | .asColumnMajor l => (1, l.dim.1)
  | _ => (0, 0)

/-- The view `b` shows the part of `m` that starts at `(r0, c0)`. -/
def ShowsAt (b m : BaseMatrix) (r0 c0 : Nat) : Prop :=
  ∀ i j, i < b.layout.dim.1 → j < b.layout.dim.2 → cell b i j = cell m (r0 + i) (c0 + j)

/-- The window of `b` lies inside the window of `m`. -/
def Within (b m : BaseMatrix) : Prop :=
  b.data.buf = m.data.buf ∧ m.data.off ≤ b.data.off ∧
    b.data.off + b.data.len ≤ m.data.off + m.data.len

/-- A block fits in a matrix. -/
def Fits (l : Layout) (tl dim : Nat × Nat) : Prop :=
  tl.1 + dim.1 ≤ l.dim.1 ∧ tl.2 + dim.2 ≤ l.dim.2

/-- The `k`-th of four. -/
def quad {A : Type} (x : A × A × A × A) : Fin 4 → A
  | 0 => x.1
  | 1 => x.2.1
  | 2 => x.2.2.1
  | 3 => x.2.2.2

/-- Where the four parts of a matrix split at `s` start (documentation of
`split_in_four_mut`: `|0|1|` over `|2|3|`). -/
def origin (s : Nat × Nat) : Fin 4 → Nat × Nat
  | 0 => (0, 0)
  | 1 => (0, s.2)
  | 2 => (s.1, 0)
  | 3 => (s.1, s.2)

/-- The shapes of the four parts of an `R × C` matrix split at `s`. -/
def shape (R C : Nat) (s : Nat × Nat) : Fin 4 → Nat × Nat
  | 0 => (s.1, s.2)
  | 1 => (s.1, C - s.2)
  | 2 => (R - s.1, s.2)
  | 3 => (R - s.1, C - s.2)

/-- The part of an array that starts at `o`. -/
def Arr.view (A : Arr α) (o : Nat × Nat) : Arr α := fun i j => A (o.1 + i) (o.2 + j)

/-- Replacing the part of shape `d` that starts at `o`. -/
def Arr.patch (A : Arr α) (o d : Nat × Nat) (V : Arr α) : Arr α := fun r c =>
  if o.1 ≤ r ∧ r < o.1 + d.1 ∧ o.2 ≤ c ∧ c < o.2 + d.2 then V (r - o.1) (c - o.2) else A r c

/-- The positions of a `d`-shaped matrix, row by row or column by column. -/
def positions (byRow : Bool) (d : Nat × Nat) : List (Nat × Nat) :=
  if byRow then rowMajorOrder d.1 d.2 else columnMajorOrder d.1 d.2

/-- What a program may do with a matrix and views of it. -/
inductive ViewOp (α : Type) where
  /-- an element operation on the matrix itself -/
  | onParent (op : ArrOp α)
  /-- an element operation on the `k`-th view created so far -/
  | onView (k : Nat) (op : ArrOp α)
  /-- `m.block_mut(top_left, dim)` or `m.block(top_left, dim)` -/
  | block (top_left dim : Nat × Nat)
  /-- `m.split_in_four_mut(s)` -/
  | split (s : Nat × Nat)

/-- Abstractly there is one array, and a view is an origin and a shape. -/
structure ArrViews (α : Type) where
  arr : Arr α
  views : List ((Nat × Nat) × (Nat × Nat))

/-- The operations on the one array of shape `(R, C)`. -/
def ArrViews.step (byRow : Bool) (R C : Nat) (s : ArrViews α) : ViewOp α → Resp α × ArrViews α
  | .onParent op =>
    let x := s.arr.step (positions byRow (R, C)) op
    (x.1, ⟨x.2, s.views⟩)
  | .onView k op => match s.views[k]? with
    | none => (.panicked, s)
    | some (o, d) =>
      let x := (s.arr.view o).step (positions byRow d) op
      (x.1, ⟨s.arr.patch o d x.2, s.views⟩)
  | .block tl d =>
    if tl.1 + d.1 ≤ R ∧ tl.2 + d.2 ≤ C ∧ 1 ≤ d.1 ∧ 1 ≤ d.2 then
      (.done, ⟨s.arr, s.views ++ [(tl, d)]⟩)
    else (.panicked, s)
  | .split p =>
    if byRow = true ∧ 0 < p.1 ∧ p.1 < R ∧ 0 < p.2 ∧ p.2 < C then
      (.done, ⟨s.arr, s.views ++ (List.finRange 4).map fun k => (origin p k, shape R C p k)⟩)
    else (.panicked, s)

/-- A history on the one array. -/
def ArrViews.run (byRow : Bool) (R C : Nat) :
    ArrViews α → List (ViewOp α) → List (Resp α) × ArrViews α
  | s, [] => ([], s)
  | s, op :: ops =>
    let x := s.step byRow R C op
    let y := ArrViews.run byRow R C x.2 ops
    (x.1 :: y.1, y.2)

/-- The matrix and its views in memory. -/
structure MemViews (α : Type) where
  mem : Mem α
  views : List BaseMatrix

/-- One operation of a program that catches panics; undefined behaviour has no continuation. -/
def viewStep [Target] (cfg : Cfg) (m : BaseMatrix) (s : MemViews α) : ViewOp α →
    Option (Resp α × MemViews α)
  | .onParent op => do
      let x ← step cfg m s.mem op
      return (x.1, ⟨x.2, s.views⟩)
  | .onView k op => match s.views[k]? with
    | none => some (.panicked, s)
    | some b => do
      let x ← step cfg b s.mem op
      return (x.1, ⟨x.2, s.views⟩)
  | .block tl d => match m.block cfg tl d with
    | .ok b => some (.done, ⟨s.mem, s.views ++ [b]⟩)
    | .panic => some (.panicked, s)
    | .ub => none
  | .split p => match m.split_in_four_mut cfg p with
    | .ok q => some (.done, ⟨s.mem, s.views ++ (List.finRange 4).map (quad q)⟩)
    | .panic => some (.panicked, s)
    | .ub => none

/-- A history on the matrix and its views. -/
def viewRun [Target] (cfg : Cfg) (m : BaseMatrix) :
    MemViews α → List (ViewOp α) → Option (List (Resp α) × MemViews α)
  | s, [] => some ([], s)
  | s, op :: ops => do
    let x ← viewStep cfg m s op
    let y ← viewRun cfg m x.2 ops
    return (x.1 :: y.1, y.2)

end Householder.Spec
