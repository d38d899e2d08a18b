import Verif.Spec.Histories
import Verif.Spec.MatMul

/-!
# Where undefined behaviour comes from

Which containers an operation of a program reaches into, and where, as far as its first mistake.
Nothing is assumed about layouts, strides, sizes or the build mode.
-/

namespace Householder.Spec

variable {α : Type}

/-- The base matrices that an expression takes its elements from, in the order in which they are
read. -/
def parts : Mat α → List BaseMatrix
  | .base b => [b]
  | .ref m => parts m
  | .addition m1 m2 _ => parts m1 ++ parts m2
  | .scalarMult m _ => parts m

/-- Reaching into a container without a check: for `size` cells from `start` on. Computing either
number may panic; `start` is computed first. -/
structure Access where
  container : Container
  start : Out Int
  size : Out Nat
  /-- Whether so many cells are enough (for views; one cell is enough for an element). -/
  enough : Nat → Prop

/-- All cells exist, and nothing panics. -/
def Access.inside (x : Access) : Prop :=
  ∃ i n, x.start = .ok i ∧ x.size = .ok n ∧ 0 ≤ i ∧ i + n ≤ x.container.len ∧ x.enough n

/-- The start, or the end, is computed and is not in the container. -/
def Access.beyond (x : Access) : Prop :=
  ∃ i, x.start = .ok i ∧
    ((i < 0 ∨ x.container.len < i) ∨ ∃ n, x.size = .ok n ∧ (x.container.len : Int) < i + n)

/-- The first access that does not succeed leaves its container. -/
def LeavesContainer (xs : List Access) : Prop :=
  ∃ pre x post, xs = pre ++ x :: post ∧ (∀ y ∈ pre, y.inside) ∧ x.beyond

/-- The number in a result. -/
def Out.toInt : Out Nat → Out Int
  | .ok n => .ok n
  | .panic => .panic
  | .ub => .ub

/-- An element with a raw index. -/
def element (b : BaseMatrix) (place : Out Nat) : Access := ⟨b.data, Out.toInt place, .ok 1, fun _ => True⟩

/-- All of `f b`, if the computation gives a `b`. -/
def whenOk {A B : Type} (o : Out A) (f : A → List B) : List B :=
  match o with
  | .ok a => f a
  | _ => []

section

variable [Target] (cfg : Cfg)

/-- Element `(r, c)` of all parts of an expression. -/
def at2d (m : Mat α) (r c : Nat) : List Access :=
  (parts m).map fun b => element b (b.layout.convert_2d_raw cfg r c)

/-- Element number `k` of all parts of an expression. -/
def at1d (m : Mat α) (k : Nat) : List Access :=
  (parts m).map fun b => element b (b.layout.convert_1d_raw cfg k)

/-- `get(r, c)`: only positions inside the dimensions. -/
def checked2d (m : Mat α) (r c : Nat) : List Access :=
  if r < m.layout.dim.1 ∧ c < m.layout.dim.2 then at2d cfg m r c else []

/-- `get1d(k)`: only numbers below the element count. -/
def checked1d (m : Mat α) (k : Nat) : List Access :=
  whenOk (m.layout.number_of_elements cfg) fun n => if k < n then at1d cfg m k else []

/-- All elements in order. -/
def everything (m : Mat α) : List Access :=
  whenOk (m.layout.number_of_elements cfg) fun n => (List.range n).flatMap (at1d cfg m)

/-- A view with the given first cell, dimensions and layout: it takes the cells up to its last
element. -/
def viewOf (d : Container) (start : Out Int) (dim : Nat × Nat) (l : Layout) : Access where
  container := d
  start := start
  size := do
    let r ← cfg.sub dim.1 1
    let c ← cfg.sub dim.2 1
    let k ← l.convert_2d_raw cfg r c
    cfg.add k 1
  enough n := ∃ e, l.number_of_elements cfg = .ok e ∧ e ≤ n

/-- A block: its corner has to be inside the dimensions. -/
def blockOf (b : BaseMatrix) (tl dim : Nat × Nat) : List Access :=
  whenOk (do
    let r ← cfg.add tl.1 dim.1
    let c ← cfg.add tl.2 dim.2
    Out.assert (r ≤ b.layout.dim.1 ∧ c ≤ b.layout.dim.2)) fun _ =>
  match b.layout with
  | .rowMajor _ | .asRowMajor _ =>
    [viewOf cfg b.data (Out.toInt (b.layout.convert_2d_raw cfg tl.1 tl.2)) dim
      (.asRowMajor ⟨dim, claimed b.layout⟩)]
  | .columnMajor _ | .asColumnMajor _ =>
    [viewOf cfg b.data (Out.toInt (b.layout.convert_2d_raw cfg tl.1 tl.2)) dim
      (.asColumnMajor ⟨dim, claimed b.layout⟩)]
  | _ => []

/-- The four parts of a split, one after the other, once their dimensions and starts are
computed. A start is a `usize` taken for an `isize`. -/
def splitOf (b : BaseMatrix) (p : Nat × Nat) : List Access :=
  whenOk (do
    let right ← cfg.sub b.layout.dim.2 p.2
    let below ← cfg.sub b.layout.dim.1 p.1
    let s0 ← b.layout.convert_2d_raw cfg 0 0
    let s1 ← b.layout.convert_2d_raw cfg 0 p.2
    let s2 ← b.layout.convert_2d_raw cfg p.1 0
    let s3 ← b.layout.convert_2d_raw cfg p.1 p.2
    return [(s0, p), (s1, (p.1, right)), (s2, (below, p.2)), (s3, (below, right))]) fun xs =>
  xs.map fun x =>
    viewOf cfg b.data (.ok (asIsize x.1)) x.2 (.asRowMajor ⟨x.2, claimed b.layout⟩)

/-- A new matrix with the given layout, in allocation `buf`, if there can be so many elements. -/
def brandNew (buf : Nat) (l : Layout) (sizes : SizeId × SizeId) : Option BaseMatrix :=
  match l.number_of_elements cfg with
  | .ok n => if n * cfg.item.size ≤ isizeMax then some ⟨⟨buf, 0, n⟩, l, sizes.1, sizes.2⟩ else none
  | _ => none

/-- Evaluation of an expression, if there is room for the result. (For column vectors
`from_dimension` insists on one row.) The result's own cells always exist. -/
def evalOf (m : Mat α) : List Access :=
  if m.layout.indexKind = .columnVector ∧ m.layout.dim.1 ≠ 1 then [] else
  match brandNew cfg 0 m.layout.index_layout (.dynamic, .dynamic) with
  | some _ => everything cfg m
  | none => []

/-- Where the matrix product looks for element `(i, j)`: a position in the allocation. -/
def lookedAt (m : BaseMatrix) (i j : Nat) : Int :=
  m.data.off + i * asIsize (claimed m.layout).1 + j * asIsize (claimed m.layout).2

/-- Everything the product takes for an element of `m` is in the container of `m`. -/
def LooksInside (m : BaseMatrix) : Prop :=
  ∀ i j, i < m.layout.dim.1 → j < m.layout.dim.2 →
    m.data.off ≤ lookedAt m i j ∧ lookedAt m i j < m.data.off + m.data.len

/-- Nothing that the product takes for an element of `x` it takes for an element of `y`. -/
def LooksApart (x y : BaseMatrix) : Prop :=
  x.data.buf = y.data.buf → ∀ i j i' j', i < x.layout.dim.1 → j < x.layout.dim.2 →
    i' < y.layout.dim.1 → j' < y.layout.dim.2 → lookedAt x i j ≠ lookedAt y i' j'

/-- What the documentation of the product asks for. -/
def KernelContract (a b c : BaseMatrix) : Prop :=
  LooksInside a ∧ LooksInside b ∧ LooksInside c ∧
  (∀ i j i' j', i < c.layout.dim.1 → j < c.layout.dim.2 → i' < c.layout.dim.1 →
    j' < c.layout.dim.2 → lookedAt c i j = lookedAt c i' j' → i = i' ∧ j = j') ∧
  LooksApart c a ∧ LooksApart c b

/-- The kernel is called, and its contract is broken. -/
def BreaksContract (a b c : BaseMatrix) : Prop :=
  Compatible a.layout b.layout c.layout ∧ NotTriangular a.layout ∧ NotTriangular b.layout ∧
    NotTriangular c.layout ∧ ¬ KernelContract a b c

/-- The matrix that `dot` makes for the result, if it does. -/
def dotResult (i : DotImpl) (a b : BaseMatrix) (buf : Nat) : Option BaseMatrix :=
  match i with
  | .matMat => brandNew cfg buf (.rowMajor ⟨(a.layout.dim.1, b.layout.dim.2)⟩) (.dynamic, .dynamic)
  | .rowMat => if a.layout.dim.1 = 1 then
      brandNew cfg buf (.rowVector ⟨b.layout.dim.2⟩) (.fixed1, .dynamic) else none
  | .matCol => if b.layout.dim.2 = 1 then
      brandNew cfg buf (.columnVector ⟨a.layout.dim.1⟩) (.dynamic, .fixed1) else none

/-- What an operation reaches for without a check. Constructors, slices, references, sums and
multiples do not. -/
def accesses (s : St α) : Op α → List Access
  | .element h op => match s.base? h, op with
    | some b, .get r c => checked2d cfg (.base b : Mat α) r c
    | some b, .set r c _ => checked2d cfg (.base b : Mat α) r c
    | some b, .update r c _ => checked2d cfg (.base b : Mat α) r c
    | some b, .get1d k => checked1d cfg (.base b : Mat α) k
    | some b, .set1d k _ => checked1d cfg (.base b : Mat α) k
    | some b, .update1d k _ => checked1d cfg (.base b : Mat α) k
    | none, _ => []
  | .get h r c => match s.mats[h]? with
    | some m => checked2d cfg m r c
    | none => []
  | .get1d h k => match s.mats[h]? with
    | some m => checked1d cfg m k
    | none => []
  | .forEach h _ => match s.base? h with
    | some b => everything cfg (.base b : Mat α)
    | none => []
  | .fillRand h _ => match s.base? h with
    | some b => everything cfg (.base b : Mat α)
    | none => []
  | .block h tl d => match s.base? h with
    | some b => if hasBlock b then blockOf cfg b tl d else []
    | none => []
  | .split h p => match s.base? h with
    | some b => if hasSplit b then splitOf cfg b p else []
    | none => []
  | .eval h => match s.mats[h]? with
    | some m => if m.sizes = (.dynamic, .dynamic) then evalOf cfg m else []
    | none => []
  | _ => []

/-- The operation multiplies, and breaks the contract of the kernel. -/
def BadProduct (s : St α) : Op α → Prop
  | .matmul _ a b _ c => ∃ ma mb mc, s.base? a = some ma ∧ s.base? b = some mb ∧
      s.base? c = some mc ∧ matmulImpl ma mb mc = true ∧ BreaksContract ma mb mc
  | .dot a b => ∃ ma mb i mc, s.base? a = some ma ∧ s.base? b = some mb ∧
      dotImpl ma mb = some i ∧ dotResult cfg i ma mb s.mem.bufs.length = some mc ∧
      BreaksContract ma mb mc
  | _ => False

/-- The operation is to blame: it reaches outside a container, or breaks the contract of the matrix
product. -/
def Culprit (s : St α) (op : Op α) : Prop :=
  LeavesContainer (accesses cfg s op) ∨ BadProduct cfg s op

end

end Householder.Spec
