import Verif.Model.MatMul

/-!
# Messages of panics

The functions of the crate once more, with the message that a panic prints. `Lemmas/Messages.lean` shows
that without the messages they are the functions of the other files of the model.
-/

namespace Householder

/-- What a panic prints, with the numbers that are put into the text. -/
inductive Message where
  /-- `+` on `usize` -/
  | add
  /-- `-` on `usize` -/
  | sub
  /-- `*` on `usize` -/
  | mul
  /-- `/` on `usize` -/
  | div
  /-- `%` on `usize` -/
  | rem
  /-- `vec![0; n]` -/
  | capacity
  /-- src/traits/random_access.rs:73-79 -/
  | row (row : Nat) (dim : Nat × Nat)
  /-- src/traits/random_access.rs:80-86 -/
  | col (col : Nat) (dim : Nat × Nat)
  /-- src/traits/random_access.rs:92-97 -/
  | elem (elem nelems : Nat)
  /-- src/base_matrix.rs:39-44 -/
  | data (data layout : Nat)
  /-- src/data_container.rs:24-29, 54-59 -/
  | first (first last : Nat)
  /-- src/data_container.rs:61-66 -/
  | firstBeyond (first nelems : Nat)
  /-- src/data_container.rs:31-36, 68-73 -/
  | lastBeyond (last nelems : Nat)
  /-- src/layouts/row_vector.rs:66-70 -/
  | rowVector (rows : Nat)
  /-- src/layouts/column_vector.rs:66-70 -/
  | columnVector (columns : Nat)
  /-- src/layouts/upper_triangular.rs:78-82 -/
  | triangular (dim : Nat × Nat)
  /-- src/layouts/upper_triangular.rs:41-46 -/
  | below (row col : Nat)
  /-- src/layouts/upper_triangular.rs:72 -/
  | stride
  /-- src/matrix/constructors.rs:95-99 -/
  | zerosRow (rows : Nat)
  /-- src/matrix/constructors.rs:119-123 -/
  | zerosColumn (cols : Nat)
  /-- src/matrix/matrix_slices.rs:24-30, 53-59 -/
  | corner (corner dim : Nat × Nat)
  /-- src/addition.rs:54-60 -/
  | sum (a b : Nat × Nat)
  /-- src/matrix_multiply.rs:200-206, 283-289 -/
  | product (a b c : Nat × Nat)
  /-- for methods that do not exist; nothing that compiles prints it -/
  | missing
  deriving DecidableEq, Repr

namespace Message

/-- `{:?}` of a pair of numbers. -/
def pair (p : Nat × Nat) : String := s!"({p.1}, {p.2})"

/-- `{:#?}` of a pair of numbers. -/
def prettyPair (p : Nat × Nat) : String := s!"(\n    {p.1},\n    {p.2},\n)"

/-- The text. (Simplification: without what `assert_eq!` puts around it, which differs between versions of
Rust.) -/
def text : Message → String
  | add => "attempt to add with overflow"
  | sub => "attempt to subtract with overflow"
  | mul => "attempt to multiply with overflow"
  | div => "attempt to divide by zero"
  | rem => "attempt to calculate the remainder with a divisor of zero"
  | capacity => "capacity overflow"
  | row r d => s!"row {r} out of bounds (dim: {d.1}, {d.2}"
  | col c d => s!"col {c} out of bounds (dim: {d.1}, {d.2}"
  | elem e n => s!"elem {e} out of bounds (nelems: {n})"
  | data d l => s!"Number of elements in data: {d}. But layout number of elements is {l})"
  | first f l => s!"'first' {f} must be smaller than 'last' {l}."
  | firstBeyond f n => s!"Value of 'first' {f} must be smaller than number of elements {n}."
  | lastBeyond l n => s!"Value of 'last' {l} must be smaller or equal to the number of elements {n}."
  | rowVector n => s!"Number of rows is {n} but must be one for RowVector."
  | columnVector n => s!"Number of columns is {n} but must be one for ColumnVector."
  | triangular d => s!"Only square triangular matrices are supported. dim = {prettyPair d}"
  | below r c => s!"For upper triangular require 'col' >= 'row': row={r}, col={c}"
  | stride => "not implemented: method 'stride' not implemented for UpperTriangular layout."
  | zerosRow n => s!"Number of rows is {n} but must be 1 for row vectors."
  | zerosColumn n => s!"Number of columns is {n} but must be 1 for column vectors."
  | corner p d => s!"Lower right corner {pair p} out of bounds for matrix with dim {pair d}"
  | sum a b => s!"Dimensions not identical in a + b with a.dim() = {prettyPair a}, b.dim() = {prettyPair b}"
  | product a b c => s!"Matrix multiply incompatible dimensions for C = A * B: A = {prettyPair a}, B = {
      prettyPair b}, C = {prettyPair c}"
  | missing => ""

end Message

/-- The outcome of a call, with the message of its panic. -/
inductive Told (α : Type) where
  | ok (a : α)
  | panic (m : Message)
  | ub
  deriving DecidableEq, Repr

namespace Told

variable {α β : Type}

/-- Sequencing of statements. -/
def bind (x : Told α) (f : α → Told β) : Told β :=
  match x with
  | ok a => f a
  | panic m => panic m
  | ub => ub

instance : Monad Told where
  pure := ok
  bind := Told.bind

/-- `assert!(p, m)`. -/
def assert (p : Prop) [Decidable p] (m : Message) : Told Unit := if p then ok () else panic m

/-- Without the message. -/
def out : Told α → Out α
  | ok a => .ok a
  | panic _ => .panic
  | ub => .ub

/-- A part of the code that does not panic. -/
def quiet : Out α → Told α
  | .ok a => ok a
  | .panic => panic .missing
  | .ub => ub

/-- The message, if it panics. -/
def message : Told α → Option Message
  | panic m => some m
  | _ => none

end Told

namespace Telling

variable {α : Type}

/-- `Cfg.wrap` -/
def wrap [Target] (cfg : Cfg) (m : Message) (v : Nat) : Told Nat :=
  if v < W then .ok v
  else if cfg.overflowChecks then .panic m
  else .ok (v % W)

/-- `a + b` on `usize`. -/
def add [Target] (cfg : Cfg) (a b : Nat) : Told Nat := wrap cfg .add (a + b)

/-- `a * b` on `usize`. -/
def mul [Target] (cfg : Cfg) (a b : Nat) : Told Nat := wrap cfg .mul (a * b)

/-- `a - b` on `usize`. -/
def sub [Target] (cfg : Cfg) (a b : Nat) : Told Nat :=
  if b ≤ a then .ok (a - b)
  else if cfg.overflowChecks then .panic .sub
  else .ok ((W + a - b) % W)

/-- `a / b` on `usize`. -/
def udiv (a b : Nat) : Told Nat := if b = 0 then .panic .div else .ok (a / b)

/-- `a % b` on `usize`. -/
def umod (a b : Nat) : Told Nat := if b = 0 then .panic .rem else .ok (a % b)

/-- `for index in 0..n { body }` -/
def forRange {σ : Type} (n : Nat) (body : Nat → σ → Told σ) (s : σ) : Told σ :=
  (List.range n).foldlM (fun s i => body i s) s

/-! ## Layouts -/

/-- src/layouts/upper_triangular.rs:40-48 -/
def triangular_2d_1d [Target] (cfg : Cfg) (l : UpperTriangular) (row col : Nat) : Told Nat := do
  Told.assert (col ≥ row) (.below row col)
  let a ← sub cfg l.dim row
  let b ← sub cfg l.dim row
  let b1 ← sub cfg b 1
  let ab ← mul cfg a b1
  let h ← udiv ab 2
  let hc ← add cfg h col
  sub cfg hc row

/-- `stride0 * row + stride1 * col`: src/layouts/arbitrary_stride_row_major.rs:37-39,
src/layouts/arbitrary_stride_column_major.rs:38-40 -/
def strided_2d_raw [Target] (cfg : Cfg) (stride : Nat × Nat) (row col : Nat) : Told Nat := do
  let a ← mul cfg stride.1 row
  let b ← mul cfg stride.2 col
  add cfg a b

/-- `LayoutType::convert_2d_raw` (src/traits/layout.rs:129): row_major.rs:35-37, column_major.rs:35-37,
row_vector.rs:34-36, column_vector.rs:34-36, arbitrary_stride_row_major.rs:37-39,
arbitrary_stride_column_major.rs:38-40, arbitrary_stride_row_vector.rs:39-41,
arbitrary_stride_column_vector.rs:39-41, upper_triangular.rs:51-53. -/
def convert_2d_raw [Target] (cfg : Cfg) (l : Layout) (row col : Nat) : Told Nat :=
  match l with
  | .rowMajor l => do
      let a ← mul cfg row l.dim.2
      add cfg a col
  | .columnMajor l => do
      let a ← mul cfg col l.dim.1
      add cfg a row
  | .rowVector _ => .ok col
  | .columnVector _ => .ok row
  | .asRowMajor l => strided_2d_raw cfg l.stride row col
  | .asColumnMajor l => strided_2d_raw cfg l.stride row col
  | .asRowVector l => mul cfg col l.stride
  | .asColumnVector l => mul cfg row l.stride
  | .upperTriangular l => triangular_2d_1d cfg l row col

/-- `LayoutType::convert_1d_raw` (src/traits/layout.rs:126): the layouts without strides return the index;
arbitrary_stride_row_major.rs:42-45, arbitrary_stride_column_major.rs:43-46,
arbitrary_stride_row_vector.rs:44-46, arbitrary_stride_column_vector.rs:44-46. -/
def convert_1d_raw [Target] (cfg : Cfg) (l : Layout) (index : Nat) : Told Nat :=
  match l with
  | .asRowMajor l => do
      let row ← udiv index l.dim.2
      let col ← umod index l.dim.2
      strided_2d_raw cfg l.stride row col
  | .asColumnMajor l => do
      let row ← umod index l.dim.1
      let col ← udiv index l.dim.1
      strided_2d_raw cfg l.stride row col
  | .asRowVector l => mul cfg index l.stride
  | .asColumnVector l => mul cfg index l.stride
  | _ => .ok index

/-- `LayoutType::number_of_elements` (src/traits/layout.rs:117): row_major.rs:55-57, column_major.rs:55-57,
row_vector.rs:54-56, column_vector.rs:54-56, arbitrary_stride_row_major.rs:58-60,
arbitrary_stride_column_major.rs:59-61, arbitrary_stride_row_vector.rs:59-61,
arbitrary_stride_column_vector.rs:59-61, upper_triangular.rs:66-68. -/
def number_of_elements [Target] (cfg : Cfg) (l : Layout) : Told Nat :=
  match l with
  | .rowMajor l => mul cfg l.dim.1 l.dim.2
  | .columnMajor l => mul cfg l.dim.1 l.dim.2
  | .rowVector l => .ok l.dim
  | .columnVector l => .ok l.dim
  | .asRowMajor l => mul cfg l.dim.1 l.dim.2
  | .asColumnMajor l => mul cfg l.dim.1 l.dim.2
  | .asRowVector l => .ok l.dim
  | .asColumnVector l => .ok l.dim
  | .upperTriangular l => do
      let a ← add cfg l.dim 1
      let b ← mul cfg l.dim a
      udiv b 2

/-- `LayoutType::stride` (src/traits/layout.rs:111), which panics for `UpperTriangular`
(src/layouts/upper_triangular.rs:71-73). -/
def stride (l : Layout) : Told (Nat × Nat) :=
  match l with
  | .upperTriangular _ => .panic .stride
  | l => .quiet l.stride

/-- `BaseLayoutType::from_dimension` (src/traits/layout.rs:86): row_major.rs:66-68, column_major.rs:66-68,
row_vector.rs:65-72, column_vector.rs:65-72, upper_triangular.rs:77-84. The message of `ColumnVector` shows
`dim.1`, the assertion is about `dim.0`. -/
def from_dimension (k : BaseKind) (dim : Nat × Nat) : Told Layout :=
  match k with
  | .rowMajor => .ok (.rowMajor ⟨dim⟩)
  | .columnMajor => .ok (.columnMajor ⟨dim⟩)
  | .rowVector => do
      Told.assert (dim.1 = 1) (.rowVector dim.1)
      return .rowVector ⟨dim.2⟩
  | .columnVector => do
      Told.assert (dim.1 = 1) (.columnVector dim.2)
      return .columnVector ⟨dim.1⟩
  | .upperTriangular => do
      Told.assert (dim.1 = dim.2) (.triangular dim)
      return .upperTriangular ⟨dim.1⟩

/-! ## Containers and constructors -/

/-- `VectorContainer::new` (src/data_container.rs:98-107) -/
def newVector [Target] [Zero α] (cfg : Cfg) (mem : Mem α) (nelems : Nat) : Told (Container × Mem α) :=
  if nelems * cfg.item.size ≤ isizeMax then .quiet (Container.newVector cfg mem nelems)
  else .panic .capacity

/-- `DataContainer::get_slice` (src/data_container.rs:23-39) -/
def get_slice (d : Container) (first last : Nat) : Told Container := do
  Told.assert (first < last) (.first first last)
  Told.assert (last ≤ d.number_of_elements) (.lastBeyond last d.number_of_elements)
  let p ← .quiet (d.get_pointer.add first)
  .quiet (p.from_raw_parts (last - first))

/-- `DataContainerMut::get_slice_mut` (src/data_container.rs:53-76) -/
def get_slice_mut (d : Container) (first last : Nat) : Told Container := do
  Told.assert (first < last) (.first first last)
  Told.assert (first < d.number_of_elements) (.firstBeyond first d.number_of_elements)
  Told.assert (last ≤ d.number_of_elements) (.lastBeyond last d.number_of_elements)
  let p ← .quiet (d.get_pointer.add first)
  .quiet (p.from_raw_parts (last - first))

/-- `BaseMatrix::new`, `Matrix::from_data` (src/base_matrix.rs:38-51, src/matrix.rs:144-146) -/
def from_data [Target] (cfg : Cfg) (rs cs : SizeId) (data : Container) (layout : Layout) : Told BaseMatrix := do
  let n ← number_of_elements cfg layout
  Told.assert (n ≤ data.number_of_elements) (.data data.number_of_elements n)
  return ⟨data, layout, rs, cs⟩

/-- `MatrixD::<Item, L>::zeros_from_dim` (src/matrix/constructors.rs:70-81) -/
def zeros_from_dim [Target] [Zero α] (cfg : Cfg) (k : BaseKind) (rows cols : Nat) (mem : Mem α) :
    Told (BaseMatrix × Mem α) := do
  let layout ← from_dimension k (rows, cols)
  let n ← number_of_elements cfg layout
  let x ← newVector cfg mem n
  let layout' ← from_dimension k (rows, cols)
  let m ← from_data cfg .dynamic .dynamic x.1 layout'
  return (m, x.2)

/-- `RowVectorD::zeros_from_dim` (src/matrix/constructors.rs:94-104) -/
def row_zeros_from_dim [Target] [Zero α] (cfg : Cfg) (rows cols : Nat) (mem : Mem α) :
    Told (BaseMatrix × Mem α) := do
  Told.assert (rows = 1) (.zerosRow rows)
  let x ← newVector cfg mem cols
  let m ← from_data cfg .fixed1 .dynamic x.1 (.rowVector (RowVector.from_length cols))
  return (m, x.2)

/-- `ColumnVectorD::zeros_from_dim` (src/matrix/constructors.rs:118-128) -/
def column_zeros_from_dim [Target] [Zero α] (cfg : Cfg) (rows cols : Nat) (mem : Mem α) :
    Told (BaseMatrix × Mem α) := do
  Told.assert (cols = 1) (.zerosColumn cols)
  let x ← newVector cfg mem rows
  let m ← from_data cfg .dynamic .fixed1 x.1 (.columnVector (ColumnVector.from_length rows))
  return (m, x.2)

/-! ## Access -/

/-- src/traits/random_access.rs:72-87 -/
def assert_dimension (row col : Nat) (dim : Nat × Nat) : Told Unit := do
  Told.assert (row < dim.1) (.row row dim)
  Told.assert (col < dim.2) (.col col dim)

/-- `UnsafeRandomAccess::get_unchecked`: src/base_matrix.rs:130-134, src/matrix_ref.rs:123-126,
src/addition.rs:123-130, src/scalar_mult.rs:95-98 -/
def get_unchecked [Target] [Add α] [Mul α] (cfg : Cfg) (mem : Mem α) (row col : Nat) : Mat α → Told α
  | .base b => do
      let k ← convert_2d_raw cfg b.layout row col
      .quiet (b.data.get_unchecked mem k)
  | .ref m => get_unchecked cfg mem row col m
  | .addition m1 m2 _ => do
      let a ← get_unchecked cfg mem row col m1
      let b ← get_unchecked cfg mem row col m2
      return a + b
  | .scalarMult m s => do
      let a ← get_unchecked cfg mem row col m
      return s * a

/-- `UnsafeRandomAccess::get1d_unchecked`: src/base_matrix.rs:136-139, src/matrix_ref.rs:128-131,
src/addition.rs:132-135, src/scalar_mult.rs:100-103 -/
def get1d_unchecked [Target] [Add α] [Mul α] (cfg : Cfg) (mem : Mem α) (index : Nat) : Mat α → Told α
  | .base b => do
      let k ← convert_1d_raw cfg b.layout index
      .quiet (b.data.get_unchecked mem k)
  | .ref m => get1d_unchecked cfg mem index m
  | .addition m1 m2 _ => do
      let a ← get1d_unchecked cfg mem index m1
      let b ← get1d_unchecked cfg mem index m2
      return a + b
  | .scalarMult m s => do
      let a ← get1d_unchecked cfg mem index m
      return s * a

/-- `RandomAccess::get` (src/traits/random_access.rs:101-104) -/
def get [Target] [Add α] [Mul α] (cfg : Cfg) (m : Mat α) (mem : Mem α) (row col : Nat) : Told α := do
  assert_dimension row col m.layout.dim
  get_unchecked cfg mem row col m

/-- `RandomAccess::get1d` (src/traits/random_access.rs:106-109) -/
def get1d [Target] [Add α] [Mul α] (cfg : Cfg) (m : Mat α) (mem : Mem α) (elem : Nat) : Told α := do
  let n ← number_of_elements cfg m.layout
  Told.assert (elem < n) (.elem elem n)
  get1d_unchecked cfg mem elem m

/-- `RandomAccessMut::get_mut` (src/traits/random_access.rs:113-116, src/base_matrix.rs:170-174) -/
def get_mut [Target] (cfg : Cfg) (m : BaseMatrix) (row col : Nat) : Told Loc := do
  assert_dimension row col m.layout.dim
  let k ← convert_2d_raw cfg m.layout row col
  .quiet (m.data.get_unchecked_mut k)

/-- `RandomAccessMut::get1d_mut` (src/traits/random_access.rs:118-121, src/base_matrix.rs:176-180) -/
def get1d_mut [Target] (cfg : Cfg) (m : BaseMatrix) (elem : Nat) : Told Loc := do
  let n ← number_of_elements cfg m.layout
  Told.assert (elem < n) (.elem elem n)
  let k ← convert_1d_raw cfg m.layout elem
  .quiet (m.data.get_unchecked_mut k)

/-! ## Views, sums, products, eval -/

/-- `from_pointer` (src/matrix/constructors.rs:135-146, 151-162) -/
def from_pointer_strided [Target] (cfg : Cfg) (ptr : Ptr) (dim : Nat × Nat) (new_layout : Layout) :
    Told BaseMatrix := do
  let r ← sub cfg dim.1 1
  let c ← sub cfg dim.2 1
  let k ← convert_2d_raw cfg new_layout r c
  let nindices ← add cfg k 1
  let data ← .quiet (ptr.from_raw_parts nindices)
  from_data cfg .dynamic .dynamic data new_layout

/-- The failing assertion of `block` and `block_mut` (src/matrix/matrix_slices.rs:24-30, 53-59): the numbers
of the message are computed then, and that may panic itself. -/
def corner [Target] (cfg : Cfg) (top_left dim whole : Nat × Nat) : Told Unit := do
  let a ← add cfg top_left.1 dim.1
  let r ← sub cfg a 1
  let b ← add cfg top_left.2 dim.2
  let c ← sub cfg b 1
  .panic (.corner (r, c) whole)

/-- `block` and `block_mut` (src/matrix/matrix_slices.rs:19-39, 48-69) -/
def block [Target] (cfg : Cfg) (m : BaseMatrix) (top_left dim : Nat × Nat) : Told BaseMatrix := do
  let a ← add cfg top_left.1 dim.1
  let b ← add cfg top_left.2 dim.2
  if a ≤ m.layout.dim.1 ∧ b ≤ m.layout.dim.2 then .ok () else corner cfg top_left dim m.layout.dim
  let start_index ← convert_2d_raw cfg m.layout top_left.1 top_left.2
  let ptr ← .quiet (m.get_pointer.add start_index)
  let stride ← stride m.layout
  match BaseMatrix.strideLayout m.layout dim stride with
  | some l => from_pointer_strided cfg ptr dim l
  | none => .panic .missing

/-- `Addition::new` (src/addition.rs:50-74) -/
def addition_new (m1 m2 : Mat α) : Told (Mat α) := do
  Told.assert (m1.layout.dim = m2.layout.dim) (.sum m1.layout.dim m2.layout.dim)
  return .addition m1 m2 m1.layout.index_layout

/-- `MatMul::matmul` (src/matrix_multiply.rs:189-236, 272-324) -/
def matmul [Target] (kern : Kern α) (alpha : α) (mat_a mat_b : BaseMatrix) (beta : α)
    (mat_c : BaseMatrix) (mem : Mem α) : Told (Mem α) := do
  let dim1 := mat_a.layout.dim
  let dim2 := mat_b.layout.dim
  let dim3 := mat_c.layout.dim
  Told.assert (dim1.2 = dim2.1 ∧ dim3.1 = dim1.1 ∧ dim3.2 = dim2.2) (.product dim1 dim2 dim3)
  let m := dim1.1
  let k := dim1.2
  let n := dim2.2
  let rsa := asIsize (← stride mat_a.layout).1
  let csa := asIsize (← stride mat_a.layout).2
  let rsb := asIsize (← stride mat_b.layout).1
  let csb := asIsize (← stride mat_b.layout).2
  let rsc := asIsize (← stride mat_c.layout).1
  let csc := asIsize (← stride mat_c.layout).2
  .quiet (gemm kern m k n alpha mat_a.get_pointer rsa csa mat_b.get_pointer rsb csb beta
    mat_c.get_pointer rsc csc mem)

/-- `Dot::dot` (src/matrix_multiply.rs:75-89, 104-118, 138-152) -/
def dot [Target] [Zero α] [One α] (cfg : Cfg) (kern : Kern α) (i : DotImpl) (a b : BaseMatrix) (mem : Mem α) :
    Told (BaseMatrix × Mem α) := do
  let x ← match i with
    | .matMat => zeros_from_dim cfg .rowMajor a.layout.dim.1 b.layout.dim.2 mem
    | .rowMat => row_zeros_from_dim cfg a.layout.dim.1 b.layout.dim.2 mem
    | .matCol => column_zeros_from_dim cfg a.layout.dim.1 b.layout.dim.2 mem
  let mem2 ← matmul kern 1 a b 0 x.1 x.2
  return (x.1, mem2)

/-- `eval` (src/matrix/common_impl.rs:79-89) -/
def eval [Target] [Zero α] [Add α] [Mul α] (cfg : Cfg) (m : Mat α) (mem : Mem α) :
    Told (BaseMatrix × Mem α) := do
  let dim := m.layout.dim
  let x ← zeros_from_dim cfg m.layout.indexKind dim.1 dim.2 mem
  let n ← number_of_elements cfg m.layout
  let mem1 ← forRange n (fun index mem => do
    let v ← get1d_unchecked cfg mem index m
    let k ← convert_1d_raw cfg x.1.layout index
    let p ← .quiet (x.1.data.get_unchecked_mut k)
    .quiet (mem.write p v)) x.2
  return (x.1, mem1)

end Telling

end Householder
