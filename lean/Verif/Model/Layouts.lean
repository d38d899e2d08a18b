import Verif.Model.Base
import Verif.Model.F64

/-!
# Memory layouts (src/layouts/*.rs)

One structure per Rust layout type, one function per trait method, and the sum
type `Layout` that stands for "some type implementing `LayoutType`".
-/

namespace Householder

/-- src/layouts/row_major.rs:11-13; the constructor `new` (lines 16-18) is `⟨…⟩` -/
structure RowMajor where
  dim : Nat × Nat
  deriving DecidableEq, Repr

/-- src/layouts/column_major.rs:11-13; the constructor `new` (lines 16-18) is `⟨…⟩` -/
structure ColumnMajor where
  dim : Nat × Nat
  deriving DecidableEq, Repr

/-- src/layouts/row_vector.rs:10-12; the constructor `new` (lines 15-17) is `⟨…⟩` -/
structure RowVector where
  dim : Nat
  deriving DecidableEq, Repr

/-- src/layouts/column_vector.rs:10-12; the constructor `new` (lines 15-17) is `⟨…⟩` -/
structure ColumnVector where
  dim : Nat
  deriving DecidableEq, Repr

/-- src/layouts/arbitrary_stride_row_major.rs:12-15; the constructor `new` (lines 18-20) is `⟨…⟩` -/
structure ArbitraryStrideRowMajor where
  dim : Nat × Nat
  stride : Nat × Nat
  deriving DecidableEq, Repr

/-- src/layouts/arbitrary_stride_column_major.rs:13-16; the constructor `new` (lines 19-21) is `⟨…⟩` -/
structure ArbitraryStrideColumnMajor where
  dim : Nat × Nat
  stride : Nat × Nat
  deriving DecidableEq, Repr

/-- src/layouts/arbitrary_stride_row_vector.rs:14-17; the constructor `new` (lines 20-22) is `⟨…⟩` -/
structure ArbitraryStrideRowVector where
  dim : Nat
  stride : Nat
  deriving DecidableEq, Repr

/-- src/layouts/arbitrary_stride_column_vector.rs:14-17; the constructor `new` (lines 20-22) is `⟨…⟩` -/
structure ArbitraryStrideColumnVector where
  dim : Nat
  stride : Nat
  deriving DecidableEq, Repr

/-- src/layouts/upper_triangular.rs:11-13; the constructor `new` (lines 16-18) is `⟨…⟩` -/
structure UpperTriangular where
  dim : Nat
  deriving DecidableEq, Repr

/-- Some type implementing `LayoutType` (src/traits/layout.rs:105-134). The trait
is open in Rust; the model covers the crate's own nine implementations. -/
inductive Layout where
  | rowMajor (l : RowMajor)
  | columnMajor (l : ColumnMajor)
  | rowVector (l : RowVector)
  | columnVector (l : ColumnVector)
  | asRowMajor (l : ArbitraryStrideRowMajor)
  | asColumnMajor (l : ArbitraryStrideColumnMajor)
  | asRowVector (l : ArbitraryStrideRowVector)
  | asColumnVector (l : ArbitraryStrideColumnVector)
  | upperTriangular (l : UpperTriangular)
  deriving DecidableEq, Repr

/-- Some type implementing `BaseLayoutType` (src/traits/layout.rs:84-87): the
possible `IndexLayout`s. -/
inductive BaseKind where
  | rowMajor | columnMajor | rowVector | columnVector | upperTriangular
  deriving DecidableEq, Repr

namespace RowMajor

/-- src/layouts/row_major.rs:25-27 -/
def convert_1d_2d (l : RowMajor) (index : Nat) : Out (Nat × Nat) := do
  let r ← udiv index l.dim.2
  let c ← umod index l.dim.2
  return (r, c)

/-- src/layouts/row_major.rs:30-32 -/
def convert_2d_1d [Target] (cfg : Cfg) (l : RowMajor) (row col : Nat) : Out Nat := do
  let a ← cfg.mul row l.dim.2
  cfg.add a col

/-- src/layouts/row_major.rs:35-37 -/
def convert_2d_raw [Target] (cfg : Cfg) (l : RowMajor) (row col : Nat) : Out Nat :=
  l.convert_2d_1d cfg row col

/-- src/layouts/row_major.rs:40-42 -/
def convert_1d_raw (_l : RowMajor) (index : Nat) : Out Nat := .ok index

/-- src/layouts/row_major.rs:50-52 -/
def stride (l : RowMajor) : Out (Nat × Nat) := .ok (l.dim.2, 1)

/-- src/layouts/row_major.rs:55-57 -/
def number_of_elements [Target] (cfg : Cfg) (l : RowMajor) : Out Nat := cfg.mul l.dim.1 l.dim.2

/-- src/layouts/row_major.rs:60-62 -/
def index_layout (l : RowMajor) : RowMajor := ⟨l.dim⟩

/-- src/layouts/row_major.rs:66-68 -/
def from_dimension (dim : Nat × Nat) : Out RowMajor := .ok ⟨dim⟩

end RowMajor

namespace ColumnMajor

/-- src/layouts/column_major.rs:25-27 -/
def convert_1d_2d (l : ColumnMajor) (index : Nat) : Out (Nat × Nat) := do
  let r ← umod index l.dim.1
  let c ← udiv index l.dim.1
  return (r, c)

/-- src/layouts/column_major.rs:30-32 -/
def convert_2d_1d [Target] (cfg : Cfg) (l : ColumnMajor) (row col : Nat) : Out Nat := do
  let a ← cfg.mul col l.dim.1
  cfg.add a row

/-- src/layouts/column_major.rs:35-37 -/
def convert_2d_raw [Target] (cfg : Cfg) (l : ColumnMajor) (row col : Nat) : Out Nat :=
  l.convert_2d_1d cfg row col

/-- src/layouts/column_major.rs:40-42 -/
def convert_1d_raw (_l : ColumnMajor) (index : Nat) : Out Nat := .ok index

/-- src/layouts/column_major.rs:50-52 -/
def stride (l : ColumnMajor) : Out (Nat × Nat) := .ok (1, l.dim.1)

/-- src/layouts/column_major.rs:55-57 -/
def number_of_elements [Target] (cfg : Cfg) (l : ColumnMajor) : Out Nat := cfg.mul l.dim.1 l.dim.2

/-- src/layouts/column_major.rs:60-62 -/
def index_layout (l : ColumnMajor) : ColumnMajor := ⟨l.dim⟩

/-- src/layouts/column_major.rs:66-68 -/
def from_dimension (dim : Nat × Nat) : Out ColumnMajor := .ok ⟨dim⟩

end ColumnMajor

namespace RowVector

/-- src/layouts/row_vector.rs:24-26 -/
def convert_1d_2d (_l : RowVector) (index : Nat) : Out (Nat × Nat) := .ok (1, index)

/-- src/layouts/row_vector.rs:29-31 -/
def convert_2d_1d (_l : RowVector) (_row col : Nat) : Out Nat := .ok col

/-- src/layouts/row_vector.rs:34-36 -/
def convert_2d_raw (_l : RowVector) (_row col : Nat) : Out Nat := .ok col

/-- src/layouts/row_vector.rs:39-41 -/
def convert_1d_raw (_l : RowVector) (index : Nat) : Out Nat := .ok index

/-- src/layouts/row_vector.rs:49-51 -/
def stride (_l : RowVector) : Out (Nat × Nat) := .ok (1, 1)

/-- src/layouts/row_vector.rs:54-56 -/
def number_of_elements (l : RowVector) : Out Nat := .ok l.dim

/-- src/layouts/row_vector.rs:59-61 -/
def index_layout (l : RowVector) : RowVector := ⟨l.dim⟩

/-- src/layouts/row_vector.rs:65-72 -/
def from_dimension (dim : Nat × Nat) : Out RowVector := do
  Out.assert (dim.1 = 1)
  return ⟨dim.2⟩

/-- src/layouts/row_vector.rs:76-78 -/
def from_length (length : Nat) : RowVector := ⟨length⟩

end RowVector

namespace ColumnVector

/-- src/layouts/column_vector.rs:24-26 -/
def convert_1d_2d (_l : ColumnVector) (index : Nat) : Out (Nat × Nat) := .ok (index, 1)

/-- src/layouts/column_vector.rs:29-31 -/
def convert_2d_1d (_l : ColumnVector) (row _col : Nat) : Out Nat := .ok row

/-- src/layouts/column_vector.rs:34-36 -/
def convert_2d_raw (_l : ColumnVector) (row _col : Nat) : Out Nat := .ok row

/-- src/layouts/column_vector.rs:39-41 -/
def convert_1d_raw (_l : ColumnVector) (index : Nat) : Out Nat := .ok index

/-- src/layouts/column_vector.rs:49-51 -/
def stride (_l : ColumnVector) : Out (Nat × Nat) := .ok (1, 1)

/-- src/layouts/column_vector.rs:54-56 -/
def number_of_elements (l : ColumnVector) : Out Nat := .ok l.dim

/-- src/layouts/column_vector.rs:59-61 -/
def index_layout (l : ColumnVector) : ColumnVector := ⟨l.dim⟩

/-- src/layouts/column_vector.rs:65-72. The assertion really is on `dim.0`
(the number of rows), although its message speaks of columns. -/
def from_dimension (dim : Nat × Nat) : Out ColumnVector := do
  Out.assert (dim.1 = 1)
  return ⟨dim.1⟩

/-- src/layouts/column_vector.rs:76-78 -/
def from_length (length : Nat) : ColumnVector := ⟨length⟩

end ColumnVector

namespace ArbitraryStrideRowMajor

/-- src/layouts/arbitrary_stride_row_major.rs:27-29 -/
def convert_1d_2d (l : ArbitraryStrideRowMajor) (index : Nat) : Out (Nat × Nat) := do
  let r ← udiv index l.dim.2
  let c ← umod index l.dim.2
  return (r, c)

/-- src/layouts/arbitrary_stride_row_major.rs:32-34 -/
def convert_2d_1d [Target] (cfg : Cfg) (l : ArbitraryStrideRowMajor) (row col : Nat) : Out Nat := do
  let a ← cfg.mul row l.dim.2
  cfg.add a col

/-- src/layouts/arbitrary_stride_row_major.rs:37-39 -/
def convert_2d_raw [Target] (cfg : Cfg) (l : ArbitraryStrideRowMajor) (row col : Nat) : Out Nat := do
  let a ← cfg.mul l.stride.1 row
  let b ← cfg.mul l.stride.2 col
  cfg.add a b

/-- src/layouts/arbitrary_stride_row_major.rs:42-45 -/
def convert_1d_raw [Target] (cfg : Cfg) (l : ArbitraryStrideRowMajor) (index : Nat) : Out Nat := do
  let (row, col) ← l.convert_1d_2d index
  l.convert_2d_raw cfg row col

/-- The trait method `stride()`, src/layouts/arbitrary_stride_row_major.rs:53-55.
It does not return the field `stride`. -/
def stride_fn (l : ArbitraryStrideRowMajor) : Out (Nat × Nat) := .ok (l.dim.2, 1)

/-- src/layouts/arbitrary_stride_row_major.rs:58-60 -/
def number_of_elements [Target] (cfg : Cfg) (l : ArbitraryStrideRowMajor) : Out Nat :=
  cfg.mul l.dim.1 l.dim.2

/-- src/layouts/arbitrary_stride_row_major.rs:63-65 -/
def index_layout (l : ArbitraryStrideRowMajor) : RowMajor := ⟨l.dim⟩

end ArbitraryStrideRowMajor

namespace ArbitraryStrideColumnMajor

/-- src/layouts/arbitrary_stride_column_major.rs:28-30 -/
def convert_1d_2d (l : ArbitraryStrideColumnMajor) (index : Nat) : Out (Nat × Nat) := do
  let r ← umod index l.dim.1
  let c ← udiv index l.dim.1
  return (r, c)

/-- src/layouts/arbitrary_stride_column_major.rs:33-35 -/
def convert_2d_1d [Target] (cfg : Cfg) (l : ArbitraryStrideColumnMajor) (row col : Nat) : Out Nat := do
  let a ← cfg.mul col l.dim.1
  cfg.add a row

/-- src/layouts/arbitrary_stride_column_major.rs:38-40 -/
def convert_2d_raw [Target] (cfg : Cfg) (l : ArbitraryStrideColumnMajor) (row col : Nat) : Out Nat := do
  let a ← cfg.mul l.stride.1 row
  let b ← cfg.mul l.stride.2 col
  cfg.add a b

/-- src/layouts/arbitrary_stride_column_major.rs:43-46 -/
def convert_1d_raw [Target] (cfg : Cfg) (l : ArbitraryStrideColumnMajor) (index : Nat) : Out Nat := do
  let (row, col) ← l.convert_1d_2d index
  l.convert_2d_raw cfg row col

/-- The trait method `stride()`, src/layouts/arbitrary_stride_column_major.rs:54-56.
It does not return the field `stride`. -/
def stride_fn (l : ArbitraryStrideColumnMajor) : Out (Nat × Nat) := .ok (1, l.dim.1)

/-- src/layouts/arbitrary_stride_column_major.rs:59-61 -/
def number_of_elements [Target] (cfg : Cfg) (l : ArbitraryStrideColumnMajor) : Out Nat :=
  cfg.mul l.dim.1 l.dim.2

/-- src/layouts/arbitrary_stride_column_major.rs:64-66 -/
def index_layout (l : ArbitraryStrideColumnMajor) : ColumnMajor := ⟨l.dim⟩

end ArbitraryStrideColumnMajor

namespace ArbitraryStrideRowVector

/-- src/layouts/arbitrary_stride_row_vector.rs:29-31 -/
def convert_1d_2d (_l : ArbitraryStrideRowVector) (index : Nat) : Out (Nat × Nat) :=
  .ok (1, index)

/-- src/layouts/arbitrary_stride_row_vector.rs:34-36 -/
def convert_2d_1d (_l : ArbitraryStrideRowVector) (_row col : Nat) : Out Nat := .ok col

/-- src/layouts/arbitrary_stride_row_vector.rs:39-41 -/
def convert_2d_raw [Target] (cfg : Cfg) (l : ArbitraryStrideRowVector) (_row col : Nat) : Out Nat :=
  cfg.mul col l.stride

/-- src/layouts/arbitrary_stride_row_vector.rs:44-46 -/
def convert_1d_raw [Target] (cfg : Cfg) (l : ArbitraryStrideRowVector) (index : Nat) : Out Nat :=
  cfg.mul index l.stride

/-- The trait method `stride()`, src/layouts/arbitrary_stride_row_vector.rs:54-56 -/
def stride_fn (l : ArbitraryStrideRowVector) : Out (Nat × Nat) := .ok (1, l.stride)

/-- src/layouts/arbitrary_stride_row_vector.rs:59-61 -/
def number_of_elements (l : ArbitraryStrideRowVector) : Out Nat := .ok l.dim

/-- src/layouts/arbitrary_stride_row_vector.rs:64-66 -/
def index_layout (l : ArbitraryStrideRowVector) : RowVector := ⟨l.dim⟩

end ArbitraryStrideRowVector

namespace ArbitraryStrideColumnVector

/-- src/layouts/arbitrary_stride_column_vector.rs:29-31 -/
def convert_1d_2d (_l : ArbitraryStrideColumnVector) (index : Nat) : Out (Nat × Nat) :=
  .ok (index, 1)

/-- src/layouts/arbitrary_stride_column_vector.rs:34-36 -/
def convert_2d_1d (_l : ArbitraryStrideColumnVector) (row _col : Nat) : Out Nat := .ok row

/-- src/layouts/arbitrary_stride_column_vector.rs:39-41 -/
def convert_2d_raw [Target] (cfg : Cfg) (l : ArbitraryStrideColumnVector) (row _col : Nat) : Out Nat :=
  cfg.mul row l.stride

/-- src/layouts/arbitrary_stride_column_vector.rs:44-46 -/
def convert_1d_raw [Target] (cfg : Cfg) (l : ArbitraryStrideColumnVector) (index : Nat) : Out Nat :=
  cfg.mul index l.stride

/-- The trait method `stride()`, src/layouts/arbitrary_stride_column_vector.rs:54-56 -/
def stride_fn (l : ArbitraryStrideColumnVector) : Out (Nat × Nat) := .ok (l.stride, 1)

/-- src/layouts/arbitrary_stride_column_vector.rs:59-61 -/
def number_of_elements (l : ArbitraryStrideColumnVector) : Out Nat := .ok l.dim

/-- src/layouts/arbitrary_stride_column_vector.rs:64-66 -/
def index_layout (l : ArbitraryStrideColumnVector) : ColumnVector := ⟨l.dim⟩

end ArbitraryStrideColumnVector

namespace UpperTriangular

/-- src/layouts/upper_triangular.rs:25-32 -/
def convert_1d_2d [Target] (cfg : Cfg) (l : UpperTriangular) (index : Nat) : Out (Nat × Nat) := do
  let p := F64.triRow index
  let n1 ← cfg.sub l.dim 1
  let row ← cfg.sub n1 p
  let a ← cfg.add row index
  let p1 ← cfg.add p 1
  let pp ← cfg.mul p p1
  let t ← udiv pp 2
  let col ← cfg.sub a t
  return (row, col)

/-- src/layouts/upper_triangular.rs:35-37 -/
def convert_1d_raw (_l : UpperTriangular) (index : Nat) : Out Nat := .ok index

/-- src/layouts/upper_triangular.rs:40-48 -/
def convert_2d_1d [Target] (cfg : Cfg) (l : UpperTriangular) (row col : Nat) : Out Nat := do
  Out.assert (col ≥ row)
  let a ← cfg.sub l.dim row
  let b ← cfg.sub l.dim row
  let b1 ← cfg.sub b 1
  let ab ← cfg.mul a b1
  let h ← udiv ab 2
  let hc ← cfg.add h col
  cfg.sub hc row

/-- src/layouts/upper_triangular.rs:51-53 -/
def convert_2d_raw [Target] (cfg : Cfg) (l : UpperTriangular) (row col : Nat) : Out Nat := do
  let i ← l.convert_2d_1d cfg row col
  l.convert_1d_raw i

/-- src/layouts/upper_triangular.rs:71-73: `unimplemented!`. -/
def stride (_l : UpperTriangular) : Out (Nat × Nat) := .panic

/-- src/layouts/upper_triangular.rs:66-68 -/
def number_of_elements [Target] (cfg : Cfg) (l : UpperTriangular) : Out Nat := do
  let a ← cfg.add l.dim 1
  let b ← cfg.mul l.dim a
  udiv b 2

/-- src/layouts/upper_triangular.rs:61-63 -/
def index_layout (l : UpperTriangular) : UpperTriangular := ⟨l.dim⟩

/-- src/layouts/upper_triangular.rs:77-84 -/
def from_dimension (dim : Nat × Nat) : Out UpperTriangular := do
  Out.assert (dim.1 = dim.2)
  return ⟨dim.1⟩

end UpperTriangular

/-! ## Trait dispatch -/

namespace Layout

/-- `LayoutType::dim` (src/traits/layout.rs:114): row_major.rs:45-47,
column_major.rs:45-47, row_vector.rs:44-46, column_vector.rs:44-46,
arbitrary_stride_row_major.rs:48-50, arbitrary_stride_column_major.rs:49-51,
arbitrary_stride_row_vector.rs:49-51, arbitrary_stride_column_vector.rs:49-51,
upper_triangular.rs:56-58. -/
def dim : Layout → Nat × Nat
  | rowMajor l => l.dim
  | columnMajor l => l.dim
  | rowVector l => (1, l.dim)
  | columnVector l => (l.dim, 1)
  | asRowMajor l => l.dim
  | asColumnMajor l => l.dim
  | asRowVector l => (1, l.dim)
  | asColumnVector l => (l.dim, 1)
  | upperTriangular l => (l.dim, l.dim)

/-- `LayoutType::stride` (src/traits/layout.rs:111). -/
def stride : Layout → Out (Nat × Nat)
  | rowMajor l => l.stride
  | columnMajor l => l.stride
  | rowVector l => l.stride
  | columnVector l => l.stride
  | asRowMajor l => l.stride_fn
  | asColumnMajor l => l.stride_fn
  | asRowVector l => l.stride_fn
  | asColumnVector l => l.stride_fn
  | upperTriangular l => l.stride

/-- `LayoutType::number_of_elements` (src/traits/layout.rs:117). -/
def number_of_elements [Target] (cfg : Cfg) : Layout → Out Nat
  | rowMajor l => l.number_of_elements cfg
  | columnMajor l => l.number_of_elements cfg
  | rowVector l => l.number_of_elements
  | columnVector l => l.number_of_elements
  | asRowMajor l => l.number_of_elements cfg
  | asColumnMajor l => l.number_of_elements cfg
  | asRowVector l => l.number_of_elements
  | asColumnVector l => l.number_of_elements
  | upperTriangular l => l.number_of_elements cfg

/-- `LayoutType::convert_1d_2d` (src/traits/layout.rs:120). -/
def convert_1d_2d [Target] (cfg : Cfg) : Layout → Nat → Out (Nat × Nat)
  | rowMajor l => l.convert_1d_2d
  | columnMajor l => l.convert_1d_2d
  | rowVector l => l.convert_1d_2d
  | columnVector l => l.convert_1d_2d
  | asRowMajor l => l.convert_1d_2d
  | asColumnMajor l => l.convert_1d_2d
  | asRowVector l => l.convert_1d_2d
  | asColumnVector l => l.convert_1d_2d
  | upperTriangular l => l.convert_1d_2d cfg

/-- `LayoutType::convert_2d_1d` (src/traits/layout.rs:123). -/
def convert_2d_1d [Target] (cfg : Cfg) : Layout → Nat → Nat → Out Nat
  | rowMajor l => l.convert_2d_1d cfg
  | columnMajor l => l.convert_2d_1d cfg
  | rowVector l => l.convert_2d_1d
  | columnVector l => l.convert_2d_1d
  | asRowMajor l => l.convert_2d_1d cfg
  | asColumnMajor l => l.convert_2d_1d cfg
  | asRowVector l => l.convert_2d_1d
  | asColumnVector l => l.convert_2d_1d
  | upperTriangular l => l.convert_2d_1d cfg

/-- `LayoutType::convert_1d_raw` (src/traits/layout.rs:126). -/
def convert_1d_raw [Target] (cfg : Cfg) : Layout → Nat → Out Nat
  | rowMajor l => l.convert_1d_raw
  | columnMajor l => l.convert_1d_raw
  | rowVector l => l.convert_1d_raw
  | columnVector l => l.convert_1d_raw
  | asRowMajor l => l.convert_1d_raw cfg
  | asColumnMajor l => l.convert_1d_raw cfg
  | asRowVector l => l.convert_1d_raw cfg
  | asColumnVector l => l.convert_1d_raw cfg
  | upperTriangular l => l.convert_1d_raw

/-- `LayoutType::convert_2d_raw` (src/traits/layout.rs:129). -/
def convert_2d_raw [Target] (cfg : Cfg) : Layout → Nat → Nat → Out Nat
  | rowMajor l => l.convert_2d_raw cfg
  | columnMajor l => l.convert_2d_raw cfg
  | rowVector l => l.convert_2d_raw
  | columnVector l => l.convert_2d_raw
  | asRowMajor l => l.convert_2d_raw cfg
  | asColumnMajor l => l.convert_2d_raw cfg
  | asRowVector l => l.convert_2d_raw cfg
  | asColumnVector l => l.convert_2d_raw cfg
  | upperTriangular l => l.convert_2d_raw cfg

/-- `LayoutType::index_layout` (src/traits/layout.rs:133). -/
def index_layout : Layout → Layout
  | rowMajor l => rowMajor l.index_layout
  | columnMajor l => columnMajor l.index_layout
  | rowVector l => rowVector l.index_layout
  | columnVector l => columnVector l.index_layout
  | asRowMajor l => rowMajor l.index_layout
  | asColumnMajor l => columnMajor l.index_layout
  | asRowVector l => rowVector l.index_layout
  | asColumnVector l => columnVector l.index_layout
  | upperTriangular l => upperTriangular l.index_layout

/-- The associated type `IndexLayout` (src/traits/layout.rs:108): row_major.rs:22,
column_major.rs:22, row_vector.rs:21, column_vector.rs:21,
arbitrary_stride_row_major.rs:24, arbitrary_stride_column_major.rs:25,
arbitrary_stride_row_vector.rs:26, arbitrary_stride_column_vector.rs:26,
upper_triangular.rs:22. -/
def indexKind : Layout → BaseKind
  | rowMajor _ => .rowMajor
  | columnMajor _ => .columnMajor
  | rowVector _ => .rowVector
  | columnVector _ => .columnVector
  | asRowMajor _ => .rowMajor
  | asColumnMajor _ => .columnMajor
  | asRowVector _ => .rowVector
  | asColumnVector _ => .columnVector
  | upperTriangular _ => .upperTriangular

/-- The marker trait `StridedLayoutType` (src/traits/layout.rs:101): implemented by
every layout but `UpperTriangular` (row_major.rs:72, column_major.rs:72,
row_vector.rs:81, column_vector.rs:81, arbitrary_stride_*.rs:68-69). -/
def isStrided : Layout → Bool
  | upperTriangular _ => false
  | _ => true

end Layout

/-- `BaseLayoutType::from_dimension` (src/traits/layout.rs:86), by the type it is
called on. -/
def BaseKind.from_dimension (k : BaseKind) (dim : Nat × Nat) : Out Layout :=
  match k with
  | .rowMajor => do return .rowMajor (← RowMajor.from_dimension dim)
  | .columnMajor => do return .columnMajor (← ColumnMajor.from_dimension dim)
  | .rowVector => do return .rowVector (← RowVector.from_dimension dim)
  | .columnVector => do return .columnVector (← ColumnVector.from_dimension dim)
  | .upperTriangular => do return .upperTriangular (← UpperTriangular.from_dimension dim)

end Householder
