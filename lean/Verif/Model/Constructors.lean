import Verif.Model.Matrix

/-!
# Constructors, eval, views, random fill, macros

src/matrix.rs, src/matrix/constructors.rs, src/matrix/common_impl.rs (eval),
src/matrix/matrix_slices.rs, src/matrix/random.rs, src/tools.rs, src/macros.rs.
-/

namespace Householder

variable {α : Type}

/-- `Matrix::from_data` (src/matrix.rs:144-146) -/
def from_data [Target] (cfg : Cfg) (rs cs : SizeId) (data : Container) (layout : Layout) : Out BaseMatrix :=
  BaseMatrix.new cfg rs cs data layout

/-- `MatrixD::<Item, L>::zeros_from_dim` for a base layout `L`
(src/matrix/constructors.rs:70-81) -/
def zeros_from_dim [Target] [Zero α] (cfg : Cfg) (k : BaseKind) (rows cols : Nat) (mem : Mem α) :
    Out (BaseMatrix × Mem α) := do
  let layout ← k.from_dimension (rows, cols)
  let n ← layout.number_of_elements cfg
  let (data, mem') ← Container.newVector cfg mem n
  let layout' ← k.from_dimension (rows, cols)
  let m ← from_data cfg .dynamic .dynamic data layout'
  return (m, mem')

/-- `RowVectorD::zeros_from_length` (src/matrix/constructors.rs:85-90) -/
def RowVectorD.zeros_from_length [Target] [Zero α] (cfg : Cfg) (nelems : Nat) (mem : Mem α) :
    Out (BaseMatrix × Mem α) := do
  let (data, mem') ← Container.newVector cfg mem nelems
  let m ← from_data cfg .fixed1 .dynamic data (.rowVector (RowVector.from_length nelems))
  return (m, mem')

/-- `RowVectorD::zeros_from_dim` (src/matrix/constructors.rs:94-104) -/
def RowVectorD.zeros_from_dim [Target] [Zero α] (cfg : Cfg) (rows cols : Nat) (mem : Mem α) :
    Out (BaseMatrix × Mem α) := do
  Out.assert (rows = 1)
  let (data, mem') ← Container.newVector cfg mem cols
  let m ← from_data cfg .fixed1 .dynamic data (.rowVector (RowVector.from_length cols))
  return (m, mem')

/-- `ColumnVectorD::zeros_from_length` (src/matrix/constructors.rs:109-114) -/
def ColumnVectorD.zeros_from_length [Target] [Zero α] (cfg : Cfg) (nelems : Nat) (mem : Mem α) :
    Out (BaseMatrix × Mem α) := do
  let (data, mem') ← Container.newVector cfg mem nelems
  let m ← from_data cfg .dynamic .fixed1 data (.columnVector (ColumnVector.from_length nelems))
  return (m, mem')

/-- `ColumnVectorD::zeros_from_dim` (src/matrix/constructors.rs:118-128) -/
def ColumnVectorD.zeros_from_dim [Target] [Zero α] (cfg : Cfg) (rows cols : Nat) (mem : Mem α) :
    Out (BaseMatrix × Mem α) := do
  Out.assert (cols = 1)
  let (data, mem') ← Container.newVector cfg mem rows
  let m ← from_data cfg .dynamic .fixed1 data (.columnVector (ColumnVector.from_length rows))
  return (m, mem')

/-- The size/layout combinations for which `from_zeros_fixed!` is instantiated
(src/matrix/constructors.rs:47-63) -/
def fixedMatrixTypes : List (SizeId × SizeId × BaseKind) :=
  [(.fixed2, .fixed2, .rowMajor), (.fixed1, .fixed2, .rowMajor),
   (.fixed3, .fixed3, .rowMajor), (.fixed1, .fixed3, .rowMajor),
   (.fixed2, .fixed3, .rowMajor), (.fixed3, .fixed2, .rowMajor),
   (.fixed2, .fixed2, .columnMajor), (.fixed1, .fixed2, .columnMajor),
   (.fixed3, .fixed3, .columnMajor), (.fixed1, .fixed3, .columnMajor),
   (.fixed2, .fixed3, .columnMajor), (.fixed3, .fixed2, .columnMajor)]

/-- Fixed-size `zeros_from_dim` (src/matrix/constructors.rs:24-29). The array length
`{ RS::N * CS::N }` is a compile-time constant. -/
def fixed_zeros_from_dim [Target] [Zero α] (cfg : Cfg) (rs cs : SizeId) (k : BaseKind) (mem : Mem α) :
    Out (BaseMatrix × Mem α) := do
  let (data, mem') := Container.newArray mem (rs.N * cs.N)
  let layout ← k.from_dimension (rs.N, cs.N)
  let m ← from_data cfg rs cs data layout
  return (m, mem')

/-- The instantiations of `from_zeros_fixed_vector!`
(src/matrix/constructors.rs:65-68): size types, layout kind, length -/
def fixedVectorTypes : List (SizeId × SizeId × BaseKind × Nat) :=
  [(.fixed2, .fixed1, .columnVector, 2), (.fixed3, .fixed1, .columnVector, 3),
   (.fixed1, .fixed2, .rowVector, 2), (.fixed1, .fixed3, .rowVector, 3)]

/-- `VectorBaseLayoutType::from_length` (src/layouts/row_vector.rs:76-78,
src/layouts/column_vector.rs:76-78), by the type it is called on; only the two vector
layouts implement it. -/
def BaseKind.from_length (k : BaseKind) (n : Nat) : Option Layout :=
  match k with
  | .rowVector => some (.rowVector (RowVector.from_length n))
  | .columnVector => some (.columnVector (ColumnVector.from_length n))
  | _ => none

/-- Fixed-size `zeros_from_length` (src/matrix/constructors.rs:40-42) -/
def fixed_zeros_from_length [Target] [Zero α] (cfg : Cfg) (rs cs : SizeId) (layout : Layout) (n : Nat)
    (mem : Mem α) : Out (BaseMatrix × Mem α) := do
  let (data, mem') := Container.newArray mem n
  let m ← from_data cfg rs cs data layout
  return (m, mem')

/-- `from_pointer` for the two arbitrary-stride layouts, mutable and not
(src/matrix/constructors.rs:135-146, 151-162) -/
def from_pointer_strided [Target] (cfg : Cfg) (ptr : Ptr) (dim : Nat × Nat) (new_layout : Layout) :
    Out BaseMatrix := do
  let r ← cfg.sub dim.1 1
  let c ← cfg.sub dim.2 1
  let k ← new_layout.convert_2d_raw cfg r c
  let nindices ← cfg.add k 1
  let data ← ptr.from_raw_parts nindices
  from_data cfg .dynamic .dynamic data new_layout

/-- `from_pointer` for row-major and column-major layouts, mutable and not
(src/matrix/constructors.rs:171-178, 183-190) -/
def from_pointer [Target] (cfg : Cfg) (ptr : Ptr) (dim : Nat × Nat) (new_layout : Layout) :
    Out BaseMatrix := do
  let nindices ← cfg.mul dim.1 dim.2
  let data ← ptr.from_raw_parts nindices
  from_data cfg .dynamic .dynamic data new_layout

namespace BaseMatrix

/-- The `$StrideLayout` of the block of a matrix with the given layout
(src/matrix/matrix_slices.rs:146-159); `none` where `block` does not exist. -/
def strideLayout (l : Layout) (dim stride : Nat × Nat) : Option Layout :=
  match l with
  | .rowMajor _ => some (.asRowMajor ⟨dim, stride⟩)
  | .columnMajor _ => some (.asColumnMajor ⟨dim, stride⟩)
  | .asRowMajor _ => some (.asRowMajor ⟨dim, stride⟩)
  | .asColumnMajor _ => some (.asColumnMajor ⟨dim, stride⟩)
  | _ => none

/-- `block` and `block_mut` (src/matrix/matrix_slices.rs:19-39, 48-69; the two differ in
mutability only). `none`-layouts do not have the method; the model panics for them.
Both comparisons are evaluated (`&`, not `&&`), so both additions are. -/
def block [Target] (cfg : Cfg) (m : BaseMatrix) (top_left dim : Nat × Nat) : Out BaseMatrix := do
  let a ← cfg.add top_left.1 dim.1
  let b ← cfg.add top_left.2 dim.2
  Out.assert (a ≤ m.layout.dim.1 ∧ b ≤ m.layout.dim.2)
  let start_index ← m.layout.convert_2d_raw cfg top_left.1 top_left.2
  let ptr ← m.get_pointer.add start_index
  let stride ← m.layout.stride
  match strideLayout m.layout dim stride with
  | some l => from_pointer_strided cfg ptr dim l
  | none => .panic

/-- `split_in_four_mut` (src/matrix/matrix_slices.rs:89-141), for row-major matrices
(src/matrix/matrix_slices.rs:161); the model panics for other layouts, which do not
have the method. -/
def split_in_four_mut [Target] (cfg : Cfg) (m : BaseMatrix) (split_at : Nat × Nat) :
    Out (BaseMatrix × BaseMatrix × BaseMatrix × BaseMatrix) := do
  match m.layout with
  | .rowMajor _ =>
    let dim := m.layout.dim
    let stride ← m.layout.stride
    let ptr := m.get_pointer
    let dim0 := split_at
    let d1 ← cfg.sub dim.2 split_at.2
    let dim1 := (split_at.1, d1)
    let d2 ← cfg.sub dim.1 split_at.1
    let dim2 := (d2, split_at.2)
    let d31 ← cfg.sub dim.1 split_at.1
    let d32 ← cfg.sub dim.2 split_at.2
    let dim3 := (d31, d32)
    let start0 ← m.layout.convert_2d_raw cfg 0 0
    let start1 ← m.layout.convert_2d_raw cfg 0 split_at.2
    let start2 ← m.layout.convert_2d_raw cfg split_at.1 0
    let start3 ← m.layout.convert_2d_raw cfg split_at.1 split_at.2
    let p0 ← ptr.offset (asIsize start0)
    let b0 ← from_pointer_strided cfg p0 dim0 (.asRowMajor ⟨dim0, stride⟩)
    let p1 ← ptr.offset (asIsize start1)
    let b1 ← from_pointer_strided cfg p1 dim1 (.asRowMajor ⟨dim1, stride⟩)
    let p2 ← ptr.offset (asIsize start2)
    let b2 ← from_pointer_strided cfg p2 dim2 (.asRowMajor ⟨dim2, stride⟩)
    let p3 ← ptr.offset (asIsize start3)
    let b3 ← from_pointer_strided cfg p3 dim3 (.asRowMajor ⟨dim3, stride⟩)
    return (b0, b1, b2, b3)
  | _ => .panic

end BaseMatrix

namespace Mat

/-- `eval` (src/matrix/common_impl.rs:79-89), which exists for size types
`(Dynamic, Dynamic)`; the result has the layout type `IndexLayout`. Rust evaluates the right
side of an assignment before the place on its left. -/
def eval [Target] [Zero α] [Add α] [Mul α] (cfg : Cfg) (m : Mat α) (mem : Mem α) :
    Out (BaseMatrix × Mem α) := do
  let dim := m.layout.dim
  let (result, mem0) ← zeros_from_dim cfg m.layout.indexKind dim.1 dim.2 mem
  let n ← m.layout.number_of_elements cfg
  let mem1 ← forRange n (fun index mem => do
    let v ← m.get1d_unchecked cfg mem index
    let p ← result.get1d_unchecked_mut cfg index
    mem.write p v) mem0
  return (result, mem1)

end Mat

/-! ## Random numbers -/

/-- A random number generator together with a distribution over the real type:
each `dist.sample(rng)` yields a number and advances the generator (src/tools.rs). -/
structure Sampler (ρ real : Type) where
  sample : ρ → real × ρ

/-- `RandScalar::random_scalar` for `f32`, `f64` (src/tools.rs:20-30) -/
def random_scalar_real {ρ α : Type} (d : Sampler ρ α) (rng : ρ) : α × ρ := d.sample rng

/-- `RandScalar::random_scalar` for `c32`, `c64` (src/tools.rs:32-48): Rust evaluates the
arguments of `c32::new` from left to right; `mk re im` is `c32::new`. -/
def random_scalar_complex {ρ real α : Type} (mk : real → real → α) (d : Sampler ρ real) (rng : ρ) :
    α × ρ :=
  let (re, rng1) := d.sample rng
  let (im, rng2) := d.sample rng1
  (mk re im, rng2)

namespace BaseMatrix

/-- `fill_from_rand_standard_normal` (src/matrix/random.rs:22-25); `draw` is
`random_scalar(rng, &dist)` of the scalar type. -/
def fill_from_rand [Target] {ρ : Type} (cfg : Cfg) (m : BaseMatrix) (draw : ρ → α × ρ) (rng : ρ)
    (mem : Mem α) : Out (ρ × Mem α) :=
  m.for_each cfg (fun rng _ => let r := draw rng; (r.2, r.1)) rng mem

end BaseMatrix

/-! ## Macros (src/macros.rs) -/

/-- The layout argument of `mat!` (src/macros.rs:5-27) -/
inductive MatLayoutArg where
  | RowMajor | ColumnMajor
  deriving DecidableEq, Repr

/-- `mat![T, dim, layout]` (src/macros.rs:9-26). `$dim` is an expression that the macro
expands twice, `$dim.0` and `$dim.1`; here the model takes its value (expressions with side
effects are in `Model/MacroArgs.lean`). -/
def mat_macro_layout [Target] [Zero α] (cfg : Cfg) (dim : Nat × Nat) (l : MatLayoutArg) (mem : Mem α) :
    Out (BaseMatrix × Mem α) :=
  match l with
  | .RowMajor => zeros_from_dim cfg .rowMajor dim.1 dim.2 mem
  | .ColumnMajor => zeros_from_dim cfg .columnMajor dim.1 dim.2 mem

/-- `mat![T, dim]` (src/macros.rs:6-8) -/
def mat_macro [Target] [Zero α] (cfg : Cfg) (dim : Nat × Nat) (mem : Mem α) : Out (BaseMatrix × Mem α) :=
  mat_macro_layout cfg dim .RowMajor mem

/-- `rand_mat![T, dim, layout]` (src/macros.rs:34-39), with the generator explicit -/
def rand_mat_macro_layout [Target] {ρ : Type} [Zero α] (cfg : Cfg) (dim : Nat × Nat) (l : MatLayoutArg)
    (draw : ρ → α × ρ) (rng : ρ) (mem : Mem α) : Out (BaseMatrix × ρ × Mem α) := do
  let (m, mem1) ← mat_macro_layout cfg dim l mem
  let (rng', mem2) ← m.fill_from_rand cfg draw rng mem1
  return (m, rng', mem2)

/-- `rand_mat![T, dim]` (src/macros.rs:31-33) -/
def rand_mat_macro [Target] {ρ : Type} [Zero α] (cfg : Cfg) (dim : Nat × Nat)
    (draw : ρ → α × ρ) (rng : ρ) (mem : Mem α) : Out (BaseMatrix × ρ × Mem α) :=
  rand_mat_macro_layout cfg dim .RowMajor draw rng mem

/-- The orientation argument of `vector!` (src/macros.rs:43-53) -/
inductive VecLayoutArg where
  | ColumnVector | RowVector
  deriving DecidableEq, Repr

/-- `vector![T, len, orientation]` (src/macros.rs:47-52) -/
def vector_macro_layout [Target] [Zero α] (cfg : Cfg) (len : Nat) (l : VecLayoutArg) (mem : Mem α) :
    Out (BaseMatrix × Mem α) :=
  match l with
  | .ColumnVector => ColumnVectorD.zeros_from_length cfg len mem
  | .RowVector => RowVectorD.zeros_from_length cfg len mem

/-- `vector![T, len]` (src/macros.rs:44-46) -/
def vector_macro [Target] [Zero α] (cfg : Cfg) (len : Nat) (mem : Mem α) : Out (BaseMatrix × Mem α) :=
  vector_macro_layout cfg len .ColumnVector mem

/-- `rand_vector![T, len, orientation]` (src/macros.rs:60-65) -/
def rand_vector_macro_layout [Target] {ρ : Type} [Zero α] (cfg : Cfg) (len : Nat) (l : VecLayoutArg)
    (draw : ρ → α × ρ) (rng : ρ) (mem : Mem α) : Out (BaseMatrix × ρ × Mem α) := do
  let (m, mem1) ← vector_macro_layout cfg len l mem
  let (rng', mem2) ← m.fill_from_rand cfg draw rng mem1
  return (m, rng', mem2)

/-- `rand_vector![T, len]` (src/macros.rs:57-59) -/
def rand_vector_macro [Target] {ρ : Type} [Zero α] (cfg : Cfg) (len : Nat)
    (draw : ρ → α × ρ) (rng : ρ) (mem : Mem α) : Out (BaseMatrix × ρ × Mem α) :=
  rand_vector_macro_layout cfg len .ColumnVector draw rng mem

end Householder
