import Verif.Model.Layouts
import Verif.Model.Memory

/-!
# Base matrices, expressions, element access

src/base_matrix.rs, src/matrix.rs, src/matrix_ref.rs, src/addition.rs,
src/scalar_mult.rs, src/traits/random_access.rs, src/traits/size.rs,
src/matrix/common_impl.rs, src/matrix/base_methods.rs.
-/

namespace Householder

variable {α : Type}

/-- The types implementing `SizeIdentifier` (src/traits/size.rs:19-29). -/
inductive SizeId where
  | fixed1 | fixed2 | fixed3 | dynamic
  deriving DecidableEq, Repr

/-- `SizeIdentifier::N` (src/traits/size.rs:39-51). -/
def SizeId.N : SizeId → Nat
  | fixed1 => 1
  | fixed2 => 2
  | fixed3 => 3
  | dynamic => 0

/-- src/base_matrix.rs:17-28. The phantom size types `RS`, `CS` are kept as data. -/
structure BaseMatrix where
  data : Container
  layout : Layout
  rs : SizeId
  cs : SizeId
  deriving DecidableEq, Repr

namespace BaseMatrix

/-- src/base_matrix.rs:38-51 -/
def new [Target] (cfg : Cfg) (rs cs : SizeId) (data : Container) (layout : Layout) : Out BaseMatrix := do
  let n ← layout.number_of_elements cfg
  Out.assert (n ≤ data.number_of_elements)
  return ⟨data, layout, rs, cs⟩

/-- src/base_matrix.rs:62-65 and 81-84; src/matrix/base_methods.rs:39-42, 67-70 -/
def get_pointer (m : BaseMatrix) : Ptr := m.data.get_pointer

/-- src/base_matrix.rs:67-70; src/matrix/base_methods.rs:52-55 -/
def get_slice (m : BaseMatrix) (first last : Nat) : Out Container := m.data.get_slice first last

/-- src/base_matrix.rs:86-89; src/matrix/base_methods.rs:80-83 -/
def get_slice_mut (m : BaseMatrix) (first last : Nat) : Out Container :=
  m.data.get_slice_mut first last

/-- src/base_matrix.rs:130-134 -/
def get_unchecked [Target] (cfg : Cfg) (m : BaseMatrix) (mem : Mem α) (row col : Nat) : Out α := do
  let k ← m.layout.convert_2d_raw cfg row col
  m.data.get_unchecked mem k

/-- src/base_matrix.rs:136-139 -/
def get1d_unchecked [Target] (cfg : Cfg) (m : BaseMatrix) (mem : Mem α) (index : Nat) : Out α := do
  let k ← m.layout.convert_1d_raw cfg index
  m.data.get_unchecked mem k

/-- src/base_matrix.rs:170-174: the place the returned reference points to -/
def get_unchecked_mut [Target] (cfg : Cfg) (m : BaseMatrix) (row col : Nat) : Out Loc := do
  let k ← m.layout.convert_2d_raw cfg row col
  m.data.get_unchecked_mut k

/-- src/base_matrix.rs:176-180: the place the returned reference points to -/
def get1d_unchecked_mut [Target] (cfg : Cfg) (m : BaseMatrix) (index : Nat) : Out Loc := do
  let k ← m.layout.convert_1d_raw cfg index
  m.data.get_unchecked_mut k

/-- `BaseMatrix::length` for `RowVector` layouts (src/base_matrix.rs:142-158) -/
def length (m : BaseMatrix) : Nat := m.data.number_of_elements

end BaseMatrix

/-- src/traits/random_access.rs:72-87 -/
def assert_dimension (row col : Nat) (dim : Nat × Nat) : Out Unit := do
  Out.assert (row < dim.1)
  Out.assert (col < dim.2)

/-- src/traits/random_access.rs:91-98 -/
def assert_dimension1d (elem nelems : Nat) : Out Unit := Out.assert (elem < nelems)

namespace BaseMatrix

/-- `RandomAccess::get` (src/traits/random_access.rs:101-104) on a base matrix -/
def get [Target] (cfg : Cfg) (m : BaseMatrix) (mem : Mem α) (row col : Nat) : Out α := do
  assert_dimension row col m.layout.dim
  m.get_unchecked cfg mem row col

/-- `RandomAccess::get1d` (src/traits/random_access.rs:106-109) on a base matrix -/
def get1d [Target] (cfg : Cfg) (m : BaseMatrix) (mem : Mem α) (elem : Nat) : Out α := do
  let n ← m.layout.number_of_elements cfg
  assert_dimension1d elem n
  m.get1d_unchecked cfg mem elem

/-- `RandomAccessMut::get_mut` (src/traits/random_access.rs:113-116) -/
def get_mut [Target] (cfg : Cfg) (m : BaseMatrix) (row col : Nat) : Out Loc := do
  assert_dimension row col m.layout.dim
  m.get_unchecked_mut cfg row col

/-- `RandomAccessMut::get1d_mut` (src/traits/random_access.rs:118-121) -/
def get1d_mut [Target] (cfg : Cfg) (m : BaseMatrix) (elem : Nat) : Out Loc := do
  let n ← m.layout.number_of_elements cfg
  assert_dimension1d elem n
  m.get1d_unchecked_mut cfg elem

/-- The statement `*m.get_mut(row, col) = v` (src/examples.rs:50) -/
def set [Target] (cfg : Cfg) (m : BaseMatrix) (mem : Mem α) (row col : Nat) (v : α) : Out (Mem α) := do
  let p ← m.get_mut cfg row col
  mem.write p v

/-- The statement `*m.get1d_mut(elem) = v` (src/matrix_multiply.rs:418) -/
def set1d [Target] (cfg : Cfg) (m : BaseMatrix) (mem : Mem α) (elem : Nat) (v : α) : Out (Mem α) := do
  let p ← m.get1d_mut cfg elem
  mem.write p v

/-- `for_each` (src/matrix/base_methods.rs:23-27). The callable is `FnMut(&mut Item)`:
a function of its captured state `σ` and the element, returning both. -/
def for_each [Target] {σ : Type} (cfg : Cfg) (m : BaseMatrix) (f : σ → α → σ × α) (s : σ) (mem : Mem α) :
    Out (σ × Mem α) := do
  let n ← m.layout.number_of_elements cfg
  forRange n (fun index st => do
    let p ← m.get1d_unchecked_mut cfg index
    let v ← st.2.read p
    let r := f st.1 v
    let mem' ← st.2.write p r.2
    return (r.1, mem')) (s, mem)

end BaseMatrix

/-- A value of type `Matrix<Item, MatImpl, ..>` (src/matrix.rs:103-115), by its
implementation `MatImpl`: a base matrix, a `MatrixRef`/`MatrixRefMut`
(src/matrix_ref.rs:24-36, 52-64), an `Addition` holding its two operands and its
index layout (src/addition.rs:18-37), or a `ScalarMult` (src/scalar_mult.rs:22-35).
`Matrix` itself only forwards (src/matrix/common_impl.rs:7-73) and adds no node. -/
inductive Mat (α : Type) where
  | base (b : BaseMatrix)
  | ref (m : Mat α)
  | addition (m1 m2 : Mat α) (layout : Layout)
  | scalarMult (m : Mat α) (scalar : α)
  deriving Repr

namespace Mat

/-- `Layout::layout`: src/base_matrix.rs:103-105, src/matrix_ref.rs:93-96,
src/addition.rs:90-92, src/scalar_mult.rs:79-82, src/matrix/common_impl.rs:16-18 -/
def layout : Mat α → Layout
  | base b => b.layout
  | ref m => m.layout
  | addition _ _ l => l
  | scalarMult m _ => m.layout

/-- `SizeType::R`, `SizeType::C`: src/base_matrix.rs:116-117, src/matrix_ref.rs:108-109,
src/addition.rs:106-107, src/scalar_mult.rs:65-66 (an `Addition`'s operands have the
same size types, src/addition.rs:19-20) -/
def sizes : Mat α → SizeId × SizeId
  | base b => (b.rs, b.cs)
  | ref m => m.sizes
  | addition m1 _ _ => m1.sizes
  | scalarMult m _ => m.sizes

/-- `UnsafeRandomAccess::get_unchecked`: src/base_matrix.rs:130-134,
src/matrix_ref.rs:123-126, src/addition.rs:123-130, src/scalar_mult.rs:95-98 -/
def get_unchecked [Target] [Add α] [Mul α] (cfg : Cfg) (mem : Mem α) (row col : Nat) : Mat α → Out α
  | base b => b.get_unchecked cfg mem row col
  | ref m => m.get_unchecked cfg mem row col
  | addition m1 m2 _ => do
      let a ← m1.get_unchecked cfg mem row col
      let b ← m2.get_unchecked cfg mem row col
      return a + b
  | scalarMult m s => do
      let a ← m.get_unchecked cfg mem row col
      return s * a

/-- `UnsafeRandomAccess::get1d_unchecked`: src/base_matrix.rs:136-139,
src/matrix_ref.rs:128-131, src/addition.rs:132-135, src/scalar_mult.rs:100-103 -/
def get1d_unchecked [Target] [Add α] [Mul α] (cfg : Cfg) (mem : Mem α) (index : Nat) : Mat α → Out α
  | base b => b.get1d_unchecked cfg mem index
  | ref m => m.get1d_unchecked cfg mem index
  | addition m1 m2 _ => do
      let a ← m1.get1d_unchecked cfg mem index
      let b ← m2.get1d_unchecked cfg mem index
      return a + b
  | scalarMult m s => do
      let a ← m.get1d_unchecked cfg mem index
      return s * a

/-- `RandomAccess::get` (src/traits/random_access.rs:101-104) -/
def get [Target] [Add α] [Mul α] (cfg : Cfg) (m : Mat α) (mem : Mem α) (row col : Nat) : Out α := do
  assert_dimension row col m.layout.dim
  m.get_unchecked cfg mem row col

/-- `RandomAccess::get1d` (src/traits/random_access.rs:106-109) -/
def get1d [Target] [Add α] [Mul α] (cfg : Cfg) (m : Mat α) (mem : Mem α) (elem : Nat) : Out α := do
  let n ← m.layout.number_of_elements cfg
  assert_dimension1d elem n
  m.get1d_unchecked cfg mem elem

/-- `Matrix::dim` (src/matrix/common_impl.rs:101-103) -/
def dim (m : Mat α) : Nat × Nat := m.layout.dim

/-- `Matrix::length` (src/matrix/common_impl.rs:106-122): exists for the size types
`(Fixed1, Dynamic)` and `(Dynamic, Fixed1)` only. -/
def length (m : Mat α) : Option Nat :=
  match m.sizes with
  | (.fixed1, .dynamic) => some m.layout.dim.2
  | (.dynamic, .fixed1) => some m.layout.dim.1
  | _ => none

/-- `Matrix::from_ref` / `MatrixRef::new` (src/matrix.rs:129-133, src/matrix_ref.rs:47-49) -/
def from_ref (m : Mat α) : Mat α := .ref m

/-- `Addition::new` (src/addition.rs:50-74) -/
def addition_new (m1 m2 : Mat α) : Out (Mat α) := do
  Out.assert (m1.layout.dim = m2.layout.dim)
  return .addition m1 m2 m1.layout.index_layout

/-- `a + b` (src/addition.rs:151-153) -/
def add_vv (a b : Mat α) : Out (Mat α) := addition_new a b

/-- `a + &b` (src/addition.rs:171-173) -/
def add_vr (a b : Mat α) : Out (Mat α) := addition_new a (from_ref b)

/-- `&a + b` (src/addition.rs:191-193) -/
def add_rv (a b : Mat α) : Out (Mat α) := addition_new (from_ref a) b

/-- `&a + &b` (src/addition.rs:220-222) -/
def add_rr (a b : Mat α) : Out (Mat α) := addition_new (from_ref a) (from_ref b)

/-- `ScalarMult::new` (src/scalar_mult.rs:45-54) -/
def scalar_mult_new (m : Mat α) (scalar : α) : Mat α := .scalarMult m scalar

/-- `s * a` (src/scalar_mult.rs:117-119) -/
def mul_sv (s : α) (a : Mat α) : Mat α := scalar_mult_new a s

/-- `s * &a` (src/scalar_mult.rs:133-135) -/
def mul_sr (s : α) (a : Mat α) : Mat α := scalar_mult_new (from_ref a) s

/-- `a * s` (src/scalar_mult.rs:147-149) -/
def mul_vs (a : Mat α) (s : α) : Mat α := scalar_mult_new a s

/-- `&a * s` (src/scalar_mult.rs:163-165) -/
def mul_rs (a : Mat α) (s : α) : Mat α := scalar_mult_new (from_ref a) s

end Mat

end Householder
