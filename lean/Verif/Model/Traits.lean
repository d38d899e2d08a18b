import Verif.Model.Constructors

/-!
# The open traits

The traits `LayoutType`, `BaseLayoutType`, `DataContainer`, `DataContainerMut`,
`UnsafeRandomAccess` and `Layout` are public and not `unsafe`: a program may implement them for
its own types. Here the generic code of the crate is modelled for arbitrary implementations,
given by their functions. (Simplification: the functions are pure. An implementation with
interior mutability may answer differently every time it is asked.)
-/

namespace Householder

/-- Implementations of `LayoutType` (src/traits/layout.rs:105-134) with values in `V`, together
with `from_dimension` of their index layouts (`BaseLayoutType`, src/traits/layout.rs:84-87).
`V` collects the layouts of all types; the type of a value is part of the value, so
`from_dimension l` is `<L as LayoutType>::IndexLayout::from_dimension` for the type `L` of `l`. -/
structure LayoutImpl (V : Type) where
  stride : V → Out (Nat × Nat)
  dim : V → Out (Nat × Nat)
  number_of_elements : V → Out Nat
  convert_1d_2d : V → Nat → Out (Nat × Nat)
  convert_2d_1d : V → Nat → Nat → Out Nat
  convert_1d_raw : V → Nat → Out Nat
  convert_2d_raw : V → Nat → Nat → Out Nat
  index_layout : V → Out V
  from_dimension : V → Nat × Nat → Out V

/-- Implementations of `DataContainer` and `DataContainerMut` (src/data_container.rs:13-77):
the functions without a provided body. -/
structure DataImpl (α D : Type) where
  get_unchecked : D → Mem α → Nat → Out α
  get_unchecked_mut : D → Nat → Out Loc
  get_pointer : D → Out Ptr
  get_pointer_mut : D → Out Ptr
  number_of_elements : D → Out Nat

/-- Implementations of `UnsafeRandomAccess` (src/traits/random_access.rs:28-36) and `Layout`
(src/traits/layout.rs:138-143): matrices that the program defines itself. -/
structure MatrixImpl (α V X : Type) where
  layout : X → V
  get_unchecked : X → Mem α → Nat → Nat → Out α
  get1d_unchecked : X → Mem α → Nat → Out α

/-- All implementations a program brings. -/
structure Impls (α V D X : Type) where
  lay : LayoutImpl V
  dat : DataImpl α D
  mat : MatrixImpl α V X

namespace DataImpl

variable {α D : Type}

/-- The provided `DataContainer::get_slice` (src/data_container.rs:23-39). -/
def get_slice (I : DataImpl α D) (d : D) (first last : Nat) : Out Container := do
  Out.assert (first < last)
  let n ← I.number_of_elements d
  Out.assert (last ≤ n)
  let p ← I.get_pointer d
  let q ← p.add first
  q.from_raw_parts (last - first)

/-- The provided `DataContainerMut::get_slice_mut` (src/data_container.rs:53-76). -/
def get_slice_mut (I : DataImpl α D) (d : D) (first last : Nat) : Out Container := do
  Out.assert (first < last)
  let n ← I.number_of_elements d
  Out.assert (first < n)
  Out.assert (last ≤ n)
  let p ← I.get_pointer_mut d
  let q ← p.add first
  q.from_raw_parts (last - first)

end DataImpl

/-- `BaseMatrix<Item, Data, L, RS, CS>` (src/base_matrix.rs:17-28) for any container and layout;
the phantom size types are left out. -/
structure AnyBase (V D : Type) where
  data : D
  layout : V

namespace AnyBase

variable {α V D X : Type}

/-- `BaseMatrix::new` (src/base_matrix.rs:38-51); `Matrix::from_data` (src/matrix.rs:144-146) -/
def new (I : Impls α V D X) (data : D) (layout : V) : Out (AnyBase V D) := do
  let n ← I.lay.number_of_elements layout
  let k ← I.dat.number_of_elements data
  Out.assert (n ≤ k)
  return ⟨data, layout⟩

/-- src/base_matrix.rs:130-134 -/
def get_unchecked (I : Impls α V D X) (m : AnyBase V D) (mem : Mem α) (row col : Nat) : Out α := do
  let k ← I.lay.convert_2d_raw m.layout row col
  I.dat.get_unchecked m.data mem k

/-- src/base_matrix.rs:136-139 -/
def get1d_unchecked (I : Impls α V D X) (m : AnyBase V D) (mem : Mem α) (index : Nat) : Out α := do
  let k ← I.lay.convert_1d_raw m.layout index
  I.dat.get_unchecked m.data mem k

/-- src/base_matrix.rs:170-174 -/
def get_unchecked_mut (I : Impls α V D X) (m : AnyBase V D) (row col : Nat) : Out Loc := do
  let k ← I.lay.convert_2d_raw m.layout row col
  I.dat.get_unchecked_mut m.data k

/-- src/base_matrix.rs:176-180 -/
def get1d_unchecked_mut (I : Impls α V D X) (m : AnyBase V D) (index : Nat) : Out Loc := do
  let k ← I.lay.convert_1d_raw m.layout index
  I.dat.get_unchecked_mut m.data k

/-- `RandomAccessMut::get_mut` (src/traits/random_access.rs:113-116) -/
def get_mut (I : Impls α V D X) (m : AnyBase V D) (row col : Nat) : Out Loc := do
  let d ← I.lay.dim m.layout
  assert_dimension row col d
  m.get_unchecked_mut I row col

/-- `RandomAccessMut::get1d_mut` (src/traits/random_access.rs:118-121) -/
def get1d_mut (I : Impls α V D X) (m : AnyBase V D) (elem : Nat) : Out Loc := do
  let n ← I.lay.number_of_elements m.layout
  assert_dimension1d elem n
  m.get1d_unchecked_mut I elem

/-- `for_each` (src/matrix/base_methods.rs:23-27) -/
def for_each {σ : Type} (I : Impls α V D X) (m : AnyBase V D) (f : σ → α → σ × α) (s : σ)
    (mem : Mem α) : Out (σ × Mem α) := do
  let n ← I.lay.number_of_elements m.layout
  forRange n (fun index st => do
    let p ← m.get1d_unchecked_mut I index
    let v ← st.2.read p
    let r := f st.1 v
    let mem' ← st.2.write p r.2
    return (r.1, mem')) (s, mem)

end AnyBase

/-- A value of type `Matrix<Item, MatImpl, ..>` (src/matrix.rs:103-115) where the implementation
may be a type of the program (`user`); otherwise as `Mat`. -/
inductive AnyMat (α V D X : Type) where
  | base (b : AnyBase V D)
  | user (x : X)
  | ref (m : AnyMat α V D X)
  | addition (m1 m2 : AnyMat α V D X) (layout : V)
  | scalarMult (m : AnyMat α V D X) (scalar : α)

namespace AnyMat

variable {α V D X : Type}

/-- `Layout::layout`: src/base_matrix.rs:102-105, src/matrix_ref.rs:93-96,
src/addition.rs:90-92, src/scalar_mult.rs:79-82, src/matrix/common_impl.rs:16-18 -/
def layout (I : Impls α V D X) : AnyMat α V D X → V
  | base b => b.layout
  | user x => I.mat.layout x
  | ref m => m.layout I
  | addition _ _ l => l
  | scalarMult m _ => m.layout I

/-- `UnsafeRandomAccess::get_unchecked`: src/base_matrix.rs:130-134,
src/matrix_ref.rs:123-126, src/addition.rs:123-130, src/scalar_mult.rs:95-98 -/
def get_unchecked [Add α] [Mul α] (I : Impls α V D X) (mem : Mem α) (row col : Nat) :
    AnyMat α V D X → Out α
  | base b => b.get_unchecked I mem row col
  | user x => I.mat.get_unchecked x mem row col
  | ref m => m.get_unchecked I mem row col
  | addition m1 m2 _ => do
      let a ← m1.get_unchecked I mem row col
      let b ← m2.get_unchecked I mem row col
      return a + b
  | scalarMult m s => do
      let a ← m.get_unchecked I mem row col
      return s * a

/-- `UnsafeRandomAccess::get1d_unchecked`: src/base_matrix.rs:136-139,
src/matrix_ref.rs:128-131, src/addition.rs:132-135, src/scalar_mult.rs:100-103 -/
def get1d_unchecked [Add α] [Mul α] (I : Impls α V D X) (mem : Mem α) (index : Nat) :
    AnyMat α V D X → Out α
  | base b => b.get1d_unchecked I mem index
  | user x => I.mat.get1d_unchecked x mem index
  | ref m => m.get1d_unchecked I mem index
  | addition m1 m2 _ => do
      let a ← m1.get1d_unchecked I mem index
      let b ← m2.get1d_unchecked I mem index
      return a + b
  | scalarMult m s => do
      let a ← m.get1d_unchecked I mem index
      return s * a

/-- `RandomAccess::get` (src/traits/random_access.rs:101-104) -/
def get [Add α] [Mul α] (I : Impls α V D X) (m : AnyMat α V D X) (mem : Mem α) (row col : Nat) :
    Out α := do
  let d ← I.lay.dim (m.layout I)
  assert_dimension row col d
  m.get_unchecked I mem row col

/-- `RandomAccess::get1d` (src/traits/random_access.rs:106-109) -/
def get1d [Add α] [Mul α] (I : Impls α V D X) (m : AnyMat α V D X) (mem : Mem α) (elem : Nat) :
    Out α := do
  let n ← I.lay.number_of_elements (m.layout I)
  assert_dimension1d elem n
  m.get1d_unchecked I mem elem

/-- `Addition::new` (src/addition.rs:50-74) -/
def addition_new (I : Impls α V D X) (m1 m2 : AnyMat α V D X) : Out (AnyMat α V D X) := do
  let d1 ← I.lay.dim (m1.layout I)
  let d2 ← I.lay.dim (m2.layout I)
  Out.assert (d1 = d2)
  let l ← I.lay.index_layout (m1.layout I)
  return .addition m1 m2 l

/-- `eval` (src/matrix/common_impl.rs:79-89), with `zeros_from_dim`
(src/matrix/constructors.rs:74-80) written out: the result is a base matrix over a
`VectorContainer` with a layout of the index layout's type. -/
def eval [Target] [Zero α] [Add α] [Mul α] (I : Impls α V D X) (cfg : Cfg) (m : AnyMat α V D X)
    (mem : Mem α) : Out (AnyBase V Container × Mem α) := do
  let dim ← I.lay.dim (m.layout I)
  let l ← I.lay.from_dimension (m.layout I) dim
  let n ← I.lay.number_of_elements l
  let (data, mem0) ← Container.newVector cfg mem n
  let l' ← I.lay.from_dimension (m.layout I) dim
  let n' ← I.lay.number_of_elements l'
  Out.assert (n' ≤ data.number_of_elements)
  let k ← I.lay.number_of_elements (m.layout I)
  let mem1 ← forRange k (fun index mem => do
    let v ← m.get1d_unchecked I mem index
    let j ← I.lay.convert_1d_raw l' index
    let p ← data.get_unchecked_mut j
    mem.write p v) mem0
  return (⟨data, l'⟩, mem1)

end AnyMat

/-! ## The implementations of the crate -/

/-- The nine layouts (src/layouts/*.rs). -/
def crateLayouts [Target] (cfg : Cfg) : LayoutImpl Layout where
  stride l := l.stride
  dim l := .ok l.dim
  number_of_elements l := l.number_of_elements cfg
  convert_1d_2d l := l.convert_1d_2d cfg
  convert_2d_1d l := l.convert_2d_1d cfg
  convert_1d_raw l := l.convert_1d_raw cfg
  convert_2d_raw l := l.convert_2d_raw cfg
  index_layout l := .ok l.index_layout
  from_dimension l := l.indexKind.from_dimension

/-- The containers (src/data_container.rs:137-229). -/
def crateContainers (α : Type) : DataImpl α Container where
  get_unchecked d := d.get_unchecked
  get_unchecked_mut d := d.get_unchecked_mut
  get_pointer d := .ok d.get_pointer
  get_pointer_mut d := .ok d.get_pointer
  number_of_elements d := .ok d.number_of_elements

/-- The crate alone, without matrices of the program's own. -/
def crateImpls [Target] (cfg : Cfg) (α : Type) : Impls α Layout Container Empty where
  lay := crateLayouts cfg
  dat := crateContainers α
  mat := ⟨nofun, nofun, nofun⟩

/-- A matrix of the crate as a matrix over the implementations of the crate. -/
def Mat.toAny {α : Type} : Mat α → AnyMat α Layout Container Empty
  | .base b => .base ⟨b.data, b.layout⟩
  | .ref m => .ref m.toAny
  | .addition a b l => .addition a.toAny b.toAny l
  | .scalarMult m s => .scalarMult m.toAny s

end Householder
