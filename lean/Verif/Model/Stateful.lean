import Verif.Model.TraitsMul

/-!
# Implementations of the open traits that change

The functions of the public traits take `&self`, but a type of the program may keep a `Cell`, a
counter or a lock and answer differently every time it is asked. Here the generic code of the crate
is modelled once more, for implementations that read and change a state. The number and the order
of the calls are those of the source. (Simplification: the state is the implementations' own; a
shared call does not change the elements of a container behind the model's back.)
-/

namespace Householder

/-- A call of a function that may read and change the state of the program's implementations. -/
abbrev Act (S β : Type) := StateT S Out β

/-- Code that does not touch that state. -/
def act {S β : Type} (x : Out β) : Act S β := fun s => x >>= fun b => .ok (b, s)

/-- `assert!(p, "…", …)` whose message asks for something: if the assertion fails, the calls in the
message are made before the panic, and what they do wrong comes first. -/
def assertOr {S : Type} (p : Prop) [Decidable p] (message : Act S Unit) : Act S Unit :=
  if p then pure () else do
    message
    act .panic

/-- `for index in 0..n { body }`, as `forRange`. -/
def forAct {S σ : Type} (n : Nat) (body : Nat → σ → Act S σ) (x : σ) : Act S σ :=
  (List.range n).foldlM (fun x i => body i x) x

/-- Implementations of `LayoutType` and `BaseLayoutType` (src/traits/layout.rs:84-87, 105-134), as
`LayoutImpl`. -/
structure LayoutActs (S V : Type) where
  stride : V → Act S (Nat × Nat)
  dim : V → Act S (Nat × Nat)
  number_of_elements : V → Act S Nat
  convert_1d_2d : V → Nat → Act S (Nat × Nat)
  convert_2d_1d : V → Nat → Nat → Act S Nat
  convert_1d_raw : V → Nat → Act S Nat
  convert_2d_raw : V → Nat → Nat → Act S Nat
  index_layout : V → Act S V
  from_dimension : V → Nat × Nat → Act S V

/-- Implementations of `DataContainer` and `DataContainerMut` (src/data_container.rs:13-77), as
`DataImpl`. -/
structure DataActs (S α D : Type) where
  get_unchecked : D → Mem α → Nat → Act S α
  get_unchecked_mut : D → Nat → Act S Loc
  get_pointer : D → Act S Ptr
  get_pointer_mut : D → Act S Ptr
  number_of_elements : D → Act S Nat

/-- Implementations of `UnsafeRandomAccess` and `Layout` (src/traits/random_access.rs:28-36,
src/traits/layout.rs:138-143), as `MatrixImpl`. -/
structure MatrixActs (S α V X : Type) where
  layout : X → Act S V
  get_unchecked : X → Mem α → Nat → Nat → Act S α
  get1d_unchecked : X → Mem α → Nat → Act S α

/-- All implementations a program brings. -/
structure Acts (S α V D X : Type) where
  lay : LayoutActs S V
  dat : DataActs S α D
  mat : MatrixActs S α V X

namespace DataActs

variable {S α D : Type}

/-- The provided `DataContainer::get_slice` (src/data_container.rs:23-39): the number of elements is
asked for again by the message. -/
def get_slice (A : DataActs S α D) (d : D) (first last : Nat) : Act S Container := do
  act (Out.assert (first < last))
  let n ← A.number_of_elements d
  assertOr (last ≤ n) do
    let _ ← A.number_of_elements d
  let p ← A.get_pointer d
  let q ← act (p.add first)
  act (q.from_raw_parts (last - first))

/-- The provided `DataContainerMut::get_slice_mut` (src/data_container.rs:53-76): the number of
elements is asked for twice, and again by the messages. -/
def get_slice_mut (A : DataActs S α D) (d : D) (first last : Nat) : Act S Container := do
  act (Out.assert (first < last))
  let n ← A.number_of_elements d
  assertOr (first < n) do
    let _ ← A.number_of_elements d
  let n' ← A.number_of_elements d
  assertOr (last ≤ n') do
    let _ ← A.number_of_elements d
  let p ← A.get_pointer_mut d
  let q ← act (p.add first)
  act (q.from_raw_parts (last - first))

end DataActs

namespace Acts

variable {S α V D X : Type}

/-- `BaseMatrix::new` (src/base_matrix.rs:38-51): the message asks for both numbers again, the other
way round. -/
def new (A : Acts S α V D X) (data : D) (layout : V) : Act S (AnyBase V D) := do
  let n ← A.lay.number_of_elements layout
  let k ← A.dat.number_of_elements data
  assertOr (n ≤ k) do
    let _ ← A.dat.number_of_elements data
    let _ ← A.lay.number_of_elements layout
  return ⟨data, layout⟩

/-- src/base_matrix.rs:130-134 -/
def base_get_unchecked (A : Acts S α V D X) (m : AnyBase V D) (mem : Mem α) (row col : Nat) :
    Act S α := do
  let k ← A.lay.convert_2d_raw m.layout row col
  A.dat.get_unchecked m.data mem k

/-- src/base_matrix.rs:136-139 -/
def base_get1d_unchecked (A : Acts S α V D X) (m : AnyBase V D) (mem : Mem α) (index : Nat) :
    Act S α := do
  let k ← A.lay.convert_1d_raw m.layout index
  A.dat.get_unchecked m.data mem k

/-- src/base_matrix.rs:170-174 -/
def get_unchecked_mut (A : Acts S α V D X) (m : AnyBase V D) (row col : Nat) : Act S Loc := do
  let k ← A.lay.convert_2d_raw m.layout row col
  A.dat.get_unchecked_mut m.data k

/-- src/base_matrix.rs:176-180 -/
def get1d_unchecked_mut (A : Acts S α V D X) (m : AnyBase V D) (index : Nat) : Act S Loc := do
  let k ← A.lay.convert_1d_raw m.layout index
  A.dat.get_unchecked_mut m.data k

/-- `RandomAccessMut::get_mut` (src/traits/random_access.rs:113-116) -/
def get_mut (A : Acts S α V D X) (m : AnyBase V D) (row col : Nat) : Act S Loc := do
  let d ← A.lay.dim m.layout
  act (assert_dimension row col d)
  A.get_unchecked_mut m row col

/-- `RandomAccessMut::get1d_mut` (src/traits/random_access.rs:118-121) -/
def get1d_mut (A : Acts S α V D X) (m : AnyBase V D) (elem : Nat) : Act S Loc := do
  let n ← A.lay.number_of_elements m.layout
  act (assert_dimension1d elem n)
  A.get1d_unchecked_mut m elem

/-- `for_each` (src/matrix/base_methods.rs:23-27): the number of elements is asked for once. -/
def for_each {σ : Type} (A : Acts S α V D X) (m : AnyBase V D) (f : σ → α → σ × α) (x : σ)
    (mem : Mem α) : Act S (σ × Mem α) := do
  let n ← A.lay.number_of_elements m.layout
  forAct n (fun index st => do
    let p ← A.get1d_unchecked_mut m index
    let v ← act (st.2.read p)
    let r := f st.1 v
    let mem' ← act (st.2.write p r.2)
    return (r.1, mem')) (x, mem)

/-- `Layout::layout`: src/base_matrix.rs:102-105, src/matrix_ref.rs:93-96,
src/addition.rs:90-92, src/scalar_mult.rs:79-82, src/matrix/common_impl.rs:16-18 -/
def layout (A : Acts S α V D X) : AnyMat α V D X → Act S V
  | .base b => return b.layout
  | .user x => A.mat.layout x
  | .ref m => A.layout m
  | .addition _ _ l => return l
  | .scalarMult m _ => A.layout m

/-- `UnsafeRandomAccess::get_unchecked`: src/base_matrix.rs:130-134,
src/matrix_ref.rs:123-126, src/addition.rs:123-130, src/scalar_mult.rs:95-98 -/
def get_unchecked [Add α] [Mul α] (A : Acts S α V D X) (mem : Mem α) (row col : Nat) :
    AnyMat α V D X → Act S α
  | .base b => A.base_get_unchecked b mem row col
  | .user x => A.mat.get_unchecked x mem row col
  | .ref m => A.get_unchecked mem row col m
  | .addition m1 m2 _ => do
      let a ← A.get_unchecked mem row col m1
      let b ← A.get_unchecked mem row col m2
      return a + b
  | .scalarMult m s => do
      let a ← A.get_unchecked mem row col m
      return s * a

/-- `UnsafeRandomAccess::get1d_unchecked`: src/base_matrix.rs:136-139,
src/matrix_ref.rs:128-131, src/addition.rs:132-135, src/scalar_mult.rs:100-103 -/
def get1d_unchecked [Add α] [Mul α] (A : Acts S α V D X) (mem : Mem α) (index : Nat) :
    AnyMat α V D X → Act S α
  | .base b => A.base_get1d_unchecked b mem index
  | .user x => A.mat.get1d_unchecked x mem index
  | .ref m => A.get1d_unchecked mem index m
  | .addition m1 m2 _ => do
      let a ← A.get1d_unchecked mem index m1
      let b ← A.get1d_unchecked mem index m2
      return a + b
  | .scalarMult m s => do
      let a ← A.get1d_unchecked mem index m
      return s * a

/-- `RandomAccess::get` (src/traits/random_access.rs:101-104) -/
def get [Add α] [Mul α] (A : Acts S α V D X) (m : AnyMat α V D X) (mem : Mem α) (row col : Nat) :
    Act S α := do
  let l ← A.layout m
  let d ← A.lay.dim l
  act (assert_dimension row col d)
  A.get_unchecked mem row col m

/-- `RandomAccess::get1d` (src/traits/random_access.rs:106-109) -/
def get1d [Add α] [Mul α] (A : Acts S α V D X) (m : AnyMat α V D X) (mem : Mem α) (elem : Nat) :
    Act S α := do
  let l ← A.layout m
  let n ← A.lay.number_of_elements l
  act (assert_dimension1d elem n)
  A.get1d_unchecked mem elem m

/-- `Addition::new` (src/addition.rs:50-74): `layout()` is called three times if the dimensions are
the same, and four times if not: the message asks for both dimensions again. -/
def addition_new (A : Acts S α V D X) (m1 m2 : AnyMat α V D X) : Act S (AnyMat α V D X) := do
  let l1 ← A.layout m1
  let d1 ← A.lay.dim l1
  let l2 ← A.layout m2
  let d2 ← A.lay.dim l2
  assertOr (d1 = d2) do
    let l ← A.layout m1
    let _ ← A.lay.dim l
    let l ← A.layout m2
    let _ ← A.lay.dim l
  let l1' ← A.layout m1
  let l ← A.lay.index_layout l1'
  return .addition m1 m2 l

/-- `eval` (src/matrix/common_impl.rs:79-89) with `zeros_from_dim`
(src/matrix/constructors.rs:74-80) and `BaseMatrix::new`, as `AnyMat.eval`. `kind` is a value of the layout's type: which
`from_dimension` is called is decided when the program is compiled. -/
def eval [Target] [Zero α] [Add α] [Mul α] (A : Acts S α V D X) (kind : V) (cfg : Cfg)
    (m : AnyMat α V D X) (mem : Mem α) : Act S (AnyBase V Container × Mem α) := do
  let l0 ← A.layout m
  let dim ← A.lay.dim l0
  let l ← A.lay.from_dimension kind dim
  let n ← A.lay.number_of_elements l
  let (data, mem0) ← act (Container.newVector cfg mem n)
  let l' ← A.lay.from_dimension kind dim
  let n' ← A.lay.number_of_elements l'
  assertOr (n' ≤ data.number_of_elements) do
    let _ ← A.lay.number_of_elements l'
  let l1 ← A.layout m
  let k ← A.lay.number_of_elements l1
  let mem1 ← forAct k (fun index mem => do
    let v ← A.get1d_unchecked mem index m
    let j ← A.lay.convert_1d_raw l' index
    let p ← act (data.get_unchecked_mut j)
    act (mem.write p v)) mem0
  return (⟨data, l'⟩, mem1)

variable {V₁ D₁ X₁ V₂ D₂ X₂ V₃ D₃ X₃ : Type}

/-- `MatMul::matmul` (src/matrix_multiply.rs:189-236, 272-324), as `AnyBase.matmul`: every stride is
asked for separately. -/
def matmul [Target] (A₁ : Acts S α V₁ D₁ X₁) (A₂ : Acts S α V₂ D₂ X₂) (A₃ : Acts S α V₃ D₃ X₃)
    (kern : Kern α) (alpha : α) (mat_a : AnyBase V₁ D₁) (mat_b : AnyBase V₂ D₂) (beta : α)
    (mat_c : AnyBase V₃ D₃) (mem : Mem α) : Act S (Mem α) := do
  let dim1 ← A₁.lay.dim mat_a.layout
  let dim2 ← A₂.lay.dim mat_b.layout
  let dim3 ← A₃.lay.dim mat_c.layout
  act (Out.assert (dim1.2 = dim2.1 ∧ dim3.1 = dim1.1 ∧ dim3.2 = dim2.2))
  let rsa ← A₁.lay.stride mat_a.layout
  let csa ← A₁.lay.stride mat_a.layout
  let rsb ← A₂.lay.stride mat_b.layout
  let csb ← A₂.lay.stride mat_b.layout
  let rsc ← A₃.lay.stride mat_c.layout
  let csc ← A₃.lay.stride mat_c.layout
  let a ← A₁.dat.get_pointer mat_a.data
  let b ← A₂.dat.get_pointer mat_b.data
  let c ← A₃.dat.get_pointer_mut mat_c.data
  act (gemm kern dim1.1 dim1.2 dim2.2 alpha a (asIsize rsa.1) (asIsize csa.2) b (asIsize rsb.1)
    (asIsize csb.2) beta c (asIsize rsc.1) (asIsize csc.2) mem)

/-- `block` and `block_mut` (src/matrix/matrix_slices.rs:19-39, 48-69), as `AnyBase.blockWith`. -/
def blockWith [Target] (get_pointer : D → Act S Ptr) (cfg : Cfg) (m : AnyBase Layout D)
    (top_left dim : Nat × Nat) : Act S BaseMatrix := do
  let a ← act (cfg.add top_left.1 dim.1)
  let b ← act (cfg.add top_left.2 dim.2)
  act (Out.assert (a ≤ m.layout.dim.1 ∧ b ≤ m.layout.dim.2))
  let start_index ← act (m.layout.convert_2d_raw cfg top_left.1 top_left.2)
  let p ← get_pointer m.data
  let ptr ← act (p.add start_index)
  let stride ← act m.layout.stride
  act (match BaseMatrix.strideLayout m.layout dim stride with
  | some l => from_pointer_strided cfg ptr dim l
  | none => .panic)

/-- `split_in_four_mut` (src/matrix/matrix_slices.rs:89-141), as `AnyBase.split_in_four_mut`. -/
def splitWith [Target] (get_pointer_mut : D → Act S Ptr) (cfg : Cfg) (m : AnyBase Layout D)
    (split_at : Nat × Nat) : Act S (BaseMatrix × BaseMatrix × BaseMatrix × BaseMatrix) := do
  match m.layout with
  | .rowMajor _ =>
    let dim := m.layout.dim
    let stride ← act m.layout.stride
    let ptr ← get_pointer_mut m.data
    let dim0 := split_at
    let d1 ← act (cfg.sub dim.2 split_at.2)
    let dim1 := (split_at.1, d1)
    let d2 ← act (cfg.sub dim.1 split_at.1)
    let dim2 := (d2, split_at.2)
    let d31 ← act (cfg.sub dim.1 split_at.1)
    let d32 ← act (cfg.sub dim.2 split_at.2)
    let dim3 := (d31, d32)
    let start0 ← act (m.layout.convert_2d_raw cfg 0 0)
    let start1 ← act (m.layout.convert_2d_raw cfg 0 split_at.2)
    let start2 ← act (m.layout.convert_2d_raw cfg split_at.1 0)
    let start3 ← act (m.layout.convert_2d_raw cfg split_at.1 split_at.2)
    let p0 ← act (ptr.offset (asIsize start0))
    let b0 ← act (from_pointer_strided cfg p0 dim0 (.asRowMajor ⟨dim0, stride⟩))
    let p1 ← act (ptr.offset (asIsize start1))
    let b1 ← act (from_pointer_strided cfg p1 dim1 (.asRowMajor ⟨dim1, stride⟩))
    let p2 ← act (ptr.offset (asIsize start2))
    let b2 ← act (from_pointer_strided cfg p2 dim2 (.asRowMajor ⟨dim2, stride⟩))
    let p3 ← act (ptr.offset (asIsize start3))
    let b3 ← act (from_pointer_strided cfg p3 dim3 (.asRowMajor ⟨dim3, stride⟩))
    return (b0, b1, b2, b3)
  | _ => act .panic

end Acts

/-! ## Implementations that do not change -/

variable {S α V D X : Type}

/-- A layout that does not touch the state. -/
def LayoutImpl.still (S : Type) (I : LayoutImpl V) : LayoutActs S V where
  stride l := act (I.stride l)
  dim l := act (I.dim l)
  number_of_elements l := act (I.number_of_elements l)
  convert_1d_2d l i := act (I.convert_1d_2d l i)
  convert_2d_1d l r c := act (I.convert_2d_1d l r c)
  convert_1d_raw l i := act (I.convert_1d_raw l i)
  convert_2d_raw l r c := act (I.convert_2d_raw l r c)
  index_layout l := act (I.index_layout l)
  from_dimension l d := act (I.from_dimension l d)

/-- A container that does not touch the state. -/
def DataImpl.still (S : Type) (I : DataImpl α D) : DataActs S α D where
  get_unchecked d mem k := act (I.get_unchecked d mem k)
  get_unchecked_mut d k := act (I.get_unchecked_mut d k)
  get_pointer d := act (I.get_pointer d)
  get_pointer_mut d := act (I.get_pointer_mut d)
  number_of_elements d := act (I.number_of_elements d)

/-- A matrix that does not touch the state. -/
def MatrixImpl.still (S : Type) (I : MatrixImpl α V X) : MatrixActs S α V X where
  layout x := act (.ok (I.layout x))
  get_unchecked x mem r c := act (I.get_unchecked x mem r c)
  get1d_unchecked x mem i := act (I.get1d_unchecked x mem i)

/-- Implementations that do not touch the state. -/
def Impls.still (S : Type) (I : Impls α V D X) : Acts S α V D X :=
  ⟨I.lay.still S, I.dat.still S, I.mat.still S⟩

/-- `Dot::dot` (src/matrix_multiply.rs:75-89, 104-118, 138-152), as `AnyBase.dot`: the dimensions are
asked for once for the result and once more in `matmul`. -/
def Acts.dot {V₁ D₁ X₁ V₂ D₂ X₂ : Type} [Target] [Zero α] [One α] (A₁ : Acts S α V₁ D₁ X₁)
    (A₂ : Acts S α V₂ D₂ X₂) (cfg : Cfg) (kern : Kern α) (i : DotImpl) (a : AnyBase V₁ D₁)
    (b : AnyBase V₂ D₂) (mem : Mem α) : Act S (BaseMatrix × Mem α) := do
  let d1 ← A₁.lay.dim a.layout
  let d2 ← A₂.lay.dim b.layout
  let x ← act (match i with
    | .matMat => zeros_from_dim cfg .rowMajor d1.1 d2.2 mem
    | .rowMat => RowVectorD.zeros_from_dim cfg d1.1 d2.2 mem
    | .matCol => ColumnVectorD.zeros_from_dim cfg d1.1 d2.2 mem)
  let mem2 ← A₁.matmul A₂ ((crateImpls cfg α).still S) kern 1 a b 0 ⟨x.1.data, x.1.layout⟩ x.2
  return (x.1, mem2)

/-- What a layout would answer if it did not change any more. -/
def LayoutActs.frozen (A : LayoutActs S V) (s : S) : LayoutImpl V where
  stride l := A.stride l s >>= fun r => .ok r.1
  dim l := A.dim l s >>= fun r => .ok r.1
  number_of_elements l := A.number_of_elements l s >>= fun r => .ok r.1
  convert_1d_2d l i := A.convert_1d_2d l i s >>= fun r => .ok r.1
  convert_2d_1d l i j := A.convert_2d_1d l i j s >>= fun r => .ok r.1
  convert_1d_raw l i := A.convert_1d_raw l i s >>= fun r => .ok r.1
  convert_2d_raw l i j := A.convert_2d_raw l i j s >>= fun r => .ok r.1
  index_layout l := A.index_layout l s >>= fun r => .ok r.1
  from_dimension l d := A.from_dimension l d s >>= fun r => .ok r.1

end Householder
