import Verif.Model.MatMul

/-!
# The library one memory access at a time

The rest of the model runs a function of the library from its first to its last access in one go.
Here the functions are written once more as computations that can be interrupted before every access
to memory, so that other threads can run in between. That they compute, uninterrupted, what the other
functions compute is `C91_operations`.
-/

namespace Householder

variable {α : Type}

/-- A computation by its accesses to memory: it ends (returning, panicking or undefined), or reads a
place and goes on with what it has read, or writes to a place, or makes a new allocation and goes on
with its number. -/
inductive Steps (α β : Type) where
  | done (x : Out β)
  | read (p : Loc) (k : α → Steps α β)
  | write (p : Loc) (v : α) (k : Steps α β)
  | alloc (xs : List α) (k : Nat → Steps α β)

namespace Steps

variable {β γ σ : Type}

/-- Sequencing, as `Out.bind`. -/
def bind : Steps α β → (β → Steps α γ) → Steps α γ
  | done (.ok b), f => f b
  | done .panic, _ => done .panic
  | done .ub, _ => done .ub
  | read p k, f => read p fun v => (k v).bind f
  | write p v k, f => write p v (k.bind f)
  | alloc xs k, f => alloc xs fun b => (k b).bind f

instance : Monad (Steps α) where
  pure b := done (.ok b)
  bind := bind

/-- Running without interruption. -/
def out : Steps α β → Mem α → Out (β × Mem α)
  | done x, mem => do
      let b ← x
      return (b, mem)
  | read p k, mem => do
      let v ← mem.read p
      (k v).out mem
  | write p v k, mem => do
      let mem' ← mem.write p v
      k.out mem'
  | alloc xs k, mem => (k (mem.alloc xs).1).out (mem.alloc xs).2

/-- Reading `*p`. -/
def load (p : Loc) : Steps α α := read p fun v => done (.ok v)

/-- Assigning `*p = v`. -/
def store (p : Loc) (v : α) : Steps α Unit := write p v (done (.ok ()))

/-- A new allocation. -/
def fresh (xs : List α) : Steps α Nat := alloc xs fun b => done (.ok b)

/-- `for index in 0..n { body }`, as `forRange`. -/
def forRange (n : Nat) (body : Nat → σ → Steps α σ) (s : σ) : Steps α σ :=
  (List.range n).foldlM (fun s i => body i s) s

/-! ### Containers (src/data_container.rs) -/

/-- `VectorContainer::new` (src/data_container.rs:98-107), as `Container.newVector`. -/
def newVector [Target] [Zero α] (cfg : Cfg) (nelems : Nat) : Steps α Container :=
  if nelems * cfg.item.size ≤ isizeMax then do
    let b ← fresh (List.replicate nelems 0)
    return ⟨b, 0, nelems⟩
  else done .panic

/-- `ArrayContainer::new` (src/data_container.rs:109-115), as `Container.newArray`. -/
def newArray [Zero α] (n : Nat) : Steps α Container := do
  let b ← fresh (List.replicate n 0)
  return ⟨b, 0, n⟩

/-- A slice of the program's (src/data_container.rs:123-135), as `Container.newSlice`. -/
def newSlice [Target] (cfg : Cfg) (xs : List α) : Steps α Container :=
  if xs.length * cfg.item.size ≤ isizeMax then do
    let b ← fresh xs
    return ⟨b, 0, xs.length⟩
  else done .panic

/-- `DataContainer::get_unchecked` (src/data_container.rs:140-142, 166-168, 192-194, 208-210), as
`Container.get_unchecked`. -/
def container_get_unchecked (d : Container) (index : Nat) : Steps α α :=
  if index < d.len then load ⟨d.buf, d.off + index⟩ else done .ub

/-- Reading the elements of a slice in order, as `Container.toList`. -/
def toList (d : Container) : Steps α (List α) :=
  (List.range d.len).mapM (fun i => container_get_unchecked d i)

/-- Storing through a slice element by element, as `Container.writeList`. -/
def writeList (d : Container) (xs : List α) : Steps α Unit :=
  if xs.length ≤ d.len then
    forRange xs.length (fun i _ =>
      match xs[i]? with
      | some v => do
          let p ← done (d.get_unchecked_mut i)
          store p v
      | none => done .panic) ()
  else done .panic

/-! ### Constructors (src/matrix/constructors.rs) -/

/-- `MatrixD::zeros_from_dim` (src/matrix/constructors.rs:70-81), as `zeros_from_dim`. -/
def zeros_from_dim [Target] [Zero α] (cfg : Cfg) (k : BaseKind) (rows cols : Nat) :
    Steps α BaseMatrix := do
  let layout ← done (k.from_dimension (rows, cols))
  let n ← done (layout.number_of_elements cfg)
  let data ← newVector cfg n
  let layout' ← done (k.from_dimension (rows, cols))
  done (from_data cfg .dynamic .dynamic data layout')

/-- `RowVectorD::zeros_from_length` (src/matrix/constructors.rs:85-90). -/
def row_zeros_from_length [Target] [Zero α] (cfg : Cfg) (nelems : Nat) : Steps α BaseMatrix := do
  let data ← newVector cfg nelems
  done (from_data cfg .fixed1 .dynamic data (.rowVector (RowVector.from_length nelems)))

/-- `RowVectorD::zeros_from_dim` (src/matrix/constructors.rs:94-104). -/
def row_zeros_from_dim [Target] [Zero α] (cfg : Cfg) (rows cols : Nat) : Steps α BaseMatrix := do
  done (Out.assert (rows = 1))
  let data ← newVector cfg cols
  done (from_data cfg .fixed1 .dynamic data (.rowVector (RowVector.from_length cols)))

/-- `ColumnVectorD::zeros_from_length` (src/matrix/constructors.rs:109-114). -/
def col_zeros_from_length [Target] [Zero α] (cfg : Cfg) (nelems : Nat) : Steps α BaseMatrix := do
  let data ← newVector cfg nelems
  done (from_data cfg .dynamic .fixed1 data (.columnVector (ColumnVector.from_length nelems)))

/-- `ColumnVectorD::zeros_from_dim` (src/matrix/constructors.rs:118-128). -/
def col_zeros_from_dim [Target] [Zero α] (cfg : Cfg) (rows cols : Nat) : Steps α BaseMatrix := do
  done (Out.assert (cols = 1))
  let data ← newVector cfg rows
  done (from_data cfg .dynamic .fixed1 data (.columnVector (ColumnVector.from_length rows)))

/-- Fixed-size `zeros_from_dim` (src/matrix/constructors.rs:24-29). -/
def fixed_zeros_from_dim [Target] [Zero α] (cfg : Cfg) (rs cs : SizeId) (k : BaseKind) :
    Steps α BaseMatrix := do
  let data ← newArray (rs.N * cs.N)
  let layout ← done (k.from_dimension (rs.N, cs.N))
  done (from_data cfg rs cs data layout)

/-- Fixed-size `zeros_from_length` (src/matrix/constructors.rs:40-42). -/
def fixed_zeros_from_length [Target] [Zero α] (cfg : Cfg) (rs cs : SizeId) (layout : Layout)
    (n : Nat) : Steps α BaseMatrix := do
  let data ← newArray n
  done (from_data cfg rs cs data layout)

/-! ### Element access -/

/-- src/base_matrix.rs:130-134, as `BaseMatrix.get_unchecked`. -/
def base_get_unchecked [Target] (cfg : Cfg) (m : BaseMatrix) (row col : Nat) : Steps α α := do
  let k ← done (m.layout.convert_2d_raw cfg row col)
  container_get_unchecked m.data k

/-- src/base_matrix.rs:136-139, as `BaseMatrix.get1d_unchecked`. -/
def base_get1d_unchecked [Target] (cfg : Cfg) (m : BaseMatrix) (index : Nat) : Steps α α := do
  let k ← done (m.layout.convert_1d_raw cfg index)
  container_get_unchecked m.data k

/-- src/base_matrix.rs:130-134, src/matrix_ref.rs:123-126, src/addition.rs:123-130,
src/scalar_mult.rs:95-98, as `Mat.get_unchecked`. -/
def get_unchecked [Target] [Add α] [Mul α] (cfg : Cfg) (row col : Nat) : Mat α → Steps α α
  | .base b => base_get_unchecked cfg b row col
  | .ref m => get_unchecked cfg row col m
  | .addition m1 m2 _ => do
      let a ← get_unchecked cfg row col m1
      let b ← get_unchecked cfg row col m2
      return a + b
  | .scalarMult m s => do
      let a ← get_unchecked cfg row col m
      return s * a

/-- src/base_matrix.rs:136-139, src/matrix_ref.rs:128-131, src/addition.rs:132-135,
src/scalar_mult.rs:100-103, as `Mat.get1d_unchecked`. -/
def get1d_unchecked [Target] [Add α] [Mul α] (cfg : Cfg) (index : Nat) : Mat α → Steps α α
  | .base b => base_get1d_unchecked cfg b index
  | .ref m => get1d_unchecked cfg index m
  | .addition m1 m2 _ => do
      let a ← get1d_unchecked cfg index m1
      let b ← get1d_unchecked cfg index m2
      return a + b
  | .scalarMult m s => do
      let a ← get1d_unchecked cfg index m
      return s * a

/-- `RandomAccess::get` (src/traits/random_access.rs:101-104), as `Mat.get`. -/
def get [Target] [Add α] [Mul α] (cfg : Cfg) (m : Mat α) (row col : Nat) : Steps α α := do
  done (assert_dimension row col m.layout.dim)
  get_unchecked cfg row col m

/-- `RandomAccess::get1d` (src/traits/random_access.rs:106-109), as `Mat.get1d`. -/
def get1d [Target] [Add α] [Mul α] (cfg : Cfg) (m : Mat α) (elem : Nat) : Steps α α := do
  let n ← done (m.layout.number_of_elements cfg)
  done (assert_dimension1d elem n)
  get1d_unchecked cfg elem m

/-- `for_each` (src/matrix/base_methods.rs:23-27), as `BaseMatrix.for_each`. The callable reads and
writes its element once. -/
def for_each [Target] (cfg : Cfg) (m : BaseMatrix) (f : σ → α → σ × α) (s : σ) : Steps α σ := do
  let n ← done (m.layout.number_of_elements cfg)
  forRange n (fun index st => do
    let p ← done (m.get1d_unchecked_mut cfg index)
    let v ← load p
    store p (f st v).2
    return (f st v).1) s

/-- `fill_from_rand_standard_normal` (src/matrix/random.rs:22-25), as `BaseMatrix.fill_from_rand`. -/
def fill_from_rand [Target] {ρ : Type} (cfg : Cfg) (m : BaseMatrix) (draw : ρ → α × ρ) (rng : ρ) :
    Steps α ρ :=
  for_each cfg m (fun rng _ => let r := draw rng; (r.2, r.1)) rng

/-- `eval` (src/matrix/common_impl.rs:79-89), as `Mat.eval`. -/
def eval [Target] [Zero α] [Add α] [Mul α] (cfg : Cfg) (m : Mat α) : Steps α BaseMatrix := do
  let dim := m.layout.dim
  let result ← zeros_from_dim cfg m.layout.indexKind dim.1 dim.2
  let n ← done (m.layout.number_of_elements cfg)
  forRange n (fun index _ => do
    let v ← get1d_unchecked cfg index m
    let p ← done (result.get1d_unchecked_mut cfg index)
    store p v) ()
  return result

end Steps

/-! ### Products (src/matrix_multiply.rs) -/

/-- The arguments of `gemm` (src/matrix_multiply.rs:219-234 and 305-322). -/
structure GemmArgs (α : Type) where
  m : Nat
  k : Nat
  n : Nat
  alpha : α
  a : Ptr
  rsa : Int
  csa : Int
  b : Ptr
  rsb : Int
  csb : Int
  beta : α
  c : Ptr
  rsc : Int
  csc : Int

/-- `gemmPre` of the arguments. -/
def GemmArgs.Pre (x : GemmArgs α) : Prop :=
  gemmPre x.m x.k x.n x.a x.rsa x.csa x.b x.rsb x.csb x.c x.rsc x.csc

instance (x : GemmArgs α) : Decidable x.Pre := by unfold GemmArgs.Pre; infer_instance

namespace Steps

/-- The kernel called with the arguments: `K` says in which order it reads and writes. (Its packing
buffers are not part of the memory.) Outside its preconditions its behaviour is undefined. -/
def kernel (K : GemmArgs α → Steps α Unit) (x : GemmArgs α) : Steps α Unit :=
  if x.Pre then K x else done .ub

/-- A kernel that computes one element after the other, as `gemm` does. -/
def plainKernel (kern : Kern α) (x : GemmArgs α) : Steps α Unit :=
  forRange x.m (fun i _ =>
    forRange x.n (fun j _ => do
      let ps ← (List.range x.k).mapM (fun l => do
        let u ← load (gemmLoc x.a x.rsa x.csa i l)
        let v ← load (gemmLoc x.b x.rsb x.csb l j)
        return (u, v))
      let old ← load (gemmLoc x.c x.rsc x.csc i j)
      store (gemmLoc x.c x.rsc x.csc i j) (kern ⟨x.m, x.n, i, j⟩ x.alpha ps x.beta old)) ()) ()

/-- `MatMul::matmul` (src/matrix_multiply.rs:189-236, 272-324), as `matmul`. -/
def matmul [Target] (K : GemmArgs α → Steps α Unit) (alpha : α) (mat_a mat_b : BaseMatrix) (beta : α)
    (mat_c : BaseMatrix) : Steps α Unit := do
  let dim1 := mat_a.layout.dim
  let dim2 := mat_b.layout.dim
  let dim3 := mat_c.layout.dim
  done (Out.assert (dim1.2 = dim2.1 ∧ dim3.1 = dim1.1 ∧ dim3.2 = dim2.2))
  let sa ← done mat_a.layout.stride
  let sb ← done mat_b.layout.stride
  let sc ← done mat_c.layout.stride
  kernel K ⟨dim1.1, dim1.2, dim2.2, alpha, mat_a.get_pointer, asIsize sa.1, asIsize sa.2,
    mat_b.get_pointer, asIsize sb.1, asIsize sb.2, beta, mat_c.get_pointer, asIsize sc.1,
    asIsize sc.2⟩

/-- `Dot::dot` (src/matrix_multiply.rs:75-89, 104-118, 138-152), as `dot`. -/
def dot [Target] [Zero α] [One α] (cfg : Cfg) (K : GemmArgs α → Steps α Unit) (i : DotImpl)
    (a b : BaseMatrix) : Steps α BaseMatrix := do
  let res ← match i with
    | .matMat => zeros_from_dim cfg .rowMajor a.layout.dim.1 b.layout.dim.2
    | .rowMat => row_zeros_from_dim cfg a.layout.dim.1 b.layout.dim.2
    | .matCol => col_zeros_from_dim cfg a.layout.dim.1 b.layout.dim.2
  matmul K 1 a b 0 res
  return res

end Steps

end Householder
