import Verif.Model.Stateful

/-!
# Implementations of the open traits that share the memory

A container of the program may keep its elements in cells that its other functions, or the functions
of another type, read and change while they answer. Here the state of the implementations includes the
memory. The functions of the crate that only call the implementations are those of
`Model/Stateful.lean`, with this state; the ones that access memory themselves follow. (The
implementations find the memory in the state, so they are given none. Simplification: what the
callable of `for_each` reads and writes of the element that it holds a `&mut` to counts as an access
to memory, not as a violation of the rules of `&mut`; for these see `Model/Guards.lean`.)
-/

namespace Householder

variable {S α V D X : Type}

/-- Reading `*p`. -/
def readHere (p : Loc) : Act (S × Mem α) α := fun w => w.2.read p >>= fun v => .ok (v, w)

/-- Assigning `*p = v`. -/
def writeHere (p : Loc) (v : α) : Act (S × Mem α) Unit := fun w =>
  w.2.write p v >>= fun mem => .ok ((), w.1, mem)

/-- `VectorContainer::new` (src/data_container.rs:102-106), as `Container.newVector`. -/
def newVectorHere [Target] [Zero α] (cfg : Cfg) (n : Nat) : Act (S × Mem α) Container := fun w =>
  Container.newVector cfg w.2 n >>= fun x => .ok (x.1, w.1, x.2)

namespace Acts

/-- `for_each` (src/matrix/base_methods.rs:23-27), as `Acts.for_each`. The callable, too, may do
anything between being given the element and giving it back. -/
def for_each_here {σ : Type} (A : Acts (S × Mem α) α V D X) (m : AnyBase V D)
    (f : σ → α → Act (S × Mem α) (σ × α)) (x : σ) : Act (S × Mem α) σ := do
  let n ← A.lay.number_of_elements m.layout
  forAct n (fun index x => do
    let p ← A.get1d_unchecked_mut m index
    let v ← readHere p
    let r ← f x v
    writeHere p r.2
    return r.1) x

/-- `RandomAccess::get` and `get1d` (src/traits/random_access.rs:101-109), as `Acts.get`. -/
def get_here [Add α] [Mul α] (A : Acts (S × Mem α) α V D X) (m : AnyMat α V D X) (row col : Nat) :
    Act (S × Mem α) α := A.get m ⟨[]⟩ row col

/-- `get1d` likewise. -/
def get1d_here [Add α] [Mul α] (A : Acts (S × Mem α) α V D X) (m : AnyMat α V D X) (elem : Nat) :
    Act (S × Mem α) α := A.get1d m ⟨[]⟩ elem

/-- `eval` (src/matrix/common_impl.rs:79-89) with `zeros_from_dim`
(src/matrix/constructors.rs:74-80) and `BaseMatrix::new`, as `Acts.eval`. -/
def eval_here [Target] [Zero α] [Add α] [Mul α] (A : Acts (S × Mem α) α V D X) (kind : V) (cfg : Cfg)
    (m : AnyMat α V D X) : Act (S × Mem α) (AnyBase V Container) := do
  let l0 ← A.layout m
  let dim ← A.lay.dim l0
  let l ← A.lay.from_dimension kind dim
  let n ← A.lay.number_of_elements l
  let data ← newVectorHere cfg n
  let l' ← A.lay.from_dimension kind dim
  let n' ← A.lay.number_of_elements l'
  assertOr (n' ≤ data.number_of_elements) do
    let _ ← A.lay.number_of_elements l'
  let l1 ← A.layout m
  let k ← A.lay.number_of_elements l1
  forAct k (fun index _ => do
    let v ← A.get1d_unchecked ⟨[]⟩ index m
    let j ← A.lay.convert_1d_raw l' index
    let p ← act (data.get_unchecked_mut j)
    writeHere p v) ()
  return ⟨data, l'⟩

variable {V₁ D₁ X₁ V₂ D₂ X₂ V₃ D₃ X₃ : Type}

/-- `MatMul::matmul` (src/matrix_multiply.rs:189-236, 272-324), as `Acts.matmul`: the kernel works on
the memory that the calls have left. -/
def matmul_here [Target] (A₁ : Acts (S × Mem α) α V₁ D₁ X₁) (A₂ : Acts (S × Mem α) α V₂ D₂ X₂)
    (A₃ : Acts (S × Mem α) α V₃ D₃ X₃) (kern : Kern α) (alpha : α) (mat_a : AnyBase V₁ D₁)
    (mat_b : AnyBase V₂ D₂) (beta : α) (mat_c : AnyBase V₃ D₃) : Act (S × Mem α) Unit := do
  let dim1 ← A₁.lay.dim mat_a.layout
  let dim2 ← A₂.lay.dim mat_b.layout
  let dim3 ← A₃.lay.dim mat_c.layout
  act (Out.assert (dim1.2 = dim2.1 ∧ dim3.1 = dim1.1 ∧ dim3.2 = dim2.2))
  let rsa ← A₁.lay.stride mat_a.layout
  let csa ← A₁.lay.stride mat_a.layout
  let rsb ← A₂.lay.stride mat_b.layout
  let csb ← A₂.lay.stride mat_b.layout
  let rsc ← A₃.lay.stride mat_c.layout
  let csc ← A₃.lay.stride mat_c.layout
  let a ← A₁.dat.get_pointer mat_a.data
  let b ← A₂.dat.get_pointer mat_b.data
  let c ← A₃.dat.get_pointer_mut mat_c.data
  fun w => gemm kern dim1.1 dim1.2 dim2.2 alpha a (asIsize rsa.1) (asIsize csa.2) b (asIsize rsb.1)
    (asIsize csb.2) beta c (asIsize rsc.1) (asIsize csc.2) w.2 >>= fun mem => .ok ((), w.1, mem)

/-- `Dot::dot` (src/matrix_multiply.rs:75-89, 104-118, 138-152), as `Acts.dot`: the result is made in
the memory that the first calls have left. -/
def dot_here [Target] [Zero α] [One α] (A₁ : Acts (S × Mem α) α V₁ D₁ X₁)
    (A₂ : Acts (S × Mem α) α V₂ D₂ X₂) (cfg : Cfg) (kern : Kern α) (i : DotImpl) (a : AnyBase V₁ D₁)
    (b : AnyBase V₂ D₂) : Act (S × Mem α) BaseMatrix := do
  let d1 ← A₁.lay.dim a.layout
  let d2 ← A₂.lay.dim b.layout
  let x ← (fun w => (match i with
    | .matMat => zeros_from_dim cfg .rowMajor d1.1 d2.2 w.2
    | .rowMat => RowVectorD.zeros_from_dim cfg d1.1 d2.2 w.2
    | .matCol => ColumnVectorD.zeros_from_dim cfg d1.1 d2.2 w.2) >>= fun x => .ok (x.1, w.1, x.2) :
      Act (S × Mem α) BaseMatrix)
  A₁.matmul_here A₂ ((crateImpls cfg α).still (S × Mem α)) kern 1 a b 0 ⟨x.data, x.layout⟩
  return x

end Acts

/-! ## Implementations that leave the memory as it is -/

/-- A function that reads the state and the memory but changes only the state. -/
def Act.apart {β : Type} (x : Mem α → Act S β) : Act (S × Mem α) β := fun w =>
  x w.2 w.1 >>= fun r => .ok (r.1, r.2, w.2)

/-- Implementations that read the memory only to answer for elements, and do not change it. -/
def Acts.apart (A : Acts S α V D X) : Acts (S × Mem α) α V D X where
  lay := ⟨fun l => Act.apart fun _ => A.lay.stride l, fun l => Act.apart fun _ => A.lay.dim l,
    fun l => Act.apart fun _ => A.lay.number_of_elements l,
    fun l i => Act.apart fun _ => A.lay.convert_1d_2d l i,
    fun l r c => Act.apart fun _ => A.lay.convert_2d_1d l r c,
    fun l i => Act.apart fun _ => A.lay.convert_1d_raw l i,
    fun l r c => Act.apart fun _ => A.lay.convert_2d_raw l r c,
    fun l => Act.apart fun _ => A.lay.index_layout l,
    fun l d => Act.apart fun _ => A.lay.from_dimension l d⟩
  dat := ⟨fun d _ k => Act.apart fun mem => A.dat.get_unchecked d mem k,
    fun d k => Act.apart fun _ => A.dat.get_unchecked_mut d k,
    fun d => Act.apart fun _ => A.dat.get_pointer d,
    fun d => Act.apart fun _ => A.dat.get_pointer_mut d,
    fun d => Act.apart fun _ => A.dat.number_of_elements d⟩
  mat := ⟨fun x => Act.apart fun _ => A.mat.layout x,
    fun x _ r c => Act.apart fun mem => A.mat.get_unchecked x mem r c,
    fun x _ i => Act.apart fun mem => A.mat.get1d_unchecked x mem i⟩

end Householder
