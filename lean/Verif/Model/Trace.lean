import Verif.Model.Constructors

/-!
# What an evaluation does, step by step

The functions behind `eval`, `for_each` and element access once more, this time keeping a record of
every access to an element, every arithmetic operation on elements and every allocation. That they
compute what the functions without the record compute is `C82_same_results`.
-/

namespace Householder

variable {α : Type}

/-- A step of a computation that the record shows. -/
inductive Event where
  /-- a new allocation, number `buf`, for `len` elements, filled with zeros -/
  | alloc (buf len : Nat)
  /-- an element is read -/
  | read (p : Loc)
  /-- an element is written -/
  | write (p : Loc)
  /-- an addition of two elements -/
  | plus
  /-- a multiplication of two elements -/
  | times
  deriving DecidableEq, Repr

/-- An outcome together with the record of the steps up to there. -/
structure Traced (β : Type) where
  out : Out β
  log : List Event

namespace Traced

variable {β γ : Type}

/-- Sequencing, as `Out.bind`. -/
def bind (x : Traced β) (f : β → Traced γ) : Traced γ :=
  match x.out with
  | .ok a => ⟨(f a).out, x.log ++ (f a).log⟩
  | .panic => ⟨.panic, x.log⟩
  | .ub => ⟨.ub, x.log⟩

instance : Monad Traced where
  pure a := ⟨.ok a, []⟩
  bind := bind

/-- A step that the record does not show: index computations and checks. -/
def quiet (x : Out β) : Traced β := ⟨x, []⟩

/-- Recording a step. -/
def step (e : Event) : Traced Unit := ⟨.ok (), [e]⟩

/-- `for index in 0..n { body }`, as `forRange`. -/
def forRange {σ : Type} (n : Nat) (body : Nat → σ → Traced σ) (s : σ) : Traced σ :=
  (List.range n).foldlM (fun s i => body i s) s

/-- Reading `*p`. -/
def read (mem : Mem α) (p : Loc) : Traced α := do
  step (.read p)
  quiet (mem.read p)

/-- Assigning `*p = v`. -/
def write (mem : Mem α) (p : Loc) (v : α) : Traced (Mem α) := do
  step (.write p)
  quiet (mem.write p v)

/-- `x + y` on elements. -/
def add [Add α] (x y : α) : Traced α := do
  step .plus
  return x + y

/-- `x * y` on elements. -/
def mul [Mul α] (x y : α) : Traced α := do
  step .times
  return x * y

/-- `VectorContainer::new` (src/data_container.rs:98-107), as `Container.newVector`. -/
def newVector [Target] [Zero α] (cfg : Cfg) (mem : Mem α) (nelems : Nat) :
    Traced (Container × Mem α) := do
  let r ← quiet (Container.newVector cfg mem nelems)
  step (.alloc r.1.buf nelems)
  return r

/-- `DataContainer::get_unchecked` (src/data_container.rs:140-142), as `Container.get_unchecked`. -/
def container_get_unchecked (d : Container) (mem : Mem α) (index : Nat) : Traced α :=
  if index < d.len then read mem ⟨d.buf, d.off + index⟩ else quiet .ub

/-- `MatrixD::zeros_from_dim` (src/matrix/constructors.rs:70-81), as `zeros_from_dim`. -/
def zeros_from_dim [Target] [Zero α] (cfg : Cfg) (k : BaseKind) (rows cols : Nat) (mem : Mem α) :
    Traced (BaseMatrix × Mem α) := do
  let layout ← quiet (k.from_dimension (rows, cols))
  let n ← quiet (layout.number_of_elements cfg)
  let (data, mem') ← newVector cfg mem n
  let layout' ← quiet (k.from_dimension (rows, cols))
  let m ← quiet (from_data cfg .dynamic .dynamic data layout')
  return (m, mem')

/-- src/base_matrix.rs:130-134, as `BaseMatrix.get_unchecked`. -/
def base_get_unchecked [Target] (cfg : Cfg) (m : BaseMatrix) (mem : Mem α) (row col : Nat) :
    Traced α := do
  let k ← quiet (m.layout.convert_2d_raw cfg row col)
  container_get_unchecked m.data mem k

/-- src/base_matrix.rs:136-139, as `BaseMatrix.get1d_unchecked`. -/
def base_get1d_unchecked [Target] (cfg : Cfg) (m : BaseMatrix) (mem : Mem α) (index : Nat) :
    Traced α := do
  let k ← quiet (m.layout.convert_1d_raw cfg index)
  container_get_unchecked m.data mem k

/-- src/base_matrix.rs:130-134, src/matrix_ref.rs:123-126, src/addition.rs:123-130,
src/scalar_mult.rs:95-98, as `Mat.get_unchecked`. -/
def get_unchecked [Target] [Add α] [Mul α] (cfg : Cfg) (mem : Mem α) (row col : Nat) :
    Mat α → Traced α
  | .base b => base_get_unchecked cfg b mem row col
  | .ref m => get_unchecked cfg mem row col m
  | .addition m1 m2 _ => do
      let a ← get_unchecked cfg mem row col m1
      let b ← get_unchecked cfg mem row col m2
      add a b
  | .scalarMult m s => do
      let a ← get_unchecked cfg mem row col m
      mul s a

/-- src/base_matrix.rs:136-139, src/matrix_ref.rs:128-131, src/addition.rs:132-135,
src/scalar_mult.rs:100-103, as `Mat.get1d_unchecked`. -/
def get1d_unchecked [Target] [Add α] [Mul α] (cfg : Cfg) (mem : Mem α) (index : Nat) :
    Mat α → Traced α
  | .base b => base_get1d_unchecked cfg b mem index
  | .ref m => get1d_unchecked cfg mem index m
  | .addition m1 m2 _ => do
      let a ← get1d_unchecked cfg mem index m1
      let b ← get1d_unchecked cfg mem index m2
      add a b
  | .scalarMult m s => do
      let a ← get1d_unchecked cfg mem index m
      mul s a

/-- `RandomAccess::get` (src/traits/random_access.rs:101-104), as `Mat.get`. -/
def get [Target] [Add α] [Mul α] (cfg : Cfg) (m : Mat α) (mem : Mem α) (row col : Nat) :
    Traced α := do
  quiet (assert_dimension row col m.layout.dim)
  get_unchecked cfg mem row col m

/-- `RandomAccess::get1d` (src/traits/random_access.rs:106-109), as `Mat.get1d`. -/
def get1d [Target] [Add α] [Mul α] (cfg : Cfg) (m : Mat α) (mem : Mem α) (elem : Nat) :
    Traced α := do
  let n ← quiet (m.layout.number_of_elements cfg)
  quiet (assert_dimension1d elem n)
  get1d_unchecked cfg mem elem m

/-- `for_each` (src/matrix/base_methods.rs:23-27), as `BaseMatrix.for_each`. -/
def for_each [Target] {σ : Type} (cfg : Cfg) (m : BaseMatrix) (f : σ → α → σ × α) (s : σ)
    (mem : Mem α) : Traced (σ × Mem α) := do
  let n ← quiet (m.layout.number_of_elements cfg)
  forRange n (fun index st => do
    let p ← quiet (m.get1d_unchecked_mut cfg index)
    let v ← read st.2 p
    let r := f st.1 v
    let mem' ← write st.2 p r.2
    return (r.1, mem')) (s, mem)

/-- `eval` (src/matrix/common_impl.rs:79-89), as `Mat.eval`. -/
def eval [Target] [Zero α] [Add α] [Mul α] (cfg : Cfg) (m : Mat α) (mem : Mem α) :
    Traced (BaseMatrix × Mem α) := do
  let dim := m.layout.dim
  let (result, mem0) ← zeros_from_dim cfg m.layout.indexKind dim.1 dim.2 mem
  let n ← quiet (m.layout.number_of_elements cfg)
  let mem1 ← forRange n (fun index mem => do
    let v ← get1d_unchecked cfg mem index m
    let p ← quiet (result.get1d_unchecked_mut cfg index)
    write mem p v) mem0
  return (result, mem1)

end Traced

end Householder
