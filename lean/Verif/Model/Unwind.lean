import Verif.Model.MatMul

/-!
# Panics that are caught

The rest of the model forgets what an operation did to the memory before it panicked. Here the loops
are written again so that a panic carries the memory: a panic of the program's own code that the
library calls (the callable of `for_each`, a random number generator, the arithmetic of a scalar
type), and a panic of the library. The flag of a result says whether the operation was left by
unwinding.
-/

namespace Householder

variable {α : Type}

/-- Going on after a computation that may panic; if it does, unwinding leaves the state `s`. -/
def orUnwind {β γ : Type} (x : Out β) (s : γ) (k : β → Out (Bool × γ)) : Out (Bool × γ) :=
  match x with
  | .ok b => k b
  | .panic => .ok (true, s)
  | .ub => .ub

/-- `for i in 0..n { body }` where the body may unwind: the rest of the loop is not run. -/
def loopUnwind {γ : Type} (n : Nat) (body : Nat → γ → Out (Bool × γ)) (s : γ) : Out (Bool × γ) :=
  forRange n (fun i st => if st.1 then .ok st else body i st.2) (false, s)

namespace BaseMatrix

/-- `for_each` (src/matrix/base_methods.rs:23-27). The callable is `FnMut(&mut Item)`: it returns its
captured state, what it left in the element, and whether it panicked; it may have written to the
element before. -/
def for_each_unwind [Target] {σ : Type} (cfg : Cfg) (m : BaseMatrix) (f : σ → α → σ × α × Bool) (s : σ)
    (mem : Mem α) : Out (Bool × σ × Mem α) :=
  orUnwind (m.layout.number_of_elements cfg) (s, mem) fun n =>
    loopUnwind n (fun index st =>
      orUnwind (m.get1d_unchecked_mut cfg index) st fun p => do
        let v ← st.2.read p
        let r := f st.1 v
        let mem' ← st.2.write p r.2.1
        return (r.2.2, r.1, mem')) (s, mem)

/-- `fill_from_rand_standard_normal` (src/matrix/random.rs:22-25) where drawing a number may panic:
`*val = ..` assigns after the number has been drawn. -/
def fill_from_rand_unwind [Target] {ρ : Type} (cfg : Cfg) (m : BaseMatrix) (draw : ρ → Option α × ρ) (rng : ρ)
    (mem : Mem α) : Out (Bool × ρ × Mem α) :=
  m.for_each_unwind cfg (fun rng v =>
    let r := draw rng
    match r.1 with
    | some w => (r.2, w, false)
    | none => (r.2, v, true)) rng mem

end BaseMatrix

/-- The arithmetic of a scalar type of the program's (`HScalar` is a public trait, src/types.rs:6-9);
`none` is a panic. -/
structure Arith (α : Type) where
  add : α → α → Option α
  mul : α → α → Option α

/-- A result that may be a panic. -/
def Out.ofOption {β : Type} : Option β → Out β
  | some b => .ok b
  | none => .panic

namespace Mat

/-- `get1d_unchecked` as in `Mat.get1d_unchecked`: src/base_matrix.rs:136-139,
src/matrix_ref.rs:128-131, src/addition.rs:132-135, src/scalar_mult.rs:100-103 -/
def get1d_unchecked_arith [Target] (A : Arith α) (cfg : Cfg) (mem : Mem α) (index : Nat) : Mat α → Out α
  | base b => b.get1d_unchecked cfg mem index
  | ref m => m.get1d_unchecked_arith A cfg mem index
  | addition m1 m2 _ => do
      let a ← m1.get1d_unchecked_arith A cfg mem index
      let b ← m2.get1d_unchecked_arith A cfg mem index
      Out.ofOption (A.add a b)
  | scalarMult m s => do
      let a ← m.get1d_unchecked_arith A cfg mem index
      Out.ofOption (A.mul s a)

/-- `eval` (src/matrix/common_impl.rs:79-89). Unwinding drops `result`, whose storage is freed: no
cell of it exists any more. (If `zeros_from_dim` panics there is no storage left either.) -/
def eval_unwind [Target] [Zero α] (A : Arith α) (cfg : Cfg) (m : Mat α) (mem : Mem α) :
    Out (Option BaseMatrix × Mem α) :=
  match zeros_from_dim cfg m.layout.indexKind m.layout.dim.1 m.layout.dim.2 mem with
  | .panic => .ok (none, mem)
  | .ub => .ub
  | .ok (result, mem0) => do
    let x ← orUnwind (m.layout.number_of_elements cfg) mem0 fun n =>
      loopUnwind n (fun index mem =>
        orUnwind (m.get1d_unchecked_arith A cfg mem index) mem fun v =>
        orUnwind (result.get1d_unchecked_mut cfg index) mem fun p => do
          let mem' ← mem.write p v
          return (false, mem')) mem0
    if x.1 then return (none, ⟨x.2.bufs.set result.data.buf []⟩) else return (some result, x.2)

end Mat

/-- `MatMul::matmul` (src/matrix_multiply.rs:189-236, 272-324), every step before the call of the
kernel with the memory it leaves when it panics. -/
def matmul_unwind [Target] (kern : Kern α) (alpha : α) (mat_a mat_b : BaseMatrix) (beta : α)
    (mat_c : BaseMatrix) (mem : Mem α) : Out (Bool × Mem α) :=
  let dim1 := mat_a.layout.dim
  let dim2 := mat_b.layout.dim
  let dim3 := mat_c.layout.dim
  orUnwind (Out.assert (dim1.2 = dim2.1 ∧ dim3.1 = dim1.1 ∧ dim3.2 = dim2.2)) mem fun _ =>
  orUnwind mat_a.layout.stride mem fun sa =>
  orUnwind mat_b.layout.stride mem fun sb =>
  orUnwind mat_c.layout.stride mem fun sc => do
    let mem' ← gemm kern dim1.1 dim1.2 dim2.2 alpha mat_a.get_pointer (asIsize sa.1) (asIsize sa.2)
      mat_b.get_pointer (asIsize sb.1) (asIsize sb.2) beta mat_c.get_pointer (asIsize sc.1)
      (asIsize sc.2) mem
    return (false, mem')

end Householder
