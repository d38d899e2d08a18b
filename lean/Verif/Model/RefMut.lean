import Verif.Model.MatMul

/-!
# Mutable references and the reference product

src/matrix_ref.rs (`MatrixRefMut`), src/matrix/common_impl.rs:54-73,
src/traits/random_access.rs:112-122, and the naive product of the unit tests
(src/matrix_multiply.rs:364-398).
-/

namespace Householder

variable {α : Type}

namespace Mat

/-- `MatrixRefMut::new`, wrapped by `Matrix::new` (src/matrix_ref.rs:75-77, src/matrix.rs:125-127) -/
def from_ref_mut (m : Mat α) : Mat α := .ref m

/-- `UnsafeRandomAccessMut::get_unchecked_mut`: src/base_matrix.rs:170-174,
src/matrix_ref.rs:150-153, src/matrix/common_impl.rs:64-67. Sums and multiples do not implement the
trait; the model panics for them. -/
def get_unchecked_mut [Target] (cfg : Cfg) (row col : Nat) : Mat α → Out Loc
  | base b => b.get_unchecked_mut cfg row col
  | ref m => m.get_unchecked_mut cfg row col
  | addition _ _ _ => .panic
  | scalarMult _ _ => .panic

/-- `UnsafeRandomAccessMut::get1d_unchecked_mut`: src/base_matrix.rs:176-180,
src/matrix_ref.rs:155-158, src/matrix/common_impl.rs:69-72 -/
def get1d_unchecked_mut [Target] (cfg : Cfg) (index : Nat) : Mat α → Out Loc
  | base b => b.get1d_unchecked_mut cfg index
  | ref m => m.get1d_unchecked_mut cfg index
  | addition _ _ _ => .panic
  | scalarMult _ _ => .panic

/-- `RandomAccessMut::get_mut` (src/traits/random_access.rs:113-116) -/
def get_mut [Target] (cfg : Cfg) (m : Mat α) (row col : Nat) : Out Loc := do
  assert_dimension row col m.layout.dim
  m.get_unchecked_mut cfg row col

/-- `RandomAccessMut::get1d_mut` (src/traits/random_access.rs:118-121) -/
def get1d_mut [Target] (cfg : Cfg) (m : Mat α) (elem : Nat) : Out Loc := do
  let n ← m.layout.number_of_elements cfg
  assert_dimension1d elem n
  m.get1d_unchecked_mut cfg elem

end Mat

/-- One round of the inner loop of `matmul_expect` (src/matrix_multiply.rs:393-394):
`*c.get_mut(i, j) += alpha * a.get(i, k) * b.get(k, j)`. The scalar type is generic, so Rust
evaluates the left operand of `+=` first. -/
def matmul_expect_add [Target] [Add α] [Mul α] (cfg : Cfg) (alpha : α) (a b c : BaseMatrix) (i j k : Nat)
    (mem : Mem α) : Out (Mem α) := do
  let p ← c.get_mut cfg i j
  let x ← a.get cfg mem i k
  let y ← b.get cfg mem k j
  let old ← mem.read p
  mem.write p (old + alpha * x * y)

/-- `matmul_expect`, the product the unit tests compare with (src/matrix_multiply.rs:364-398) -/
def matmul_expect [Target] [Add α] [Mul α] (cfg : Cfg) (alpha : α) (mat_a mat_b : BaseMatrix) (beta : α)
    (mat_c : BaseMatrix) (mem : Mem α) : Out (Mem α) :=
  let m := mat_a.layout.dim.1
  let k := mat_a.layout.dim.2
  let n := mat_b.layout.dim.2
  forRange m (fun m_index mem =>
    forRange n (fun n_index mem => do
      let p ← mat_c.get_mut cfg m_index n_index
      let old ← mem.read p
      let mem ← mem.write p (old * beta)
      forRange k (fun k_index mem =>
        matmul_expect_add cfg alpha mat_a mat_b mat_c m_index n_index k_index mem) mem) mem) mem

end Householder
