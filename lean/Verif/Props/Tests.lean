import Lean.Elab.Tactic.Basic
import Verif.Props.RefMut
import Verif.Props.Machine

/-!
# Property C63: the crate's tests and documented examples

Every unit test of the crate (except the comparisons of matrix products up to rounding, for which
see C62) and every example of src/examples.rs, as a statement about the model: in both build
modes, for all four scalar types, and for arbitrary scalars in place of the literals and arbitrary
random numbers.
-/

namespace Householder.Props

open Spec

variable {α : Type}

open Lean Elab Tactic Meta in
/-- Proves `a = b` by `Eq.refl a`, leaving the comparison to Lean's kernel. (The elaborator's `rfl`
does the same but is slow on long computations. A wrong equation is rejected by the kernel.) -/
elab "kernel_rfl" : tactic => do
  let g ← getMainGoal
  let some (_, a, _) := (← instantiateMVars (← g.getType)).consumeMData.eq? | throwError "not an equation"
  g.assign (← mkEqRefl a)

/-- The observations of a program. -/
def observes [Target] [Zero α] [One α] [Add α] [Mul α] (cfg : Cfg) (kern : Kern α) (ops : List (Op α)) :
    Option (List (Obs α)) :=
  (runProgram cfg kern St.init ops).map (·.1)

/-! ## Unit tests -/

/-- `test_upper_triangular_indexing` (src/layouts/upper_triangular.rs:92-112) -/
theorem C63_upper_triangular_indexing [t : Target] (cfg : Cfg) :
    (UpperTriangular.mk 5).convert_2d_1d cfg 4 4 = .ok 0 ∧
    (UpperTriangular.mk 5).convert_2d_1d cfg 3 4 = .ok 2 ∧
    (UpperTriangular.mk 5).convert_1d_2d cfg 0 = .ok (4, 4) ∧
    (UpperTriangular.mk 5).convert_1d_2d cfg 2 = .ok (3, 4) ∧
    (UpperTriangular.mk 5).convert_1d_2d cfg (5 * (5 + 1) / 2 - 1) = .ok (0, 4) := by
  obtain ⟨w⟩ := t
  cases w <;> refine ⟨?_, ?_, ?_, ?_, ?_⟩ <;> kernel_rfl

theorem small_item [Target] (cfg : Cfg) {n : Nat} (h : n ≤ 1000) : n * cfg.item.size ≤ isizeMax := by
  have : cfg.item.size ≤ 16 := by cases cfg.item <;> decide
  have := Nat.mul_le_mul h this
  have := isizeMax_ge
  omega

/-- `create_row_major_matrix`, `create_random_matrix`, `create_column_vector`, `create_row_vector`,
`create_random_vector` (src/macros.rs:71-109), in any memory -/
theorem C63_macros [Target] [Zero α] {ρ : Type} (cfg : Cfg) (d : Sampler ρ α) (rng : ρ) (mem : Mem α) :
    (∃ x, mat_macro cfg (2, 3) mem = .ok x ∧ (Mat.base (α := α) x.1).dim = (2, 3)) ∧
    (∃ x, rand_mat_macro cfg (2, 3) (random_scalar_real d) rng mem = .ok x ∧
      (Mat.base (α := α) x.1).dim = (2, 3)) ∧
    (∃ x, vector_macro cfg 5 mem = .ok x ∧ (Mat.base (α := α) x.1).dim = (5, 1)) ∧
    (∃ x, vector_macro_layout cfg 5 .RowVector mem = .ok x ∧
      (Mat.base (α := α) x.1).dim = (1, 5)) ∧
    (∃ x, rand_vector_macro cfg 5 (random_scalar_real d) rng mem = .ok x ∧
      (Mat.base (α := α) x.1).dim = (5, 1)) := by
  refine ⟨?_, ?_, ?_, ?_, ?_⟩
  · obtain ⟨m, mem', h, -, -, hl⟩ := ((C52_macros cfg mem).1 (2, 3) (small_item cfg (by decide))).1
    exact ⟨_, h, by simp [Mat.dim, Mat.layout, hl, Layout.dim]⟩
  · obtain ⟨m, mem', h, -, hl⟩ :=
      ((C52_random_macros cfg mem d rng).1 (2, 3) (small_item cfg (by decide))).1
    exact ⟨_, h, by simp [Mat.dim, Mat.layout, hl.1, Layout.dim]⟩
  · obtain ⟨m, mem', h, -, -, hl⟩ := ((C52_macros cfg mem).2 5 (small_item cfg (by decide))).1
    exact ⟨_, h, by simp [Mat.dim, Mat.layout, hl, Layout.dim]⟩
  · obtain ⟨m, mem', h, -, hl⟩ := ((C52_macros cfg mem).2 5 (small_item cfg (by decide))).2
    exact ⟨_, h, by simp [Mat.dim, Mat.layout, hl, Layout.dim]⟩
  · obtain ⟨m, mem', h, -, hl⟩ :=
      ((C52_random_macros cfg mem d rng).2 5 (small_item cfg (by decide))).1
    exact ⟨_, h, by simp [Mat.dim, Mat.layout, hl.1, Layout.dim]⟩

/-- `scalar_mult` (src/scalar_mult.rs:183-193) -/
theorem C63_scalar_mult [t : Target] [Zero α] [One α] [Add α] [Mul α] (cfg : Cfg) (kern : Kern α) (v s : α) :
    observes cfg kern [.zeros .rowMajor 2 3, .element 0 (.set 1 2 v), .scale true false s 0, .eval 1,
      .get 2 1 2] = some [.done, .done, .done, .done, .value (s * v)] := by
  obtain ⟨w⟩ := t
  obtain ⟨o, i⟩ := cfg
  cases w <;> cases i <;> kernel_rfl

/-- `scalar_mult` (src/addition.rs:233-245) -/
theorem C63_addition [t : Target] [Zero α] [One α] [Add α] [Mul α] (cfg : Cfg) (kern : Kern α) (v w s : α) :
    observes cfg kern [.zeros .rowMajor 2 3, .zeros .rowMajor 2 3, .element 0 (.set 1 2 v),
      .element 1 (.set 1 2 w), .scale true false s 0, .add false false 2 1, .eval 3, .get 4 1 2] =
    some [.done, .done, .done, .done, .done, .done, .done, .value (s * v + w)] := by
  obtain ⟨w⟩ := t
  obtain ⟨o, i⟩ := cfg
  cases w <;> cases i <;> kernel_rfl

/-- `test_simple_slice` (src/matrix/matrix_slices.rs:170-179) -/
theorem C63_simple_slice [t : Target] [Zero α] [One α] [Add α] [Mul α] (cfg : Cfg) (kern : Kern α) (v : α) :
    observes cfg kern [.zeros .rowMajor 3 4, .element 0 (.set 1 2 v), .block 0 (0, 1) (2, 2),
      .get 1 1 1, .get1d 1 3] = some [.done, .done, .done, .value v, .value v] := by
  obtain ⟨w⟩ := t
  obtain ⟨o, i⟩ := cfg
  cases w <;> cases i <;> kernel_rfl

/-- `test_double_slice` (src/matrix/matrix_slices.rs:181-191) -/
theorem C63_double_slice [t : Target] [Zero α] [One α] [Add α] [Mul α] (cfg : Cfg) (kern : Kern α) (v : α) :
    observes cfg kern [.zeros .rowMajor 3 4, .element 0 (.set 1 2 v), .block 0 (0, 1) (3, 3),
      .block 1 (1, 0) (2, 2), .get 1 1 1, .get 2 0 1] =
    some [.done, .done, .done, .done, .value v, .value v] := by
  obtain ⟨w⟩ := t
  obtain ⟨o, i⟩ := cfg
  cases w <;> cases i <;> kernel_rfl

/-- The test passes although nested blocks are wrong (C28): had it looked at the second row of the
inner block, `assert_eq!(slice2.get(1, 1), mat.get(2, 2))`, it would have failed. -/
theorem C63_double_slice_missed [t : Target] [Zero α] [One α] [Add α] [Mul α] (cfg : Cfg) (kern : Kern α) (v w : α) :
    observes cfg kern [.zeros .rowMajor 3 4, .element 0 (.set 2 2 v), .element 0 (.set 2 1 w),
      .block 0 (0, 1) (3, 3), .block 1 (1, 0) (2, 2), .get 2 1 1, .get 0 2 2, .get 2 1 0, .get 0 2 1,
      .get 0 2 0] =
    some [.done, .done, .done, .done, .done, .value w, .value v, .value 0, .value w, .value 0] := by
  obtain ⟨w⟩ := t
  obtain ⟨o, i⟩ := cfg
  cases w <;> cases i <;> kernel_rfl

/-- `test_disjoint_slices` (src/matrix/matrix_slices.rs:193-205); also an example of
src/examples.rs:120-132 -/
theorem C63_disjoint_slices [t : Target] [Zero α] [One α] [Add α] [Mul α] (cfg : Cfg) (kern : Kern α)
    (draw : Nat → α) (a b c d : α) :
    observes cfg kern [.zeros .rowMajor 10 10, .fillRand 0 draw, .split 0 (5, 5),
      .element 1 (.set 1 0 a), .element 2 (.set 3 4 b), .element 3 (.set 2 1 c),
      .element 4 (.set 4 2 d), .get 0 1 0, .get 0 3 9, .get 0 7 1, .get 0 9 7] =
    some [.done, .done, .done, .done, .done, .done, .done, .value a, .value b, .value c,
      .value d] := by
  obtain ⟨w⟩ := t
  obtain ⟨o, i⟩ := cfg
  cases w <;> cases i <;> kernel_rfl

/-! ## Documented examples (src/examples.rs) -/

/-- src/examples.rs:8-36: the constructors run -/
theorem C63_example_constructors [t : Target] [Zero α] [One α] [Add α] [Mul α] (cfg : Cfg) (kern : Kern α)
    (draw : Nat → α) :
    observes cfg kern [.zeros .rowMajor 3 5, .zeros .columnMajor 3 5, .colZeros 5, .rowZeros 5,
      .zeros .rowMajor 3 5, .fillRand 4 draw] =
    some [.done, .done, .done, .done, .done, .done] := by
  obtain ⟨w⟩ := t
  obtain ⟨o, i⟩ := cfg
  cases w <;> cases i <;> kernel_rfl

/-- src/examples.rs:35-42: `rand_mat!` is `mat!` followed by `fill_from_rand_standard_normal`, for
every shape, generator and memory -/
theorem C63_example_rand_mat [Target] [Zero α] {ρ : Type} (cfg : Cfg) (dim : Nat × Nat) (draw : ρ → α × ρ)
    (rng : ρ) (mem : Mem α) :
    rand_mat_macro cfg dim draw rng mem = (do
      let x ← mat_macro cfg dim mem
      let y ← x.1.fill_from_rand cfg draw rng x.2
      return (x.1, y.1, y.2)) := rfl

/-- src/examples.rs:47-52, 57-61, 63-67: checked access, and the two examples that must panic -/
theorem C63_example_access [t : Target] [Zero α] [One α] [Add α] [Mul α] (cfg : Cfg) (kern : Kern α) (v : α) :
    observes cfg kern [.zeros .rowMajor 3 5, .element 0 (.set 2 3 v), .get 0 2 3,
      .element 0 (.set 3 5 v), .get 0 3 5] =
    some [.done, .done, .value v, .panicked, .panicked] := by
  obtain ⟨w⟩ := t
  obtain ⟨o, i⟩ := cfg
  cases w <;> cases i <;> kernel_rfl

/-- src/examples.rs:70-77: unchecked access -/
theorem C63_example_unchecked [t : Target] [Zero α] (cfg : Cfg) (v : α) :
    (do
      let x ← mat_macro cfg (3, 5) (⟨[]⟩ : Mem α)
      let p ← x.1.get_unchecked_mut cfg 2 3
      let mem ← x.2.write p v
      x.1.get_unchecked cfg mem 2 3) = .ok v := by
  obtain ⟨w⟩ := t
  obtain ⟨o, i⟩ := cfg
  cases w <;> cases i <;> kernel_rfl

/-- src/examples.rs:81-87: `(s * &mat1 + &mat2).eval()` -/
theorem C63_example_sum [t : Target] [Zero α] [One α] [Add α] [Mul α] (cfg : Cfg) (kern : Kern α) (s : α)
    (draw1 draw2 : Nat → α) :
    observes cfg kern [.zeros .rowMajor 3 5, .fillRand 0 draw1, .zeros .rowMajor 3 5,
      .fillRand 1 draw2, .scale true true s 0, .add false true 2 1, .eval 3, .get 4 2 4, .get 0 2 4,
      .get 1 2 4] =
    some [.done, .done, .done, .done, .done, .done, .done, .value (s * draw1 14 + draw2 14),
      .value (draw1 14), .value (draw2 14)] := by
  obtain ⟨w⟩ := t
  obtain ⟨o, i⟩ := cfg
  cases w <;> cases i <;> kernel_rfl

/-- src/examples.rs:98-105: matrix times column vector and row vector times matrix, with the
elements the products should have -/
theorem C63_example_dot [t : Target] [Zero α] [One α] [Add α] [Mul α] (cfg : Cfg) (draw1 draw2 draw3 : Nat → α)
    (kern : Kern α) :
    observes cfg kern [.zeros .rowMajor 3 5, .fillRand 0 draw1, .colZeros 5, .fillRand 1 draw2,
      .rowZeros 3, .fillRand 2 draw3, .dot 0 1, .dot 2 0, .get 3 1 0, .get 4 0 3] =
    some [.done, .done, .done, .done, .done, .done, .done, .done,
      .value (kern ⟨3, 1, 1, 0⟩ 1 [(draw1 5, draw2 0), (draw1 6, draw2 1), (draw1 7, draw2 2), (draw1 8, draw2 3),
        (draw1 9, draw2 4)] 0 0),
      .value (kern ⟨1, 5, 0, 3⟩ 1 [(draw3 0, draw1 3), (draw3 1, draw1 8), (draw3 2, draw1 13)] 0 0)] := by
  obtain ⟨w⟩ := t
  obtain ⟨o, i⟩ := cfg
  cases w <;> cases i <;> kernel_rfl

/-- src/examples.rs:109-114: a block of a matrix -/
theorem C63_example_block [t : Target] [Zero α] [One α] [Add α] [Mul α] (cfg : Cfg) (kern : Kern α)
    (draw : Nat → α) :
    observes cfg kern [.zeros .rowMajor 10 10, .fillRand 0 draw, .block 0 (2, 2) (3, 5), .get 1 2 4,
      .get 0 4 6] =
    some [.done, .done, .done, .value (draw 46), .value (draw 46)] := by
  obtain ⟨w⟩ := t
  obtain ⟨o, i⟩ := cfg
  cases w <;> cases i <;> kernel_rfl

end Householder.Props
