import Verif.Model.Constructors

/-!
# Macro arguments that are expressions with effects

A macro receives expressions, not values. The definitions of `Model/Constructors.lean` take the
value of the dimension argument; here it is an expression that may read and change the program's
state, or panic, and it is evaluated wherever the expansion mentions it.
-/

namespace Householder

variable {α : Type}

/-- A Rust expression: from the program's state to its value and the state afterwards. -/
abbrev Expression (σ β : Type) := σ → Out (β × σ)

/-- `mat![T, dim, layout]` (src/macros.rs:9-26). The expansion is
`zeros_from_dim($dim.0, $dim.1)` (lines 16 and 25): arguments are evaluated from left to right, and
`$dim` stands in both. -/
def mat_macro_expr [Target] {σ : Type} [Zero α] (cfg : Cfg) (dim : Expression σ (Nat × Nat))
    (l : MatLayoutArg) (s : σ) (mem : Mem α) : Out (BaseMatrix × σ × Mem α) := do
  let (rows, s1) ← dim s
  let (cols, s2) ← dim s1
  let (m, mem') ← match l with
    | .RowMajor => zeros_from_dim cfg .rowMajor rows.1 cols.2 mem
    | .ColumnMajor => zeros_from_dim cfg .columnMajor rows.1 cols.2 mem
  return (m, s2, mem')

/-- `rand_mat![T, dim, layout]` (src/macros.rs:34-39): the matrix is made by `mat!`, then filled.
`rand::thread_rng()` is a part of the program's state, which the dimension expression may use too. -/
def rand_mat_macro_expr [Target] {σ : Type} [Zero α] (cfg : Cfg) (dim : Expression σ (Nat × Nat))
    (l : MatLayoutArg) (draw : σ → α × σ) (s : σ) (mem : Mem α) : Out (BaseMatrix × σ × Mem α) := do
  let (m, s1, mem1) ← mat_macro_expr cfg dim l s mem
  let (s2, mem2) ← m.fill_from_rand cfg draw s1 mem1
  return (m, s2, mem2)

/-- `vector![T, len, orientation]` (src/macros.rs:47-52): `$len` stands once in the expansion. -/
def vector_macro_expr [Target] {σ : Type} [Zero α] (cfg : Cfg) (len : Expression σ Nat) (l : VecLayoutArg)
    (s : σ) (mem : Mem α) : Out (BaseMatrix × σ × Mem α) := do
  let (n, s1) ← len s
  let (m, mem') ← match l with
    | .ColumnVector => ColumnVectorD.zeros_from_length cfg n mem
    | .RowVector => RowVectorD.zeros_from_length cfg n mem
  return (m, s1, mem')

/-- `rand_vector![T, len, orientation]` (src/macros.rs:60-65) -/
def rand_vector_macro_expr [Target] {σ : Type} [Zero α] (cfg : Cfg) (len : Expression σ Nat)
    (l : VecLayoutArg) (draw : σ → α × σ) (s : σ) (mem : Mem α) :
    Out (BaseMatrix × σ × Mem α) := do
  let (m, s1, mem1) ← vector_macro_expr cfg len l s mem
  let (s2, mem2) ← m.fill_from_rand cfg draw s1 mem1
  return (m, s2, mem2)

end Householder
