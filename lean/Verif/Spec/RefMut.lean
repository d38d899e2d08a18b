import Verif.Spec.Array
import Verif.Model.RefMut

/-!
# Histories through references
-/

namespace Householder.Spec

variable {α : Type}

/-- A matrix behind `n` references: `Matrix::new(MatrixRefMut::new(&mut ...))`, `n` times. -/
def behindRefs : Nat → BaseMatrix → Mat α
  | 0, b => .base b
  | n + 1, b => (behindRefs n b).from_ref_mut

/-- An element operation through a `Matrix` value. -/
def execRef [Target] [Add α] [Mul α] (cfg : Cfg) (m : Mat α) (mem : Mem α) : ArrOp α → Out (Resp α × Mem α)
  | .get r c => do
      let v ← m.get cfg mem r c
      return (.value v, mem)
  | .get1d k => do
      let v ← m.get1d cfg mem k
      return (.value v, mem)
  | .set r c v => do
      let p ← m.get_mut cfg r c
      let mem' ← mem.write p v
      return (.done, mem')
  | .set1d k v => do
      let p ← m.get1d_mut cfg k
      let mem' ← mem.write p v
      return (.done, mem')
  | .update r c f => do
      let p ← m.get_mut cfg r c
      let v ← mem.read p
      let mem' ← mem.write p (f v)
      return (.done, mem')
  | .update1d k f => do
      let p ← m.get1d_mut cfg k
      let v ← mem.read p
      let mem' ← mem.write p (f v)
      return (.done, mem')

/-- One step of a program that catches panics and continues. -/
def stepRef [Target] [Add α] [Mul α] (cfg : Cfg) (m : Mat α) (mem : Mem α) (op : ArrOp α) :
    Option (Resp α × Mem α) :=
  match execRef cfg m mem op with
  | .ok x => some x
  | .panic => some (.panicked, mem)
  | .ub => none

/-- A history on the matrix `b`, every operation through its own number of references. -/
def runRefs [Target] [Add α] [Mul α] (cfg : Cfg) (b : BaseMatrix) :
    Mem α → List (Nat × ArrOp α) → Option (List (Resp α) × Mem α)
  | mem, [] => some ([], mem)
  | mem, (n, op) :: ops => do
    let x ← stepRef cfg (behindRefs n b) mem op
    let y ← runRefs cfg b x.2 ops
    return (x.1 :: y.1, y.2)


end Householder.Spec
