import Verif.Spec.Matrix

/-!
# Histories of element operations on one matrix

The operations, their abstract meaning on a plain two-dimensional array, and their execution
by the modelled code.
-/

namespace Householder.Spec

variable {α : Type}

/-- What a program may do with the elements of one matrix. -/
inductive ArrOp (α : Type) where
  /-- `m.get(r, c)` -/
  | get (r c : Nat)
  /-- `m.get1d(k)` -/
  | get1d (k : Nat)
  /-- `*m.get_mut(r, c) = v` -/
  | set (r c : Nat) (v : α)
  /-- `*m.get1d_mut(k) = v` -/
  | set1d (k : Nat) (v : α)
  /-- `let x = m.get_mut(r, c); *x = f(*x)`, such as `*m.get_mut(r, c) += 1` -/
  | update (r c : Nat) (f : α → α)
  /-- `let x = m.get1d_mut(k); *x = f(*x)` -/
  | update1d (k : Nat) (f : α → α)

/-- What the program observes. -/
inductive Resp (α : Type) where
  | value (v : α)
  | done
  | panicked
  deriving DecidableEq, Repr

/-- An abstract two-dimensional array. -/
abbrev Arr (α : Type) := Nat → Nat → α

/-- Changing one element. -/
def Arr.put (A : Arr α) (r c : Nat) (v : α) : Arr α :=
  fun r' c' => if r' = r ∧ c' = c then v else A r' c'

/-- One operation on an abstract array whose positions are listed by `ps` in logical order. -/
def Arr.step (ps : List (Nat × Nat)) (A : Arr α) : ArrOp α → Resp α × Arr α
  | .get r c => if (r, c) ∈ ps then (.value (A r c), A) else (.panicked, A)
  | .get1d k => match ps[k]? with
    | some (r, c) => (.value (A r c), A)
    | none => (.panicked, A)
  | .set r c v => if (r, c) ∈ ps then (.done, A.put r c v) else (.panicked, A)
  | .set1d k v => match ps[k]? with
    | some (r, c) => (.done, A.put r c v)
    | none => (.panicked, A)
  | .update r c f => if (r, c) ∈ ps then (.done, A.put r c (f (A r c))) else (.panicked, A)
  | .update1d k f => match ps[k]? with
    | some (r, c) => (.done, A.put r c (f (A r c)))
    | none => (.panicked, A)

/-- A history on an abstract array: the responses and the final array. -/
def Arr.run (ps : List (Nat × Nat)) : Arr α → List (ArrOp α) → List (Resp α) × Arr α
  | A, [] => ([], A)
  | A, op :: ops =>
    let x := A.step ps op
    let y := Arr.run ps x.2 ops
    (x.1 :: y.1, y.2)

/-- The same operation on a matrix in memory. -/
def exec [Target] (cfg : Cfg) (m : BaseMatrix) (mem : Mem α) : ArrOp α → Out (Resp α × Mem α)
  | .get r c => do
      let v ← m.get cfg mem r c
      return (.value v, mem)
  | .get1d k => do
      let v ← m.get1d cfg mem k
      return (.value v, mem)
  | .set r c v => do
      let mem' ← m.set cfg mem r c v
      return (.done, mem')
  | .set1d k v => do
      let mem' ← m.set1d cfg mem k v
      return (.done, mem')
  | .update r c f => do
      let p ← m.get_mut cfg r c
      let v ← mem.read p
      let mem' ← mem.write p (f v)
      return (.done, mem')
  | .update1d k f => do
      let p ← m.get1d_mut cfg k
      let v ← mem.read p
      let mem' ← mem.write p (f v)
      return (.done, mem')

/-- One step of a program that catches panics and continues; undefined behaviour has no
continuation. -/
def step [Target] (cfg : Cfg) (m : BaseMatrix) (mem : Mem α) (op : ArrOp α) : Option (Resp α × Mem α) :=
  match exec cfg m mem op with
  | .ok x => some x
  | .panic => some (.panicked, mem)
  | .ub => none

/-- A history on a matrix in memory. -/
def run [Target] (cfg : Cfg) (m : BaseMatrix) : Mem α → List (ArrOp α) → Option (List (Resp α) × Mem α)
  | mem, [] => some ([], mem)
  | mem, op :: ops => do
    let x ← step cfg m mem op
    let y ← run cfg m x.2 ops
    return (x.1 :: y.1, y.2)

/-- A history of operations on several matrices. -/
def runOn [Target] (cfg : Cfg) : Mem α → List (BaseMatrix × ArrOp α) → Option (List (Resp α) × Mem α)
  | mem, [] => some ([], mem)
  | mem, (m, op) :: ops => do
    let x ← step cfg m mem op
    let y ← runOn cfg x.2 ops
    return (x.1 :: y.1, y.2)

end Householder.Spec
