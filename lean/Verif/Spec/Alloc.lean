import Verif.Spec.Histories

/-!
# Which operations allocate, which write, which create values

According to the documentation: views, references and expressions are lazy and share the storage of
their operands; constructors, `eval` and `dot` make one new matrix with storage of its own.
-/

namespace Householder.Spec

variable {α : Type}

/-- The operation makes a matrix with its own storage. -/
def Op.owns : Op α → Bool
  | .zeros .. | .rowZeros _ | .rowZerosDim .. | .colZeros _ | .colZerosDim .. | .fixedZeros ..
  | .fixedVector .. | .fromSlice .. | .fromVector .. | .eval _ | .dot .. => true
  | _ => false

/-- The number of values that the operation makes when it succeeds. -/
def Op.creates : Op α → Nat
  | .block .. | .ref _ | .add .. | .scale .. => 1
  | .split .. => 4
  | op => if op.owns then 1 else 0

/-- The matrix that the operation may write to. -/
def Op.writesTo : Op α → Option Nat
  | .element h (.set ..) | .element h (.set1d ..) | .element h (.update ..)
  | .element h (.update1d ..) | .forEach h _ | .fillRand h _ | .writeSlice h _ _ _ => some h
  | .matmul _ _ _ _ c => some c
  | _ => none

/-- The number of allocations an operation makes, by what the program observes. -/
def Op.allocations (op : Op α) : Obs α → Nat
  | .panicked => 0
  | _ => if op.owns then 1 else 0

/-- The number of values an operation makes, by what the program observes. -/
def Op.created (op : Op α) : Obs α → Nat
  | .panicked => 0
  | _ => op.creates

end Householder.Spec
