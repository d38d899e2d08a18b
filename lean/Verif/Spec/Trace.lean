import Verif.Spec.Expr
import Verif.Model.Trace

/-!
# What a single pass is

"Only when the user asks for the evaluation, all operations are executed in a single pass without
creating temporaries" (src/lib.rs:16-21): the steps this promises, written down without the library's
loops and index computations.
-/

namespace Householder.Spec

variable {α : Type}

namespace Ex

/-- The steps that compute the value of the expression at one position: every matrix is read once,
there. -/
def pass (r c : Nat) : Ex α → List Event
  | leaf b => [.read (cell b r c)]
  | ref a => a.pass r c
  | add _ _ a b => a.pass r c ++ b.pass r c ++ [.plus]
  | scale _ _ _ a => a.pass r c ++ [.times]

/-- The number of `+` in the expression. -/
def sums : Ex α → Nat
  | leaf _ => 0
  | ref a => a.sums
  | add _ _ a b => a.sums + b.sums + 1
  | scale _ _ _ a => a.sums

/-- The number of `*` in the expression. -/
def scalings : Ex α → Nat
  | leaf _ => 0
  | ref a => a.scalings
  | add _ _ a b => a.scalings + b.scalings
  | scale _ _ _ a => a.scalings + 1

/-- A single pass: one allocation, for the result; then, position by position in 1D order, the value
is computed and stored. -/
def singlePass (e : Ex α) (R : BaseMatrix) : List Event :=
  .alloc R.data.buf (orderOf e.kind e.dim).length ::
    (orderOf e.kind e.dim).flatMap fun p => e.pass p.1 p.2 ++ [.write (cell R p.1 p.2)]

end Ex

/-- The cell that a step reads. -/
def readCell : Event → Option Loc
  | .read p => some p
  | _ => none

/-- The cell that a step writes. -/
def writtenCell : Event → Option Loc
  | .write p => some p
  | _ => none

/-- The number of elements that a step allocates. -/
def allocated : Event → Option Nat
  | .alloc _ n => some n
  | _ => none

/-- The cells read, in order. -/
def readsOf (log : List Event) : List Loc := log.filterMap readCell

/-- The cells written, in order. -/
def writesOf (log : List Event) : List Loc := log.filterMap writtenCell

/-- The number of elements of each allocation made, in order. -/
def allocsOf (log : List Event) : List Nat := log.filterMap allocated

end Householder.Spec
