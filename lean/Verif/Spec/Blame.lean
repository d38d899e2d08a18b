import Verif.Spec.Culprit
import Verif.Spec.Exclusive

/-!
# Where undefined behaviour comes from in programs that the borrow checker accepts
-/

namespace Householder.Spec

variable {α : Type}

/-- The product takes different places for different elements of `c`. -/
def OnePlaceEach [Target] (c : BaseMatrix) : Prop :=
  ∀ i j i' j', i < c.layout.dim.1 → j < c.layout.dim.2 → i' < c.layout.dim.1 →
    j' < c.layout.dim.2 → lookedAt c i j = lookedAt c i' j' → i = i' ∧ j = j'

/-- The kernel is called. -/
def CallsKernel (a b c : BaseMatrix) : Prop :=
  Compatible a.layout b.layout c.layout ∧ NotTriangular a.layout ∧ NotTriangular b.layout ∧
    NotTriangular c.layout

/-- What can go wrong in a product without the help of the caller's aliases: an element is looked for
outside the container, or two elements of the result at one place. -/
def Misplaced [Target] (a b c : BaseMatrix) : Prop :=
  ¬ LooksInside a ∨ ¬ LooksInside b ∨ ¬ LooksInside c ∨ ¬ OnePlaceEach c

/-- A product that is undefined although the borrow checker accepts it: its operands are misplaced, or
a part of a split is taken for another one. -/
def BadCheckedProduct [Target] (cfg : Cfg) (x : XSt α) : Op α → Prop
  | .matmul _ a b _ c => ∃ ma mb mc, x.t.st.base? a = some ma ∧ x.t.st.base? b = some mb ∧
      x.t.st.base? c = some mc ∧ matmulImpl ma mb mc = true ∧ CallsKernel ma mb mc ∧
      (Misplaced ma mb mc ∨ x.part c = true ∧
        (x.part a = true ∧ ¬ LooksApart mc ma ∨ x.part b = true ∧ ¬ LooksApart mc mb))
  | .dot a b => ∃ ma mb i mc, x.t.st.base? a = some ma ∧ x.t.st.base? b = some mb ∧
      dotImpl ma mb = some i ∧ dotResult cfg i ma mb x.t.st.mem.bufs.length = some mc ∧
      CallsKernel ma mb mc ∧ Misplaced ma mb mc
  | _ => False

/-- The operation is to blame in a program that the borrow checker accepts. -/
def Blamed [Target] (cfg : Cfg) (x : XSt α) (op : Op α) : Prop :=
  LeavesContainer (accesses cfg x.t.st op) ∨ BadCheckedProduct cfg x op

end Householder.Spec
