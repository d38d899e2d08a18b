import Verif.Spec.MatMul

/-!
# What an element of a product is made of
-/

namespace Householder.Spec

variable {α : Type}

/-- Matrices that `matmul` can multiply: they lie in memory, their strides are true, their shapes match, and the
elements of `c` share no cell with each other or with those of `a` and `b`. -/
structure Factors [Target] (a b c : BaseMatrix) (mem : Mem α) : Prop where
  left : Sound a mem
  right : Sound b mem
  result : Sound c mem
  left_honest : Honest a.layout
  right_honest : Honest b.layout
  result_honest : Honest c.layout
  single : NonOverlapping c.layout
  shapes : Compatible a.layout b.layout c.layout
  apart_left : Separate c a
  apart_right : Separate c b

/-- Row `i` of `a` is row `i'` of `a'`. -/
def SameRow [Target] (cfg : Cfg) (a : BaseMatrix) (mem : Mem α) (i : Nat) (a' : BaseMatrix) (mem' : Mem α) (i' : Nat) :
    Prop :=
  a.layout.dim.2 = a'.layout.dim.2 ∧ ∀ l < a.layout.dim.2, a.get cfg mem i l = a'.get cfg mem' i' l

/-- Column `j` of `b` is column `j'` of `b'`. -/
def SameColumn [Target] (cfg : Cfg) (b : BaseMatrix) (mem : Mem α) (j : Nat) (b' : BaseMatrix) (mem' : Mem α)
    (j' : Nat) : Prop :=
  b.layout.dim.1 = b'.layout.dim.1 ∧ ∀ l < b.layout.dim.1, b.get cfg mem l j = b'.get cfg mem' l j'

end Householder.Spec
