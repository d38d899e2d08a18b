import Verif.Spec.Layout
import Verif.Model.Matrix

/-!
# What a matrix in memory should mean

Independent of the access functions: which memory cell is element `(r, c)` of a matrix, when a
matrix lies inside its memory, and the abstract contents of a matrix.
-/

namespace Householder.Spec

variable {α : Type}

/-- The memory cell of element `(r, c)`. -/
def cell (m : BaseMatrix) (r c : Nat) : Loc := ⟨m.data.buf, m.data.off + raw m.layout r c⟩

/-- The value of element `(r, c)`. -/
def elem (m : BaseMatrix) (mem : Mem α) (r c : Nat) : Option α := mem.get? (cell m r c)

/-- The container's window exists in memory and has a size a Rust allocation can have: at most
`isize::MAX` bytes of at least 4 bytes per element. -/
structure ContainerOK [Target] (d : Container) (mem : Mem α) : Prop where
  window : d.off + d.len ≤ mem.size d.buf
  small : d.len * 4 ≤ isizeMax

/-- All elements of the matrix lie inside its container, and the container inside memory. -/
structure Sound [Target] (m : BaseMatrix) (mem : Mem α) : Prop where
  container : ContainerOK m.data mem
  inside : ∀ r c, Stored m.layout r c → raw m.layout r c < m.data.len
  count_le : count m.layout ≤ m.data.len

/-- Two matrices have no cell in common. -/
def Separate (m m' : BaseMatrix) : Prop :=
  ∀ r c r' c', Stored m.layout r c → Stored m'.layout r' c' → cell m r c ≠ cell m' r' c'

/-- Everything that was in memory is still there, unchanged. -/
def Extends (mem mem' : Mem α) : Prop :=
  mem.bufs.length ≤ mem'.bufs.length ∧
  ∀ q : Loc, q.buf < mem.bufs.length → mem'.get? q = mem.get? q

/-- The matrix lives in storage that did not exist in `mem`. -/
def Fresh (m : BaseMatrix) (mem : Mem α) : Prop := mem.bufs.length ≤ m.data.buf

end Householder.Spec
