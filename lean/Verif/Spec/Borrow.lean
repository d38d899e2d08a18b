import Verif.Spec.Views
import Verif.Model.Borrow

/-!
# Programs that use views, for the aliasing models
-/

namespace Householder.Spec

open Borrow

/-- The pointer `p` of the container of `m` is what a program gets from `get_pointer_mut`: it may
write to all cells of the container, and no other reference has been made from it since. -/
structure StackReady (p : Nat) (m : BaseMatrix) (s : Stacks) : Prop where
  tag : p < s.next
  fresh : ∀ x, ∀ e ∈ s.stack x, e.tag < s.next
  top : ∀ x, (windowOf m).Has x → ∃ e rest, s.stack x = e :: rest ∧ e.Grants true p

/-- The same for Tree Borrows. -/
structure TreeReady (p : Nat) (m : BaseMatrix) (T : Tree) : Prop where
  tag : p < T.next
  fresh : ∀ r ∈ T.path p, r < T.next
  writable : ∀ x, (windowOf m).Has x → ∀ r ∈ T.path p,
    T.perm r x ≠ .disabled ∧ T.perm r x ≠ .frozen

/-- The slices of the four views. -/
def quadWindows (q : BaseMatrix × BaseMatrix × BaseMatrix × BaseMatrix) : List Window :=
  [windowOf (quad q 0), windowOf (quad q 1), windowOf (quad q 2), windowOf (quad q 3)]

/-- The cell that `get_mut(i, j)` of a matrix refers to. -/
def cellOf [Target] (cfg : Cfg) (b : BaseMatrix) (i j : Nat) : Nat :=
  match b.get_mut cfg i j with
  | .ok l => l.idx
  | _ => 0

/-- A use of one of the four views, as the aliasing models see it. -/
def toUse [Target] (cfg : Cfg) (q : BaseMatrix × BaseMatrix × BaseMatrix × BaseMatrix) (u : QuadUse) :
    Use :=
  ⟨u.k, cellOf cfg (quad q u.k) u.i u.j, u.write⟩

/-- The use is inside the view, for a split of an `R × C` matrix at `s`. -/
def QuadUse.InRange (R C : Nat) (s : Nat × Nat) (u : QuadUse) : Prop :=
  u.i < (shape R C s u.k).1 ∧ u.j < (shape R C s u.k).2

instance (R C : Nat) (s : Nat × Nat) (u : QuadUse) : Decidable (QuadUse.InRange R C s u) := by
  unfold QuadUse.InRange; infer_instance

/-- `u` writes to a row that lies within the stretch from the first to the last element of the
neighbouring view that `v` uses. -/
def Disturbs (R : Nat) (s : Nat × Nat) (u v : QuadUse) : Prop :=
  u.write = true ∧
    ((u.k = 0 ∧ v.k = 1 ∧ 1 ≤ u.i) ∨ (u.k = 1 ∧ v.k = 0 ∧ u.i + 1 < s.1) ∨
     (u.k = 2 ∧ v.k = 3 ∧ 1 ≤ u.i) ∨ (u.k = 3 ∧ v.k = 2 ∧ u.i + 1 < R - s.1))

/-- The matrix itself, or a non-empty block of it. -/
def PartOf [Target] (cfg : Cfg) (m b : BaseMatrix) : Prop :=
  b = m ∨ ∃ tl d, Fits m.layout tl d ∧ 1 ≤ d.1 ∧ 1 ≤ d.2 ∧ m.block cfg tl d = .ok b

/-- The phases of a program that uses the matrix `m` through its own accessors and through blocks
of it, as far as the borrow checker allows it: one mutable view at a time, or several shared
ones. -/
inductive Describes [Target] (cfg : Cfg) (m : BaseMatrix) : Phase → Prop
  /-- `let mut b = m.block_mut(..)` (or `m` itself) and accesses to its elements -/
  | exclusive (b : BaseMatrix) (us : List (Nat × Nat × Bool)) : PartOf cfg m b →
      (∀ u ∈ us, u.1 < b.layout.dim.1 ∧ u.2.1 < b.layout.dim.2) →
      Describes cfg m (.exclusive (windowOf b) (us.map fun u => (cellOf cfg b u.1 u.2.1, u.2.2)))
  /-- several `let b = m.block(..)` (or `m` itself), and reads of their elements -/
  | shared (bs : List BaseMatrix) (us : List (Nat × Nat)) : (∀ b ∈ bs, PartOf cfg m b) →
      (∀ u ∈ us, ∃ b i j, bs[u.1]? = some b ∧ i < b.layout.dim.1 ∧ j < b.layout.dim.2 ∧
        u.2 = cellOf cfg b i j) →
      Describes cfg m (.shared (bs.map windowOf) us)

end Householder.Spec
