import Verif.Spec.Views
import Verif.Model.Guards

/-!
# What a program that holds views of views starts with
-/

namespace Householder.Spec

open Borrow

/-- The program starts with a reference `p` to the cells of `m` that may be used for writing, in
Stacked Borrows. The tags were given in the order in which the references were made. Only `p` may
be protected, if it is a parameter of the function that is running (`arg`). -/
structure GStackReady (p : Nat) (m : BaseMatrix) (arg : Bool) (g : GStacks) : Prop where
  tag : p < g.cells.next
  fresh : ∀ x, ∀ e ∈ g.cells.stack x, e.tag < g.cells.next
  ordered : ∀ x, (g.cells.stack x).Pairwise fun e f => f.tag < e.tag
  granted : ∀ x, (windowOf m).Has x → ∃ e ∈ g.cells.stack x, e.Grants true p
  prot : ∀ r ∈ g.prot, arg = true ∧ r = p

/-- The same in Tree Borrows. -/
structure GTreeReady (p : Nat) (m : BaseMatrix) (arg : Bool) (T : GTree) : Prop where
  tag : p < T.next ∧ p ∈ T.path p
  fresh : ∀ r, r < T.next → ∀ q ∈ T.path r, q < T.next
  writable : ∀ x, (windowOf m).Has x → ∀ r ∈ T.path p,
    T.perm r x = .reserved ∨ T.perm r x = .active
  prot : ∀ r ∈ T.prot, arg = true ∧ r = p

/-- The block has a row and a column, and its lower right corner does not exceed `usize::MAX`, or
the build checks that. (Empty blocks and wrapped corners are the subject of C27 and C77.) -/
def BlockTame [Target] (cfg : Cfg) (tl d : Nat × Nat) : Prop :=
  1 ≤ d.1 ∧ 1 ≤ d.2 ∧ (cfg.overflowChecks = true ∨ (tl.1 + d.1 < W ∧ tl.2 + d.2 < W))

/-- The blocks that a deed makes are as `BlockTame` says. -/
def Tame [Target] (cfg : Cfg) : Deed → Prop
  | .blockMut tl d => BlockTame cfg tl d
  | .block tl d => BlockTame cfg tl d
  | .blockOf _ tl d => BlockTame cfg tl d
  | _ => True

instance [Target] (cfg : Cfg) (tl d : Nat × Nat) : Decidable (BlockTame cfg tl d) := by
  unfold BlockTame; infer_instance

instance [Target] (cfg : Cfg) (d : Deed) : Decidable (Tame cfg d) := by
  cases d <;> simp only [Tame] <;> infer_instance

end Householder.Spec
