import Verif.Spec.WeakMemory

/-!
# Which threads race

Whether two threads can ever be in a race can be told without looking at any interleaving: from what
each of them does when it runs alone.
-/

namespace Householder.Spec

variable {ι α : Type} [Target] [Zero α] [One α] [Add α] [Mul α]

/-- Thread `k`, running alone, at some time makes this access: whether it writes, and where. -/
def Accesses (cfg : Cfg) (K : GemmArgs α → Steps α Unit) (P : Crew ι α) (mem : Mem α) (k : ι)
    (a : Bool × Loc) : Prop :=
  ∃ n x op, alone cfg K (P.prog k) ⟨mem, P.mats k⟩ n = some x ∧ P.prog k x.1 = some op ∧
    a ∈ (op.steps cfg K x.2.mats).accesses x.2.mem

/-- One thread, alone, writes to a place of the given memory, and another, alone, reads or writes it. -/
def Conflict (cfg : Cfg) (K : GemmArgs α → Steps α Unit) (P : Crew ι α) (mem : Mem α) : Prop :=
  ∃ k l w p, k ≠ l ∧ p.buf < mem.bufs.length ∧ Accesses cfg K P mem k (true, p) ∧
    Accesses cfg K P mem l (w, p)

/-- The accesses that a thread makes in its first `n` operations, running alone. -/
def accessesOf (cfg : Cfg) (K : GemmArgs α → Steps α Unit) (P : Crew ι α) (mem : Mem α) (k : ι) :
    Nat → List (Bool × Loc)
  | 0 => []
  | n + 1 => accessesOf cfg K P mem k n ++
      match alone cfg K (P.prog k) ⟨mem, P.mats k⟩ n with
      | some x => match P.prog k x.1 with
        | some op => (op.steps cfg K x.2.mats).accesses x.2.mem
        | none => []
      | none => []

end Householder.Spec
