import Verif.Spec.WeakMemory

/-!
# Starting threads, waiting for them, and going on

Threads run as in `Spec/WeakMemory.lean`. Whoever waits until they have finished sees everything they
have stored. Compared with this are the same programs run one after the other, without threads.
-/

namespace Householder.Spec

variable {ι α : Type}

/-- The threads have nothing left to do. -/
def Weak.Finished (w : Weak ι α) (P : Crew ι α) : Prop :=
  ∀ k, (w.task k).cur = none ∧ P.prog k (w.task k).seen = none

/-- The memory as it is seen by someone who knew the memory before the threads started and has waited
for all of them: where a thread has stored, it shows what that thread sees there; everywhere else, what
was there before. (Of the allocations that existed before. The others are reached through the values
that the threads hand over.) -/
def Weak.Joined (w : Weak ι α) (mem J : Mem α) : Prop :=
  ∀ p : Loc, p.buf < mem.bufs.length →
    (∀ k, (k, true, p) ∈ w.past → J.get? p = (w.view k).get? p) ∧
    ((∀ k, (k, true, p) ∉ w.past) → J.get? p = mem.get? p)

/-- The programs run one after the other in the memory that the one before has left, each operation
from beginning to end: what each observes, and the memory at the end. -/
inductive OneByOne [Target] [Zero α] [One α] [Add α] [Mul α] (cfg : Cfg) (K : GemmArgs α → Steps α Unit)
    (P : Crew ι α) : List ι → Mem α → List (List (Obs α)) → Mem α → Prop
  | nil (mem : Mem α) : OneByOne cfg K P [] mem [] mem
  | cons {k : ι} {ks : List ι} {mem mem' : Mem α} {n : Nat} {x : List (Obs α) × St α}
      {seen : List (List (Obs α))} :
      alone cfg K (P.prog k) ⟨mem, P.mats k⟩ n = some x → P.prog k x.1 = none →
      OneByOne cfg K P ks x.2.mem seen mem' → OneByOne cfg K P (k :: ks) mem (x.1 :: seen) mem'

/-- What the threads have done is what their programs do one after the other, in this order: each has
observed the same, and whoever has waited for all of them sees the memory that is left in the end. -/
def AsOneByOne [Target] [Zero α] [One α] [Add α] [Mul α] (cfg : Cfg) (K : GemmArgs α → Steps α Unit)
    (P : Crew ι α) (mem : Mem α) (order : List ι) (w : Weak ι α) : Prop :=
  ∃ J, OneByOne cfg K P order mem (order.map fun k => (w.task k).seen) J ∧ w.Joined mem J

end Householder.Spec
