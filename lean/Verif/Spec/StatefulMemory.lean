import Verif.Spec.StatefulAny
import Verif.Model.StatefulMemory

/-!
# What code over implementations that share the memory reaches for

As `Spec/StatefulAny.lean`; a state of the implementations is now a state and a memory, and what
exists is asked of the memory of that moment.
-/

namespace Householder.Spec

variable {S α σ V D X : Type}

/-- Whether the memory has the place. -/
def HasPlace (mem : Mem α) (p : Loc) : Prop := p.idx < mem.size p.buf

instance (mem : Mem α) (p : Loc) : Decidable (HasPlace mem p) := by unfold HasPlace; infer_instance

/-- An element is used: its place is asked for and read, the callable called, and the place written.
It has to exist before and after the call. The value of the loop is kept beside the state. -/
def useHere (place : Act (S × Mem α) Loc) (f : σ → α → Act (S × Mem α) (σ × α)) :
    Act ((S × Mem α) × σ) Unit := fun y =>
  match place y.1 with
  | .ok (p, w) => match w.2.get? p with
    | some v => match f y.2 v w with
      | .ok ((x, v'), s, mem) =>
        if HasPlace mem p then .ok ((), (s, ⟨mem.bufs.modify p.buf (·.set p.idx v')⟩), x) else .ub
      | .panic => .panic
      | .ub => .ub
    | none => .ub
  | .panic => .panic
  | .ub => .ub

/-- Element number `i` of an expression is read and written to the raw index that the new layout
gives, in allocation `q` of `n` cells, which has to exist at that moment. -/
def copiedHere [Add α] [Mul α] (A : Acts (S × Mem α) α V D X) (m : AnyMat α V D X) (l : V)
    (q n i : Nat) : Act (S × Mem α) Unit := fun w =>
  match A.get1d_unchecked ⟨[]⟩ i m w with
  | .ok (v, w1) => match A.lay.convert_1d_raw l i w1 with
    | .ok (k, s, mem) =>
      if k < n ∧ HasPlace mem ⟨q, k⟩ then .ok ((), s, ⟨mem.bufs.modify q (·.set k v)⟩) else .ub
    | .panic => .panic
    | .ub => .ub
  | .panic => .panic
  | .ub => .ub

/-- Evaluation is undefined. The calls are listed in their order, as in `EvalFaulty`. The storage is
a new allocation of the memory that the calls before have left. -/
def EvalFaultyHere [Target] [Zero α] [Add α] [Mul α] (A : Acts (S × Mem α) α V D X) (kind : V)
    (cfg : Cfg) (m : AnyMat α V D X) (w : S × Mem α) : Prop :=
  askDim A m w = .ub ∨ ∃ d w1, askDim A m w = .ok (d, w1) ∧
    (askNew A kind d w1 = .ub ∨ ∃ l n s2 mem, askNew A kind d w1 = .ok ((l, n), s2, mem) ∧
      n * cfg.item.size ≤ isizeMax ∧
      (askNew A kind d (s2, ⟨mem.bufs ++ [List.replicate n 0]⟩) = .ub ∨
       ∃ l' n' w3, askNew A kind d (s2, ⟨mem.bufs ++ [List.replicate n 0]⟩) = .ok ((l', n'), w3) ∧
        if n' ≤ n then
          askNumber A m w3 = .ub ∨ ∃ k w4, askNumber A m w3 = .ok (k, w4) ∧
            FaultyRun ((List.range k).map (copiedHere A m l' mem.bufs.length n)) w4
        else A.lay.number_of_elements l' w3 = .ub))

/-- Dimensions, strides and pointers as the documentation of the kernel asks for, as `KernelFits`, and
the places that a product needs exist. (If the result has no elements then none are needed.) -/
def KernelReaches [Target] (mem : Mem α) (da db dc sa sb sc : Nat × Nat) (pa pb pc : Ptr) : Prop :=
  ∃ A B C : Nat → Nat → Loc, Leads pa sa da A ∧ Leads pb sb db B ∧ Leads pc sc dc C ∧
    Distinct dc C ∧ Apart dc C da A ∧ Apart dc C db B ∧
    ∀ i j, i < dc.1 → j < dc.2 → HasPlace mem (C i j) ∧
      ∀ l, l < da.2 → HasPlace mem (A i l) ∧ HasPlace mem (B l j)

/-- The answers about dimensions, strides and pointers make a product undefined, as
`ProductFaultyRun`. `there` is the memory that the kernel finds. -/
def ProductUndefined [Target] (there : S → Mem α) (da db dc sa sb sc : Act S (Nat × Nat))
    (pa pb pc : Act S Ptr) (s : S) : Prop :=
  FaultyRun [da, db, dc] s ∨
  ∃ x y z s1, Says [da, db, dc] s [x, y, z] s1 ∧ (x.2 = y.1 ∧ z.1 = x.1 ∧ z.2 = y.2) ∧
    (FaultyRun [sa, sa, sb, sb, sc, sc] s1 ∨
     ∃ u u' v v' w w' s2, Says [sa, sa, sb, sb, sc, sc] s1 [u, u', v, v', w, w'] s2 ∧
       (FaultyRun [pa, pb, pc] s2 ∨
        ∃ p q r s3, Says [pa, pb, pc] s2 [p, q, r] s3 ∧
          ¬ KernelReaches (there s3) x y z (u.1, u'.2) (v.1, v'.2) (w.1, w'.2) p q r))

end Householder.Spec
