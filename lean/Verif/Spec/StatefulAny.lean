import Verif.Spec.StatefulExact

/-!
# What `for_each` and evaluation reach for, over any containers whatever

As `Spec/StatefulExact.lean`, also for containers of the program, which may hand out any place and
answer any read in any way.
-/

namespace Householder.Spec

variable {S α V D X : Type}

/-- A base matrix is asked for the place of element `(r, c)`. -/
def askPlace2d (A : Acts S α V D X) (b : AnyBase V D) (r c : Nat) : Act S Loc := fun s =>
  match A.lay.convert_2d_raw b.layout r c s with
  | .ok (k, t) => A.dat.get_unchecked_mut b.data k t
  | .panic => .panic
  | .ub => .ub

/-- A base matrix is asked for the place of element number `i`. -/
def askPlace1d (A : Acts S α V D X) (b : AnyBase V D) (i : Nat) : Act S Loc := fun s =>
  match A.lay.convert_1d_raw b.layout i s with
  | .ok (k, t) => A.dat.get_unchecked_mut b.data k t
  | .panic => .panic
  | .ub => .ub

/-- The place is asked for and used: it has to exist. -/
def usePlace (mem : Mem α) (place : Act S Loc) : Act S Unit := fun s =>
  match place s with
  | .ok (p, t) => if p.idx < mem.size p.buf then .ok ((), t) else .ub
  | .panic => .panic
  | .ub => .ub

/-- A matrix is asked for its layout, and the layout for its number of elements. -/
def askNumber (A : Acts S α V D X) (m : AnyMat α V D X) : Act S Nat := fun s =>
  match A.layout m s with
  | .ok (l, t) => A.lay.number_of_elements l t
  | .panic => .panic
  | .ub => .ub

/-- A new layout is asked for, and then for its number of elements. -/
def askNew (A : Acts S α V D X) (kind : V) (d : Nat × Nat) : Act S (V × Nat) := fun s =>
  match A.lay.from_dimension kind d s with
  | .ok (l, t) => match A.lay.number_of_elements l t with
    | .ok (n, u) => .ok ((l, n), u)
    | .panic => .panic
    | .ub => .ub
  | .panic => .panic
  | .ub => .ub

/-- Element number `i` of an expression is read and written to the raw index that the new layout
gives, in allocation `q` of `n` cells. The state is that of the implementations and the memory. -/
def copied [Add α] [Mul α] (A : Acts S α V D X) (m : AnyMat α V D X) (l : V) (q n i : Nat) :
    Act (S × Mem α) Unit := fun x =>
  match A.get1d_unchecked x.2 i m x.1 with
  | .ok (v, t) => match A.lay.convert_1d_raw l i t with
    | .ok (k, u) =>
      if k < n ∧ k < x.2.size q then .ok ((), u, ⟨x.2.bufs.modify q (·.set k v)⟩) else .ub
    | .panic => .panic
    | .ub => .ub
  | .panic => .panic
  | .ub => .ub

/-- Evaluation is undefined. The calls are listed in their order, as in `EvalMisses`. -/
def EvalFaulty [Target] [Zero α] [Add α] [Mul α] (A : Acts S α V D X) (kind : V) (cfg : Cfg)
    (m : AnyMat α V D X) (mem : Mem α) (s : S) : Prop :=
  askDim A m s = .ub ∨ ∃ d s1, askDim A m s = .ok (d, s1) ∧
    (askNew A kind d s1 = .ub ∨ ∃ l n s2, askNew A kind d s1 = .ok ((l, n), s2) ∧
      n * cfg.item.size ≤ isizeMax ∧
      (askNew A kind d s2 = .ub ∨ ∃ l' n' s3, askNew A kind d s2 = .ok ((l', n'), s3) ∧
        if n' ≤ n then
          askNumber A m s3 = .ub ∨ ∃ k s4, askNumber A m s3 = .ok (k, s4) ∧
            FaultyRun ((List.range k).map (copied A m l' mem.bufs.length n))
              (s4, ⟨mem.bufs ++ [List.replicate n 0]⟩)
        else A.lay.number_of_elements l' s3 = .ub))

end Householder.Spec
