import Verif.Spec.Traits
import Verif.Spec.Culprit

/-!
# What code over implementations of the open traits reaches for

No contract is assumed of the implementations.
-/

namespace Householder.Spec

variable {α β V D X : Type}

/-- The matrices that an expression takes its elements from, in the order in which they are read:
base matrices and matrices of the program's own. -/
def sources : AnyMat α V D X → List (AnyBase V D ⊕ X)
  | .base b => [.inl b]
  | .user x => [.inr x]
  | .ref m => sources m
  | .addition a b _ => sources a ++ sources b
  | .scalarMult m _ => sources m

/-- What the implementations say to reading element `(r, c)` of a source. -/
def ask2d (I : Impls α V D X) (mem : Mem α) (r c : Nat) : AnyBase V D ⊕ X → Out α
  | .inl b => match I.lay.convert_2d_raw b.layout r c with
    | .ok k => I.dat.get_unchecked b.data mem k
    | .panic => .panic
    | .ub => .ub
  | .inr x => I.mat.get_unchecked x mem r c

/-- What the implementations say to reading element number `i` of a source. -/
def ask1d (I : Impls α V D X) (mem : Mem α) (i : Nat) : AnyBase V D ⊕ X → Out α
  | .inl b => match I.lay.convert_1d_raw b.layout i with
    | .ok k => I.dat.get_unchecked b.data mem k
    | .panic => .panic
    | .ub => .ub
  | .inr x => I.mat.get1d_unchecked x mem i

/-- The first answer that is not a value is undefined. -/
def Faulty (xs : List (Out β)) : Prop :=
  ∃ pre post, xs = pre ++ .ub :: post ∧ ∀ y ∈ pre, ∃ v, y = .ok v

/-- Implementations of `LayoutType` over the containers of the crate. -/
abbrev overCrate (L : LayoutImpl V) (α : Type) : Impls α V Container Empty :=
  ⟨L, crateContainers α, ⟨nofun, nofun, nofun⟩⟩

/-- The base matrices among the sources. -/
def origins (m : AnyMat α V Container Empty) : List (AnyBase V Container) :=
  (sources m).filterMap fun
    | .inl b => some b
    | .inr _ => none

/-- The cell of a container with the given raw index. -/
def oneCell (d : Container) (place : Out Nat) : Access := ⟨d, Out.toInt place, .ok 1, fun _ => True⟩

/-- Element `(r, c)` of all base matrices of an expression. -/
def reach2d (L : LayoutImpl V) (m : AnyMat α V Container Empty) (r c : Nat) : List Access :=
  (origins m).map fun b => oneCell b.data (L.convert_2d_raw b.layout r c)

/-- Element number `i` of all base matrices of an expression. -/
def reach1d (L : LayoutImpl V) (m : AnyMat α V Container Empty) (i : Nat) : List Access :=
  (origins m).map fun b => oneCell b.data (L.convert_1d_raw b.layout i)

/-- What evaluation reaches for: for every element the cells it is computed from, and then the cell
of the result, which is in an allocation of as many elements as the new layout says. -/
def evalReach [Target] (L : LayoutImpl V) (cfg : Cfg) (m : AnyMat α V Container Empty) (l : V)
    (mem : Mem α) : List Access :=
  whenOk (L.dim l) fun d =>
  whenOk (L.from_dimension l d) fun l' =>
  whenOk (L.number_of_elements l') fun n =>
  if n * cfg.item.size ≤ isizeMax then
    whenOk (L.number_of_elements l) fun k =>
      (List.range k).flatMap fun i =>
        reach1d L m i ++ [oneCell ⟨mem.bufs.length, 0, n⟩ (L.convert_1d_raw l' i)]
  else []

/-- A slice of the elements from `first` to before `last` that the container says it has, but the
pointer it hands out does not lead to. -/
def SliceFaulty (number : Out Nat) (pointer : Out Ptr) (first last : Nat) : Prop :=
  first < last ∧ (number = .ub ∨ ∃ n, number = .ok n ∧ last ≤ n ∧
    (pointer = .ub ∨ ∃ p, pointer = .ok p ∧ p.prov.len < p.off + last))

end Householder.Spec
