import Verif.Spec.Stateful
import Verif.Spec.TraitsMulExact

/-!
# What code over implementations that change reaches for

No contract is assumed of the implementations. Every call is answered in the state that the calls
before it have left.
-/

namespace Householder.Spec

variable {S α β V D X : Type}

/-- The calls, one after the other, all give values and lead from one state to the other. -/
def Answered : List (Act S β) → S → S → Prop
  | [], s, t => s = t
  | x :: xs, s, t => ∃ v s', x s = .ok (v, s') ∧ Answered xs s' t

/-- The first of the calls that does not give a value is undefined. -/
def FaultyRun (xs : List (Act S β)) (s : S) : Prop :=
  ∃ pre x post t, xs = pre ++ x :: post ∧ Answered pre s t ∧ x t = .ub

/-- Reading element `(r, c)` of a source. -/
def call2d (A : Acts S α V D X) (mem : Mem α) (r c : Nat) : AnyBase V D ⊕ X → Act S α
  | .inl b => fun s => match A.lay.convert_2d_raw b.layout r c s with
    | .ok (k, s') => A.dat.get_unchecked b.data mem k s'
    | .panic => .panic
    | .ub => .ub
  | .inr x => A.mat.get_unchecked x mem r c

/-- Reading element number `i` of a source. -/
def call1d (A : Acts S α V D X) (mem : Mem α) (i : Nat) : AnyBase V D ⊕ X → Act S α
  | .inl b => fun s => match A.lay.convert_1d_raw b.layout i s with
    | .ok (k, s') => A.dat.get_unchecked b.data mem k s'
    | .panic => .panic
    | .ub => .ub
  | .inr x => A.mat.get1d_unchecked x mem i

/-- No function of the layout is undefined, in whatever state. -/
def NeverUndefined (L : LayoutActs S V) : Prop := ∀ s, SafeLayout (L.frozen s)

/-- Implementations of `LayoutType` that change, over the containers of the crate. -/
abbrev actsOverCrate (L : LayoutActs S V) (α : Type) : Acts S α V Container Empty :=
  ⟨L, (crateContainers α).still S, ⟨nofun, nofun, nofun⟩⟩

/-- A raw index that the layout is asked for, and the number of elements of the container that it is
used on. -/
structure Aim (S : Type) where
  index : Act S Nat
  len : Nat

/-- All indices are inside the containers. -/
def Hits : List (Aim S) → S → S → Prop
  | [], s, t => s = t
  | a :: as, s, t => ∃ k s', a.index s = .ok (k, s') ∧ k < a.len ∧ Hits as s' t

/-- The first index that is not inside its container is past the end (and not a panic). -/
def Misses (as : List (Aim S)) (s : S) : Prop :=
  ∃ pre a post t k t', as = pre ++ a :: post ∧ Hits pre s t ∧ a.index t = .ok (k, t') ∧ a.len ≤ k

/-- Element `(r, c)` of all base matrices of an expression. -/
def aims2d (L : LayoutActs S V) (m : AnyMat α V Container Empty) (r c : Nat) : List (Aim S) :=
  (origins m).map fun b => ⟨L.convert_2d_raw b.layout r c, b.data.len⟩

/-- Element number `i` of all base matrices of an expression. -/
def aims1d (L : LayoutActs S V) (m : AnyMat α V Container Empty) (i : Nat) : List (Aim S) :=
  (origins m).map fun b => ⟨L.convert_1d_raw b.layout i, b.data.len⟩

/-- The layout of an expression: that of its first base matrix, or the one kept in the sum. -/
def topLayout : AnyMat α V D Empty → V
  | .base b => b.layout
  | .user x => x.elim
  | .ref m => topLayout m
  | .addition _ _ l => l
  | .scalarMult m _ => topLayout m

/-- Evaluation misses a container. The calls are listed in their order: the new storage has as many
elements as the first new layout says; the second new layout says that it needs no more; as many
elements are copied as the expression's layout says at the end. -/
def EvalMisses [Target] (L : LayoutActs S V) (kind : V) (cfg : Cfg) (m : AnyMat α V Container Empty)
    (s : S) : Prop :=
  ∃ d s1 l s2 n s3 l' s4 n' s5 k s6, L.dim (topLayout m) s = .ok (d, s1) ∧
    L.from_dimension kind d s1 = .ok (l, s2) ∧ L.number_of_elements l s2 = .ok (n, s3) ∧
    n * cfg.item.size ≤ isizeMax ∧
    L.from_dimension kind d s3 = .ok (l', s4) ∧ L.number_of_elements l' s4 = .ok (n', s5) ∧ n' ≤ n ∧
    L.number_of_elements (topLayout m) s5 = .ok (k, s6) ∧
    Misses ((List.range k).flatMap fun i => aims1d L m i ++ [⟨L.convert_1d_raw l' i, n⟩]) s6

/-- The calls, one after the other, give these values and lead from one state to the other. -/
def Says : List (Act S β) → S → List β → S → Prop
  | [], s, vs, t => vs = [] ∧ s = t
  | x :: xs, s, vs, t => ∃ v s' ws, x s = .ok (v, s') ∧ vs = v :: ws ∧ Says xs s' ws t

/-- The answers about dimensions, strides and pointers make a product undefined. Every matrix is
asked for its strides twice: the kernel gets the row stride of the first answer and the column stride
of the second. -/
def ProductFaultyRun [Target] (da db dc sa sb sc : Act S (Nat × Nat)) (pa pb pc : Act S Ptr) (s : S) :
    Prop :=
  FaultyRun [da, db, dc] s ∨
  ∃ x y z s1, Says [da, db, dc] s [x, y, z] s1 ∧ (x.2 = y.1 ∧ z.1 = x.1 ∧ z.2 = y.2) ∧
    (FaultyRun [sa, sa, sb, sb, sc, sc] s1 ∨
     ∃ u u' v v' w w' s2, Says [sa, sa, sb, sb, sc, sc] s1 [u, u', v, v', w, w'] s2 ∧
       (FaultyRun [pa, pb, pc] s2 ∨
        ∃ p q r s3, Says [pa, pb, pc] s2 [p, q, r] s3 ∧
          ¬ KernelFits x y z (u.1, u'.2) (v.1, v'.2) (w.1, w'.2) p q r))

/-- What a container answers about its pointer when a slice is made: the number of elements is asked
for first, and again if it is too small. -/
def SliceFaultyRun (number : Act S Nat) (pointer : Act S Ptr) (first last : Nat) (s : S) : Prop :=
  first < last ∧ (number s = .ub ∨ ∃ n t, number s = .ok (n, t) ∧
    if last ≤ n then
      pointer t = .ub ∨ ∃ p u, pointer t = .ok (p, u) ∧ p.prov.len < p.off + last
    else number t = .ub)

/-- The same for a mutable slice: the number of elements is asked for once to check the first index
and once to check the last, and again whenever it is too small. -/
def SliceMutFaultyRun (number : Act S Nat) (pointer : Act S Ptr) (first last : Nat) (s : S) : Prop :=
  first < last ∧ (number s = .ub ∨ ∃ n t, number s = .ok (n, t) ∧
    (number t = .ub ∨ first < n ∧ ∃ n' t', number t = .ok (n', t') ∧
      if last ≤ n' then
        pointer t' = .ub ∨ ∃ p u, pointer t' = .ok (p, u) ∧ p.prov.len < p.off + last
      else number t' = .ub))

/-- A matrix is asked for its layout, and the layout for its dimensions. -/
def askDim (A : Acts S α V D X) (m : AnyMat α V D X) : Act S (Nat × Nat) := fun s =>
  match A.layout m s with
  | .ok (l, t) => A.lay.dim l t
  | .panic => .panic
  | .ub => .ub

/-- A matrix is asked for its layout, and the layout for its index layout. -/
def askIndex (A : Acts S α V D X) (m : AnyMat α V D X) : Act S V := fun s =>
  match A.layout m s with
  | .ok (l, t) => A.lay.index_layout l t
  | .panic => .panic
  | .ub => .ub

end Householder.Spec
