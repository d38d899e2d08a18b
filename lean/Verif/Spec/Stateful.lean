import Verif.Spec.TraitsMul
import Verif.Model.Stateful

/-!
# What implementations that change have to provide

As `Spec/Traits.lean` and `Spec/TraitsMul.lean`, at every moment: `Inv` is what the program keeps
true of the state of its implementations.
-/

namespace Householder.Spec

variable {S α V D X κ β : Type}

/-- Whenever it is called the function panics or returns something with the property, and what the
program keeps true of the state is true again. -/
def Always (Inv : S → Prop) (x : Act S β) (P : β → Prop) : Prop :=
  ∀ s, Inv s → Gives (x s) fun r => Inv r.2 ∧ P r.1

/-- A layout may change, but not its shape: `dim` and `number_of_elements` always answer the same.
Layouts with the same index layout (`kind`) and shape have the same number of elements. The index
layout and a layout newly made have the same kind and shape. New layouts are packed. -/
structure Steady (A : LayoutActs S V) (Inv : S → Prop) (kind : V → κ) (shape : V → Nat × Nat)
    (size : V → Nat) : Prop where
  dim : ∀ l, Always Inv (A.dim l) (· = shape l)
  number : ∀ l, Always Inv (A.number_of_elements l) (· = size l)
  alike : ∀ l l', kind l = kind l' → shape l = shape l' → size l = size l'
  index : ∀ l, Always Inv (A.index_layout l) fun l' => kind l' = kind l ∧ shape l' = shape l
  new : ∀ l l0, kind l = kind l0 → Always Inv (A.from_dimension l (shape l0)) fun l' =>
    kind l' = kind l0 ∧ shape l' = shape l0 ∧
    ∀ i, i < size l' → Always Inv (A.convert_1d_raw l' i) (· < size l')

/-- The layout of a base matrix addresses, at every moment, only the first `n` cells. -/
structure AddressesAlways (A : LayoutActs S V) (Inv : S → Prop) (d : Nat × Nat) (k : Nat) (l : V)
    (n : Nat) : Prop where
  positions : ∀ r c, r < d.1 → c < d.2 → Always Inv (A.convert_2d_raw l r c) (· < n)
  indices : ∀ i, i < k → Always Inv (A.convert_1d_raw l i) (· < n)

/-- A container holds, at every moment, at least `n` elements, also when other storage comes to
exist, and never says that it has more. -/
structure HoldsAlways (A : DataActs S α D) (Inv : S → Prop) (d : D) (mem : Mem α) (n : Nat) : Prop where
  number : Always Inv (A.number_of_elements d) (· ≤ n)
  read : ∀ mem', Extends mem mem' → ∀ k, k < n → Always Inv (A.get_unchecked d mem' k) fun _ => True
  place : ∀ k, k < n → Always Inv (A.get_unchecked_mut d k) fun p => (mem.get? p).isSome
  pointer : Always Inv (A.get_pointer d) fun p => p.off + n ≤ p.prov.len
  pointer_mut : Always Inv (A.get_pointer_mut d) fun p => p.off + n ≤ p.prov.len

/-- The expressions a program can write, each with a layout of its kind, shape and size. -/
inductive Grown (A : Acts S α V D X) (Inv : S → Prop) (kind : V → κ) (shape : V → Nat × Nat)
    (size : V → Nat) (mem : Mem α) : AnyMat α V D X → V → Prop where
  | base {b : AnyBase V D} {n : Nat}
      (hl : AddressesAlways A.lay Inv (shape b.layout) (size b.layout) b.layout n)
      (hd : HoldsAlways A.dat Inv b.data mem n) : Grown A Inv kind shape size mem (.base b) b.layout
  | user {x : X} {l0 : V}
      (hl : Always Inv (A.mat.layout x) fun l => kind l = kind l0 ∧ shape l = shape l0)
      (hp : ∀ r c, r < (shape l0).1 → c < (shape l0).2 →
        Always Inv (A.mat.get_unchecked x mem r c) fun _ => True)
      (hi : ∀ mem', Extends mem mem' → ∀ i, i < size l0 →
        Always Inv (A.mat.get1d_unchecked x mem' i) fun _ => True) :
      Grown A Inv kind shape size mem (.user x) l0
  | ref {m : AnyMat α V D X} {l0 : V} (h : Grown A Inv kind shape size mem m l0) :
      Grown A Inv kind shape size mem (.ref m) l0
  | sum {a b m : AnyMat α V D X} {la lb : V} {s s' : S} (ha : Grown A Inv kind shape size mem a la)
      (hb : Grown A Inv kind shape size mem b lb) (hk : kind la = kind lb) (hs : Inv s)
      (h : A.addition_new a b s = .ok (m, s')) : Grown A Inv kind shape size mem m la
  | scaled {m : AnyMat α V D X} {l0 : V} (h : Grown A Inv kind shape size mem m l0) (s : α) :
      Grown A Inv kind shape size mem (.scalarMult m s) l0

/-- A matrix exposes its elements at `place` at every moment: the dimension and the strides do not
change, and the strides lead from any pointer that it hands out to the places. -/
structure ExposesAlways [Target] (A : Acts S α V D X) (Inv : S → Prop) (get_pointer : D → Act S Ptr)
    (b : AnyBase V D) (mem : Mem α) (d st : Nat × Nat) (place : Nat → Nat → Loc) : Prop where
  dim : Always Inv (A.lay.dim b.layout) (· = d)
  strides : Always Inv (A.lay.stride b.layout) (· = st)
  pointer : Always Inv (get_pointer b.data) fun p => Leads p st d place
  exist : ∀ i j, i < d.1 → j < d.2 → (mem.get? (place i j)).isSome

end Householder.Spec
