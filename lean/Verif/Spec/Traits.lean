import Verif.Spec.Matrix
import Verif.Model.Traits

/-!
# What implementations of the open traits have to provide

The contract is stated about the implemented functions only, not about the generic code that
calls them.
-/

namespace Householder.Spec

variable {α V D X β : Type}

/-- The call panics or returns something with the property. -/
def Gives (o : Out β) (P : β → Prop) : Prop := o = .panic ∨ ∃ b, o = .ok b ∧ P b

/-- The functions of a layout are safe functions: called with anything, they return or panic. -/
structure SafeLayout (I : LayoutImpl V) : Prop where
  stride : ∀ l, I.stride l ≠ .ub
  dim : ∀ l, I.dim l ≠ .ub
  number_of_elements : ∀ l, I.number_of_elements l ≠ .ub
  convert_1d_2d : ∀ l i, I.convert_1d_2d l i ≠ .ub
  convert_2d_1d : ∀ l r c, I.convert_2d_1d l r c ≠ .ub
  convert_1d_raw : ∀ l i, I.convert_1d_raw l i ≠ .ub
  convert_2d_raw : ∀ l r c, I.convert_2d_raw l r c ≠ .ub
  index_layout : ∀ l, I.index_layout l ≠ .ub
  from_dimension : ∀ l d, I.from_dimension l d ≠ .ub

/-- A layout addresses only the first `n` cells: at every position of its dimension and at every
index below its number of elements the raw index is below `n` (or the conversion panics). -/
structure Addresses (I : LayoutImpl V) (l : V) (n : Nat) : Prop where
  positions : Gives (I.dim l) fun d => ∀ r c, r < d.1 → c < d.2 →
    Gives (I.convert_2d_raw l r c) (· < n)
  indices : Gives (I.number_of_elements l) fun k => ∀ i, i < k →
    Gives (I.convert_1d_raw l i) (· < n)

/-- A container holds `n` elements: it says so, and its unsafe functions are defined below `n`,
also when other storage comes to exist. The pointers it hands out are to `n` cells. -/
structure Holds (I : DataImpl α D) (d : D) (mem : Mem α) (n : Nat) : Prop where
  number : Gives (I.number_of_elements d) (· = n)
  read : ∀ k, k < n → I.get_unchecked d mem k ≠ .ub
  stable : ∀ mem', Extends mem mem' → ∀ k, k < n → I.get_unchecked d mem' k = I.get_unchecked d mem k
  place : ∀ k, k < n → Gives (I.get_unchecked_mut d k) fun p => (mem.get? p).isSome
  pointer : Gives (I.get_pointer d) fun p => p.off + n ≤ p.prov.len
  pointer_mut : Gives (I.get_pointer_mut d) fun p => p.off + n ≤ p.prov.len

/-- A matrix type of the program: its unsafe functions are defined at all positions and indices
that its layout announces, also when other storage comes to exist. -/
structure Provides (I : Impls α V D X) (x : X) (mem : Mem α) : Prop where
  positions : Gives (I.lay.dim (I.mat.layout x)) fun d => ∀ r c, r < d.1 → c < d.2 →
    I.mat.get_unchecked x mem r c ≠ .ub
  indices : Gives (I.lay.number_of_elements (I.mat.layout x)) fun k => ∀ i, i < k →
    I.mat.get1d_unchecked x mem i ≠ .ub ∧
    ∀ mem', Extends mem mem' → I.mat.get1d_unchecked x mem' i = I.mat.get1d_unchecked x mem i

/-- Layouts with the same index layout (`kind`) number their elements alike: dimension and kind
decide the number of elements, the index layout keeps all three, and so does a layout newly made
from the dimension. New layouts are packed: their raw indices are below their number of elements
and different. -/
structure Logical {κ : Type} (I : LayoutImpl V) (kind : V → κ) : Prop where
  number : ∀ l l', kind l = kind l' → I.dim l = I.dim l' →
    I.number_of_elements l = I.number_of_elements l'
  index : ∀ l l', I.index_layout l = .ok l' → kind l' = kind l ∧ I.dim l' = I.dim l
  new : ∀ l d l', I.dim l = .ok d → I.from_dimension l d = .ok l' →
    kind l' = kind l ∧ I.dim l' = .ok d
  packed : ∀ l d l' n, I.from_dimension l d = .ok l' → I.number_of_elements l' = .ok n →
    (∀ i, i < n → Gives (I.convert_1d_raw l' i) (· < n)) ∧
    ∀ i j k, i < n → j < n → I.convert_1d_raw l' i = .ok k → I.convert_1d_raw l' j = .ok k → i = j

/-- The expressions a program can write, from base matrices and matrices of its own that keep
their contract: references, products with scalars, and sums whose operands have the same index
layout (as the types demand) and that `Addition::new` accepted. -/
inductive Built {κ : Type} (I : Impls α V D X) (kind : V → κ) (mem : Mem α) :
    AnyMat α V D X → Prop where
  | base {b : AnyBase V D} {n : Nat} (hl : Addresses I.lay b.layout n) (hd : Holds I.dat b.data mem n) :
      Built I kind mem (.base b)
  | user {x : X} (h : Provides I x mem) : Built I kind mem (.user x)
  | ref {m : AnyMat α V D X} (h : Built I kind mem m) : Built I kind mem (.ref m)
  | sum {a b m : AnyMat α V D X} (ha : Built I kind mem a) (hb : Built I kind mem b)
      (hk : kind (a.layout I) = kind (b.layout I)) (h : AnyMat.addition_new I a b = .ok m) :
      Built I kind mem m
  | scaled {m : AnyMat α V D X} (h : Built I kind mem m) (s : α) : Built I kind mem (.scalarMult m s)

end Householder.Spec
