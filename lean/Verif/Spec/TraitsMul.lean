import Verif.Spec.Traits
import Verif.Spec.MatMul
import Verif.Spec.Views
import Verif.Model.TraitsMul

/-!
# What products and views need of other implementations

About the implemented functions only.
-/

namespace Householder.Spec

variable {α V D X : Type}

/-- The strides, read as signed numbers, lead from the pointer to a place for every position of a
matrix of dimension `d`, inside what the pointer may access. `place` says which. -/
def Leads [Target] (p : Ptr) (s d : Nat × Nat) (place : Nat → Nat → Loc) : Prop :=
  ∀ i j, i < d.1 → j < d.2 → ∃ k : Nat,
    (k : Int) = p.off + i * asIsize s.1 + j * asIsize s.2 ∧ k < p.prov.len ∧
    place i j = ⟨p.prov.buf, p.prov.off + k⟩

/-- A matrix exposes its elements at `place`: the layout has dimension `d`, its strides lead from
the container's pointer (`get_pointer` or `get_pointer_mut`) to the places, these exist in
memory, and element access reads them. -/
structure Exposes [Target] (I : Impls α V D X) (get_pointer : D → Out Ptr) (b : AnyBase V D) (mem : Mem α)
    (d : Nat × Nat) (place : Nat → Nat → Loc) : Prop where
  dim : Gives (I.lay.dim b.layout) (· = d)
  strides : Gives (I.lay.stride b.layout) fun s => Gives (get_pointer b.data) fun p => Leads p s d place
  exist : ∀ i j, i < d.1 → j < d.2 → (mem.get? (place i j)).isSome
  access : ∀ i j, i < d.1 → j < d.2 → Gives (I.lay.convert_2d_raw b.layout i j) fun k =>
    ∀ mem' : Mem α, I.dat.get_unchecked b.data mem' k = mem'.read (place i j)

/-- The positions of a `d`-shaped matrix are at different places. -/
def Distinct (d : Nat × Nat) (place : Nat → Nat → Loc) : Prop :=
  ∀ i j i' j', i < d.1 → j < d.2 → i' < d.1 → j' < d.2 → place i j = place i' j' → i = i' ∧ j = j'

/-- Two matrices have no place in common. -/
def Apart (d : Nat × Nat) (place : Nat → Nat → Loc) (d' : Nat × Nat) (place' : Nat → Nat → Loc) :
    Prop :=
  ∀ i j i' j', i < d.1 → j < d.2 → i' < d'.1 → j' < d'.2 → place i j ≠ place' i' j'

/-- What a pointer may access from where it points. -/
def window (p : Ptr) : Container := ⟨p.prov.buf, p.prov.off + p.off, p.prov.len - p.off⟩

/-- A container whose pointer shows its elements: `n` of them, which element access reads, in
memory of a size a Rust allocation can have. -/
structure Shows [Target] (I : DataImpl α D) (get_pointer : D → Out Ptr) (data : D) (mem : Mem α) (n : Nat) :
    Prop where
  number : Gives (I.number_of_elements data) (· = n)
  pointer : Gives (get_pointer data) fun p => p.off ≤ p.prov.len ∧ ContainerOK (window p) mem ∧
    n ≤ (window p).len ∧
    ∀ k, k < n → ∀ mem' : Mem α,
      I.get_unchecked data mem' k = mem'.read ⟨(window p).buf, (window p).off + k⟩

end Householder.Spec
