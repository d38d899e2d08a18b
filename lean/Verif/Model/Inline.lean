import Verif.Model.GuardsSplit

/-!
# Matrices that hold their elements inside themselves

`VectorContainer` and the two slice containers hold a pointer to their elements, so a reference to
the matrix does not cover the elements: `Model/Guards.lean` starts at the pointer. An
`ArrayContainer` holds the elements itself (src/data_container.rs:84-86), and so does a matrix over
it. Every `&self` and `&mut self` of every method then covers the elements too, and borrows them
again: `self.layout()` reads them as far as the aliasing models are concerned, although it returns a
part of the matrix that is not an element.

That matters where `block_mut` and `split_in_four_mut` call `self.layout()` *after* they have got
their pointer (src/matrix/matrix_slices.rs:62-68, 107-119): the call goes around the pointer.

A method calls a method of the field inside, which calls the next one, with a reference each time
and calls of `self.layout()` and the like before. How many there are is a parameter here, for every
single call of a program: a list of lists, for each method on the way to the array how deep the
calls are that it makes before it goes on. So nothing hangs on how the methods of the crate are
cut.

Simplifications: as in `Model/Guards.lean`; the cells of a reference to the matrix that are not
elements (the layout) are left out, since no view refers to them.
-/

namespace Householder

namespace Borrow

/-- How the methods of one call are cut. -/
structure Plan where
  /-- the methods around the one that makes the view -/
  outer : List (List Nat)
  /-- what it looks at before it gets the pointer -/
  before : List Nat
  /-- the methods that it gets the pointer by -/
  inner : List (List Nat)
  /-- what it looks at after it has got the pointer -/
  after : List Nat
  deriving Repr

namespace Rules

variable {S : Type} (R : Rules S)

/-- A call like `self.layout()`: a `&self` for the whole matrix, which is passed on `n` times and
not used to read an element (src/matrix/common_impl.rs:16-18, src/base_matrix.rs:103-105). -/
def look : Nat → Nat → Window → S → Option S
  | 0, _, _, s => some s
  | n + 1, t, w, s => do
    let (t', s) ← R.shrRef t w s
    let s ← look n t' w (R.enter t' s)
    R.leave t' w s

/-- Several such calls, one after the other. -/
def looks : List Nat → Nat → Window → S → Option S
  | [], _, _, s => some s
  | n :: ns, t, w, s => (R.look n t w s).bind (looks ns t w)

/-- The methods `get_mut`, `get_unchecked_mut` and so on of the matrix, what is inside it and the
container: each takes `&mut self`, looks at the layout and calls the next
(src/traits/random_access.rs:113-116, src/matrix/common_impl.rs:65-67, src/base_matrix.rs:171-174,
src/data_container.rs:180-182). -/
def elementMutIn : List (List Nat) → Nat → Window → Nat → S → Option (Nat × S)
  | [], t, w, x, s => do
    let (t1, s) ← R.mutRef t w s
    let (t2, s) ← R.mutRef t1 w s
    let (t3, s) ← R.mutRef t2 (.one x) (R.enter t2 s)
    let s ← R.leave t2 w s
    return (t3, s)
  | ns :: l, t, w, x, s => do
    let (t', s) ← R.mutRef t w s
    let s ← R.looks ns t' w (R.enter t' s)
    let (r, s) ← elementMutIn l t' w x s
    let s ← R.leave t' w s
    return (r, s)

/-- `*matrix.get_mut(i, j) = value` (src/traits/random_access.rs:113-116). -/
def setIn (l : List (List Nat)) (t : Nat) (w : Window) (x : Nat) (s : S) : Option S := do
  let (r, s) ← R.elementMutIn l t w x s
  R.access true r (.one x) s

/-- `matrix.get(i, j)`: the element is read by the innermost method
(src/traits/random_access.rs:101-104, src/data_container.rs:166-168). -/
def getIn : List (List Nat) → Nat → Window → Nat → S → Option S
  | [], t, w, x, s => R.get t w x s
  | ns :: l, t, w, x, s => do
    let (t', s) ← R.shrRef t w s
    let s ← R.looks ns t' w (R.enter t' s)
    let s ← getIn l t' w x s
    R.leave t' w s

/-- `get_pointer_mut` of the matrix, of what is inside it and of the container
(src/matrix/base_methods.rs:68-70, src/base_matrix.rs:82-84, src/data_container.rs:184-186). -/
def pointerMutIn : List (List Nat) → Nat → Window → S → Option (Nat × S)
  | [], t, w, s => R.pointerMut t w s
  | ns :: l, t, w, s => do
    let (t', s) ← R.mutRef t w s
    let s ← R.looks ns t' w (R.enter t' s)
    let (p, s) ← pointerMutIn l t' w s
    let s ← R.leave t' w s
    return (p, s)

/-- `get_pointer`, likewise (src/matrix/base_methods.rs:40-42, src/base_matrix.rs:63-65,
src/data_container.rs:170-172). -/
def pointerIn : List (List Nat) → Nat → Window → S → Option (Nat × S)
  | [], t, w, s => R.pointer t w s
  | ns :: l, t, w, s => do
    let (t', s) ← R.shrRef t w s
    let s ← R.looks ns t' w (R.enter t' s)
    let (p, s) ← pointerIn l t' w s
    let s ← R.leave t' w s
    return (p, s)

/-- `block_mut` (src/matrix/matrix_slices.rs:48-71): the bounds and the start are computed, the
pointer is got, the strides are looked up, and the slice is made, all while `&mut self` is
protected. -/
def makeMutIn (pl : Plan) (t : Nat) (w w' : Window) (s : S) : Option (Nat × S) := do
  let (t0, s) ← R.mutRef t w s
  let s ← R.looks pl.before t0 w (R.enter t0 s)
  let (p, s) ← R.pointerMutIn pl.inner t0 w s
  let s ← R.looks pl.after t0 w s
  let (r, s) ← R.mutRef p w' s
  let s ← R.leave t0 w s
  return (r, s)

/-- The same with methods around it, as `get_slice_mut` has (src/matrix/base_methods.rs:81-83,
src/base_matrix.rs:87-89, src/data_container.rs:53-77). -/
def viewMutIn (pl : Plan) : List (List Nat) → Nat → Window → Window → S → Option (Nat × S)
  | [], t, w, w', s => R.makeMutIn pl t w w' s
  | ns :: l, t, w, w', s => do
    let (t', s) ← R.mutRef t w s
    let s ← R.looks ns t' w (R.enter t' s)
    let (r, s) ← viewMutIn pl l t' w w' s
    let s ← R.leave t' w s
    return (r, s)

/-- `block` (src/matrix/matrix_slices.rs:19-39). -/
def makeIn (pl : Plan) (t : Nat) (w w' : Window) (s : S) : Option (Nat × S) := do
  let (t0, s) ← R.shrRef t w s
  let s ← R.looks pl.before t0 w (R.enter t0 s)
  let (p, s) ← R.pointerIn pl.inner t0 w s
  let s ← R.looks pl.after t0 w s
  let (r, s) ← R.shrRef p w' s
  let s ← R.leave t0 w s
  return (r, s)

/-- The same with methods around it, as `get_slice` has (src/matrix/base_methods.rs:53-55,
src/base_matrix.rs:68-70, src/data_container.rs:23-40). -/
def viewIn (pl : Plan) : List (List Nat) → Nat → Window → Window → S → Option (Nat × S)
  | [], t, w, w', s => R.makeIn pl t w w' s
  | ns :: l, t, w, w', s => do
    let (t', s) ← R.shrRef t w s
    let s ← R.looks ns t' w (R.enter t' s)
    let (r, s) ← viewIn pl l t' w w' s
    let s ← R.leave t' w s
    return (r, s)

/-- A call of a method with `&mut self` that panics: the methods it has called so far have their
references, and have looked up what the list says; the last of them panics, and unwinding ends the
protection of each (the assertions of src/traits/random_access.rs:113-116,
src/matrix/matrix_slices.rs:53-59, src/data_container.rs:58-69 come before the pointer is got). -/
def failMut : List (List Nat) → Nat → Window → S → Option S
  | [], _, _, s => some s
  | ns :: l, t, w, s => do
    let (t', s) ← R.mutRef t w s
    let s ← R.looks ns t' w (R.enter t' s)
    let s ← failMut l t' w s
    R.leave t' w s

/-- The same for methods with `&self` (src/traits/random_access.rs:101-104,
src/matrix/matrix_slices.rs:24-30). -/
def fail : List (List Nat) → Nat → Window → S → Option S
  | [], _, _, s => some s
  | ns :: l, t, w, s => do
    let (t', s) ← R.shrRef t w s
    let s ← R.looks ns t' w (R.enter t' s)
    let s ← fail l t' w s
    R.leave t' w s

end Rules

/-- The methods a call that panics has gone through. -/
def Plan.reached (pl : Plan) : List (List Nat) := pl.outer ++ [pl.before]

/-! ## Programs -/

/-- What a program holds: the views as in `Held`, of which the first `inline` of the chain (those
at the end of the list) are the matrix itself, which has its elements inside, or references to
it. -/
structure Body where
  held : Held
  inline : Nat

/-- The last mutable view is the matrix itself or a reference to it. -/
def Body.Inside (b : Body) : Prop := b.held.chain.length ≤ b.inline

instance (b : Body) : Decidable b.Inside := inferInstanceAs (Decidable (_ ≤ _))

/-- One deed, with its plan. A `call` on the matrix itself passes `&mut matrix`. A deed that panics is
taken to be caught, and the program goes on. -/
def Rules.stepIn [Target] {S : Type} (R : Rules S) (cfg : Cfg) (b : Body) (s : S) (d : Deed)
    (pl : Plan) : Option (Body × S) :=
  let plain := (R.step cfg b.held s d).map fun x =>
    (⟨x.1, min b.inline x.1.chain.length⟩, x.2)
  if b.Inside then
    match b.held.chain with
    | [] => plain
    | v :: vs =>
      let w := windowOf v.mat
      match d with
      | .set i j =>
        match v.mat.get_mut cfg i j with
        | .ok l => (R.setIn pl.inner v.tag w l.idx s).map fun s =>
            (⟨{ b.held with shared := [] }, b.inline⟩, s)
        | .panic => (R.failMut pl.reached v.tag w s).map fun s =>
            (⟨{ b.held with shared := [] }, b.inline⟩, s)
        | .ub => none
      | .get i j =>
        match v.mat.get_mut cfg i j with
        | .ok l => (R.getIn pl.inner v.tag w l.idx s).map fun s => (b, s)
        | .panic => (R.fail pl.reached v.tag w s).map fun s => (b, s)
        | .ub => none
      | .blockMut tl dm =>
        match v.mat.block cfg tl dm with
        | .ok m => (R.viewMutIn pl pl.outer v.tag w (windowOf m) s).map fun (t, s) =>
            (⟨⟨⟨t, m, false⟩ :: v :: vs, []⟩, (v :: vs).length⟩, s)
        | .panic => (R.failMut pl.reached v.tag w s).map fun s =>
            (⟨{ b.held with shared := [] }, b.inline⟩, s)
        | .ub => none
      | .block tl dm =>
        match v.mat.block cfg tl dm with
        | .ok m => (R.viewIn pl pl.outer v.tag w (windowOf m) s).map fun (t, s) =>
            (⟨{ b.held with shared := b.held.shared ++ [⟨t, m, false⟩] }, b.inline⟩, s)
        | .panic => (R.fail pl.reached v.tag w s).map fun s => (b, s)
        | .ub => none
      | .sliceMut first last us =>
        match v.mat.data.get_slice_mut first last with
        | .ok c => do
          let (t, s) ← R.viewMutIn pl pl.outer v.tag w ⟨c.off, c.len⟩ s
          let s ← R.accesses t (us.filterMap fun u =>
            if u.1 < c.len then some (c.off + u.1, u.2) else none) s
          return (⟨{ b.held with shared := [] }, b.inline⟩, s)
        | .panic => (R.failMut pl.reached v.tag w s).map fun s =>
            (⟨{ b.held with shared := [] }, b.inline⟩, s)
        | .ub => none
      | .call => (R.step cfg b.held s .call).map fun x => (⟨x.1, x.1.chain.length⟩, x.2)
      | _ => plain
  else plain

/-- A program. -/
def Rules.runIn [Target] {S : Type} (R : Rules S) (cfg : Cfg) :
    List (Deed × Plan) → Body × S → Option (Body × S)
  | [], x => some x
  | d :: ds, x => (R.stepIn cfg x.1 x.2 d.1 d.2).bind (R.runIn cfg ds)

/-- `split_in_four_mut` of a matrix that holds its elements inside itself
(src/matrix/matrix_slices.rs:89-141): dimensions and strides are looked up, the pointer is got, the
four starts are computed, and the four slices are made. -/
def Rules.splitIn {S : Type} (R : Rules S) (pl : Plan) (t : Nat) (w : Window) (ws : List Window)
    (s : S) : Option (List (Nat × Window) × S) := do
  let (t0, s) ← R.mutRef t w s
  let s ← R.looks pl.before t0 w (R.enter t0 s)
  let (p, s) ← R.pointerMutIn pl.inner t0 w s
  let s ← R.looks pl.after t0 w s
  let (vs, s) ← R.parts p ws s
  let s ← R.leave t0 w s
  return (vs, s)

/-- Then the parts are used. -/
def Rules.splitAndUseIn {S : Type} (R : Rules S) (pl : Plan) (t : Nat) (w : Window)
    (ws : List Window) (us : List Use) (s : S) : Option S := do
  let (vs, s) ← R.splitIn pl t w ws s
  R.uses vs us s

end Borrow

end Householder
