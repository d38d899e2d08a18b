import Verif.Model.Constructors

/-!
# References and the two published aliasing models of Rust

The other files of the model say which cells of memory an operation touches. Rust also has rules
about *which reference* may touch a cell at which time. They are not part of the Rust reference
yet; there are two published candidates, both implemented in the interpreter Miri:

* **Stacked Borrows** (Jung, Dang, Kang, Dreyer, POPL 2020): every cell has a stack of permissions;
* **Tree Borrows** (Villani, Hostert, Dreyer, Jung, PLDI 2025): references form a tree and every
  reference has a permission for every cell.

This file has a small version of each, for one allocation, and the sequences of reference
creations and accesses that the element accessors and `split_in_four_mut` of the crate perform.

Simplifications: no protectors (they only add errors while a function runs that received the
reference as an argument), no interior mutability (the items are plain numbers), no two-phase
borrows; moving a matrix does not create a new reference (with or without such a retagging the
reference that the moved matrix holds covers the same cells); the last steps of `get` and
`get_mut` through the layers `Matrix` and `BaseMatrix` hand on the same reference.
-/

namespace Householder

namespace Borrow

/-- A stretch of cells of one allocation: the first cell and the number of cells. A slice
`&[Item]` or `&mut [Item]` covers such a stretch. -/
structure Window where
  lo : Nat
  len : Nat
  deriving DecidableEq, Repr

/-- The cell lies in the stretch. -/
def Window.Has (w : Window) (x : Nat) : Prop := w.lo ≤ x ∧ x < w.lo + w.len

instance (w : Window) (x : Nat) : Decidable (w.Has x) := by unfold Window.Has; infer_instance

/-- The stretch of one cell, which an `&Item` or `&mut Item` covers. -/
def Window.one (x : Nat) : Window := ⟨x, 1⟩

/-- A use of one of several views: of which view, at which cell, for writing or for reading. -/
structure Use where
  view : Nat
  cell : Nat
  write : Bool
  deriving DecidableEq, Repr

/-- What the borrow checker admits for views that a caller makes with `block` and `block_mut` and
for the element accessors of the matrix itself, which borrow the whole container
(src/data_container.rs:140-142, 154-156: `self.data.get_unchecked(index)` on a `Vec` makes a
slice of all its elements first): either one mutable view is used and then given up, or several
shared views exist at a time and are read. -/
inductive Phase where
  /-- one mutable view, and the cells that are accessed through it (for writing or reading) -/
  | exclusive (w : Window) (accesses : List (Nat × Bool))
  /-- shared views, and the reads: of which view, at which cell -/
  | shared (ws : List Window) (reads : List (Nat × Nat))

/-! ## Stacked Borrows -/

/-- The permissions of Stacked Borrows. -/
inductive Perm where
  /-- of a `&mut` -/
  | unique
  /-- of a raw pointer made from a `&mut` -/
  | sharedRW
  /-- of a `&` -/
  | sharedRO
  /-- of a `&mut` after a read through one of its ancestors -/
  | disabled
  deriving DecidableEq, Repr

/-- An entry of a stack: a reference is known by its tag. -/
structure Entry where
  perm : Perm
  tag : Nat
  deriving DecidableEq, Repr

/-- The entry lets the reference with the tag `t` read or write. -/
def Entry.Grants (write : Bool) (t : Nat) (e : Entry) : Prop :=
  e.tag = t ∧ match e.perm with
    | .unique => True
    | .sharedRW => True
    | .sharedRO => write = false
    | .disabled => False

instance (write : Bool) (t : Nat) (e : Entry) : Decidable (e.Grants write t) := by
  unfold Entry.Grants; cases e.perm <;> infer_instance

/-- The stack of a cell, the top first. -/
abbrev Stack := List Entry

/-- Reading with the tag `t`: the topmost entry that grants it is sought, and the unique entries
above it are disabled. `none` is undefined behaviour. -/
def Stack.read (t : Nat) (s : Stack) : Option Stack :=
  match s.dropWhile (fun e => ¬ e.Grants false t) with
  | [] => none
  | g :: below =>
    some ((s.takeWhile (fun e => ¬ e.Grants false t)).map
      (fun e => if e.perm = .unique then { e with perm := .disabled } else e) ++ g :: below)

/-- Writing with the tag `t`: the topmost entry that grants it is sought, and the entries above it
are removed; above a raw pointer other raw pointers directly on top of it stay. -/
def Stack.write (t : Nat) (s : Stack) : Option Stack :=
  match s.dropWhile (fun e => ¬ e.Grants true t) with
  | [] => none
  | g :: below =>
    let above := s.takeWhile (fun e => ¬ e.Grants true t)
    let kept := if g.perm = .sharedRW
      then (above.reverse.takeWhile (fun e => e.perm = .sharedRW)).reverse else []
    some (kept ++ g :: below)

/-- The stacks of the cells of one allocation, and the next unused tag. -/
structure Stacks where
  stack : Nat → Stack
  next : Nat

namespace Stacks

/-- One access, for writing or for reading, to all cells of a stretch. -/
def access (write : Bool) (t : Nat) (w : Window) (s : Stacks) : Option Stacks :=
  let f := fun (k : Stack) => if write then k.write t else k.read t
  if ∀ i, i < w.len → (f (s.stack (w.lo + i))).isSome then
    some { s with stack := fun x => if w.Has x then (f (s.stack x)).getD [] else s.stack x }
  else none

/-- A new entry on top of the stacks of a stretch. -/
def push (p : Perm) (w : Window) (s : Stacks) : Nat × Stacks :=
  (s.next, { stack := fun x => if w.Has x then ⟨p, s.next⟩ :: s.stack x else s.stack x,
             next := s.next + 1 })

/-- `&mut *p` for a stretch: the cells are accessed for writing through `p`, the new reference
gets a unique entry. `std::slice::from_raw_parts_mut` does this too. -/
def reborrowMut (t : Nat) (w : Window) (s : Stacks) : Option (Nat × Stacks) :=
  (s.access true t w).map (push .unique w)

/-- `&*p` for a stretch: the cells are accessed for reading through `p`, the new reference gets a
shared entry. `std::slice::from_raw_parts` does this too. -/
def reborrow (t : Nat) (w : Window) (s : Stacks) : Option (Nat × Stacks) :=
  (s.access false t w).map (push .sharedRO w)

/-- `*v.get_mut(i, j) = x` on a view whose slice has the tag `t` and covers `w`
(src/data_container.rs:222-224): `self.data.get_unchecked_mut(index)` borrows the whole slice
`self.data` again, borrows the element from that, and the caller writes to the element. -/
def viewSet (t : Nat) (w : Window) (x : Nat) (s : Stacks) : Option Stacks := do
  let (t1, s) ← s.reborrowMut t w
  let (t2, s) ← s.reborrowMut t1 (.one x)
  s.access true t2 (.one x)

/-- `v.get(i, j)` on a view (src/data_container.rs:192-194, 208-210): the same with shared
references. -/
def viewGet (t : Nat) (w : Window) (x : Nat) (s : Stacks) : Option Stacks := do
  let (t1, s) ← s.reborrow t w
  let (t2, s) ← s.reborrow t1 (.one x)
  s.access false t2 (.one x)

/-- Mutable views made one after the other from one raw pointer with the tag `p`
(src/matrix/matrix_slices.rs:112-136: four calls of `from_pointer`, each
`std::slice::from_raw_parts_mut(ptr.offset(start), n)`, src/matrix/constructors.rs). -/
def viewsMut (p : Nat) : List Window → Stacks → Option (List (Nat × Window) × Stacks)
  | [], s => some ([], s)
  | w :: ws, s => do
    let (t, s) ← s.reborrowMut p w
    let (vs, s) ← viewsMut p ws s
    return ((t, w) :: vs, s)

/-- Shared views made one after the other from one raw pointer (`block`,
src/matrix/matrix_slices.rs:19-39, `std::slice::from_raw_parts`). -/
def views (p : Nat) : List Window → Stacks → Option (List (Nat × Window) × Stacks)
  | [], s => some ([], s)
  | w :: ws, s => do
    let (t, s) ← s.reborrow p w
    let (vs, s) ← views p ws s
    return ((t, w) :: vs, s)

/-- One use of a view. -/
def use (vs : List (Nat × Window)) (u : Use) (s : Stacks) : Option Stacks :=
  match vs[u.view]? with
  | none => some s
  | some (t, w) => if u.write then s.viewSet t w u.cell else s.viewGet t w u.cell

/-- A sequence of uses. -/
def uses (vs : List (Nat × Window)) : List Use → Stacks → Option Stacks
  | [], s => some s
  | u :: us, s => do uses vs us (← s.use vs u)

/-- `split_in_four_mut` and a sequence of uses of the four views; `p` is the tag of the pointer
that `get_pointer_mut` returns. -/
def splitAndUse (p : Nat) (ws : List Window) (us : List Use) (s : Stacks) : Option Stacks := do
  let (vs, s) ← s.viewsMut p ws
  s.uses vs us

/-- One phase. -/
def phase (p : Nat) (s : Stacks) : Phase → Option Stacks
  | .exclusive w us => s.splitAndUse p [w] (us.map fun u => ⟨0, u.1, u.2⟩)
  | .shared ws us => do
    let (vs, s) ← s.views p ws
    s.uses vs (us.map fun u => ⟨u.1, u.2, false⟩)

/-- Phases one after the other. -/
def phases (p : Nat) : List Phase → Stacks → Option Stacks
  | [], s => some s
  | f :: fs, s => do phases p fs (← s.phase p f)

end Stacks

/-! ## Tree Borrows -/

/-- The permissions of Tree Borrows. -/
inductive TPerm where
  /-- of a `&mut` before the first write -/
  | reserved
  /-- of a `&mut` after a write -/
  | active
  /-- of a `&` -/
  | frozen
  /-- nothing is allowed any more -/
  | disabled
  deriving DecidableEq, Repr

/-- What a read does to a permission; `near` says that the read goes through the reference itself
or through one derived from it. `none` is undefined behaviour. -/
def TPerm.read (near : Bool) : TPerm → Option TPerm
  | .reserved => some .reserved
  | .active => some (if near then .active else .frozen)
  | .frozen => some .frozen
  | .disabled => if near then none else some .disabled

/-- What a write does to a permission. -/
def TPerm.write (near : Bool) : TPerm → Option TPerm
  | .reserved => some (if near then .active else .disabled)
  | .active => some (if near then .active else .disabled)
  | .frozen => if near then none else some .disabled
  | .disabled => if near then none else some .disabled

/-- The tree of references to one allocation: `path t` has the reference `t` and those it was
derived from. -/
structure Tree where
  path : Nat → List Nat
  perm : Nat → Nat → TPerm
  next : Nat

namespace Tree

/-- What an access through `t` does to the permission of the reference `r`. -/
def change (write : Bool) (T : Tree) (t r x : Nat) : Option TPerm :=
  let near := decide (r ∈ T.path t)
  if write then (T.perm r x).write near else (T.perm r x).read near

/-- One access, for writing or for reading, to all cells of a stretch. -/
def access (write : Bool) (t : Nat) (w : Window) (T : Tree) : Option Tree :=
  if ∀ i, i < w.len → ∀ r, r < T.next → (T.change write t r (w.lo + i)).isSome then
    let perm := fun r x =>
      if w.Has x ∧ r < T.next then (T.change write t r x).getD .disabled else T.perm r x
    some { T with perm := perm }
  else none

/-- A new reference derived from `t`. -/
def push (p : TPerm) (t : Nat) (T : Tree) : Nat × Tree :=
  (T.next, { path := fun r => if r = T.next then T.next :: T.path t else T.path r,
             perm := fun r x => if r = T.next then p else T.perm r x,
             next := T.next + 1 })

/-- `&mut *p` for a stretch: the cells are read through `p`, the new reference is reserved. -/
def reborrowMut (t : Nat) (w : Window) (T : Tree) : Option (Nat × Tree) :=
  (T.access false t w).map (push .reserved t)

/-- `&*p` for a stretch: the cells are read through `p`, the new reference is frozen. -/
def reborrow (t : Nat) (w : Window) (T : Tree) : Option (Nat × Tree) :=
  (T.access false t w).map (push .frozen t)

/-- As `Stacks.viewSet`. -/
def viewSet (t : Nat) (w : Window) (x : Nat) (T : Tree) : Option Tree := do
  let (t1, T) ← T.reborrowMut t w
  let (t2, T) ← T.reborrowMut t1 (.one x)
  T.access true t2 (.one x)

/-- As `Stacks.viewGet`. -/
def viewGet (t : Nat) (w : Window) (x : Nat) (T : Tree) : Option Tree := do
  let (t1, T) ← T.reborrow t w
  let (t2, T) ← T.reborrow t1 (.one x)
  T.access false t2 (.one x)

/-- As `Stacks.viewsMut`. -/
def viewsMut (p : Nat) : List Window → Tree → Option (List (Nat × Window) × Tree)
  | [], T => some ([], T)
  | w :: ws, T => do
    let (t, T) ← T.reborrowMut p w
    let (vs, T) ← viewsMut p ws T
    return ((t, w) :: vs, T)

/-- As `Stacks.views`. -/
def views (p : Nat) : List Window → Tree → Option (List (Nat × Window) × Tree)
  | [], T => some ([], T)
  | w :: ws, T => do
    let (t, T) ← T.reborrow p w
    let (vs, T) ← views p ws T
    return ((t, w) :: vs, T)

/-- One use of a view. -/
def use (vs : List (Nat × Window)) (u : Use) (T : Tree) : Option Tree :=
  match vs[u.view]? with
  | none => some T
  | some (t, w) => if u.write then T.viewSet t w u.cell else T.viewGet t w u.cell

/-- A sequence of uses. -/
def uses (vs : List (Nat × Window)) : List Use → Tree → Option Tree
  | [], T => some T
  | u :: us, T => do uses vs us (← T.use vs u)

/-- As `Stacks.splitAndUse`. -/
def splitAndUse (p : Nat) (ws : List Window) (us : List Use) (T : Tree) : Option Tree := do
  let (vs, T) ← T.viewsMut p ws
  T.uses vs us

/-- One phase. -/
def phase (p : Nat) (T : Tree) : Phase → Option Tree
  | .exclusive w us => T.splitAndUse p [w] (us.map fun u => ⟨0, u.1, u.2⟩)
  | .shared ws us => do
    let (vs, T) ← T.views p ws
    T.uses vs (us.map fun u => ⟨u.1, u.2, false⟩)

/-- Phases one after the other. -/
def phases (p : Nat) : List Phase → Tree → Option Tree
  | [], T => some T
  | f :: fs, T => do phases p fs (← T.phase p f)

end Tree

/-- The window of a container in its allocation. -/
def windowOf (m : BaseMatrix) : Window := ⟨m.data.off, m.data.len⟩

/-- An access of the program to one of the four views: the number of the view, the row and the
column in the view, and whether it is a write. -/
structure QuadUse where
  k : Fin 4
  i : Nat
  j : Nat
  write : Bool
  deriving DecidableEq, Repr

end Borrow

end Householder
