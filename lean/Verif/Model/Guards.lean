import Verif.Model.Borrow

/-!
# Views of views, and protectors

`Model/Borrow.lean` leaves out protectors and follows views one level deep. Here both are put in. A
*protector* belongs to a reference that was passed to a function: until the function returns, nothing
may take the reference its rights (Stacked Borrows: no access may remove or disable its entry; Tree
Borrows: no access through an unrelated reference may end them).

A program holds a chain of mutable views, each made from the one before it by `block_mut`, and
shared views made by `block` from the last of the chain or from each other. This is what the borrow
checker leaves of all ways to hold views: a mutable view borrows the whole view that it is made
of. (The four parts of `split_in_four_mut` are the exception; see C68 and C69.)

The steps follow the source and the standard library: `self.data.get_unchecked_mut(i)` borrows
the slice `*self.data` again and passes it to `<[T]>::get_unchecked_mut`, which borrows the element
from it; `self.data.as_mut_ptr()` borrows the slice, passes it to `<[T]>::as_mut_ptr`, and gets a
raw pointer; `from_raw_parts_mut` makes a reference from that.

Simplifications: the new reference that Stacked Borrows makes when a reference is returned or moved is
left out (it covers the same cells and is used instead of the old one); two-phase borrows make no
difference, since nothing happens between the two phases here.
-/

namespace Householder

namespace Borrow

/-- What the two aliasing models provide: references, raw pointers, accesses and protectors. The
number is the tag of the reference that is used. `none` is undefined behaviour. -/
structure Rules (S : Type) where
  /-- `&mut *p` for a stretch of cells -/
  mutRef : Nat → Window → S → Option (Nat × S)
  /-- `&*p` for a stretch of cells -/
  shrRef : Nat → Window → S → Option (Nat × S)
  /-- `p as *mut T` -/
  mutRaw : Nat → Window → S → Option (Nat × S)
  /-- `p as *const T` -/
  shrRaw : Nat → Window → S → Option (Nat × S)
  /-- an access, for writing or for reading -/
  access : Bool → Nat → Window → S → Option S
  /-- the reference has been passed to a function -/
  enter : Nat → S → S
  /-- that function returns -/
  leave : Nat → Window → S → Option S

/-! ## Stacked Borrows with protectors -/

/-- The stacks, and the references that are protected. -/
structure GStacks where
  cells : Stacks
  prot : List Nat

namespace GStacks

/-- An access that is allowed by the stacks and leaves all entries of protected references where
and what they are. -/
def access (write : Bool) (t : Nat) (w : Window) (g : GStacks) : Option GStacks :=
  match g.cells.access write t w with
  | none => none
  | some s' =>
    if ∀ i, i < w.len → ∀ e ∈ g.cells.stack (w.lo + i), e.tag ∈ g.prot →
        e ∈ s'.stack (w.lo + i) then some { g with cells := s' }
    else none

/-- A new entry. -/
def push (p : Perm) (w : Window) (g : GStacks) : Nat × GStacks :=
  (g.cells.next, { g with cells := (g.cells.push p w).2 })

/-- The rules of Stacked Borrows. -/
def rules : Rules GStacks where
  mutRef t w g := (g.access true t w).map (push .unique w)
  shrRef t w g := (g.access false t w).map (push .sharedRO w)
  mutRaw t w g := (g.access true t w).map (push .sharedRW w)
  shrRaw t w g := (g.access false t w).map (push .sharedRO w)
  access := access
  enter t g := { g with prot := t :: g.prot }
  leave t _ g := some { g with prot := g.prot.filter (· ≠ t) }

end GStacks

/-! ## Tree Borrows with protectors -/

/-- The permissions of Tree Borrows. -/
inductive GPerm where
  /-- of a `&mut` before the first write -/
  | reserved
  /-- the same, after a read through an unrelated reference while it was protected -/
  | conflicted
  /-- of a `&mut` after a write -/
  | active
  /-- of a `&` -/
  | frozen
  /-- nothing is allowed any more -/
  | disabled
  deriving DecidableEq, Repr

/-- What a read does to a permission; `near` says that it goes through the reference itself or
one derived from it, `prot` that the reference is protected. -/
def GPerm.read (prot near : Bool) : GPerm → Option GPerm
  | .reserved => some (if ¬ near ∧ prot then .conflicted else .reserved)
  | .conflicted => some .conflicted
  | .active => if near then some .active else if prot then none else some .frozen
  | .frozen => some .frozen
  | .disabled => if near then none else some .disabled

/-- What a write does to a permission. -/
def GPerm.write (prot near : Bool) (p : GPerm) : Option GPerm :=
  if near then
    match p with
    | .reserved => some .active
    | .conflicted => if prot then none else some .active
    | .active => some .active
    | .frozen => none
    | .disabled => none
  else if prot ∧ p ≠ .disabled then none else some .disabled

/-- The tree of references to one allocation: `path t` has the reference `t` and those it was
derived from. -/
structure GTree where
  path : Nat → List Nat
  perm : Nat → Nat → GPerm
  next : Nat
  prot : List Nat

namespace GTree

/-- What an access through `t` does to the permission of the reference `r`. -/
def change (write : Bool) (T : GTree) (t r x : Nat) : Option GPerm :=
  let near := decide (r ∈ T.path t)
  let prot := decide (r ∈ T.prot)
  if write then (T.perm r x).write prot near else (T.perm r x).read prot near

/-- One access to all cells of a stretch. -/
def access (write : Bool) (t : Nat) (w : Window) (T : GTree) : Option GTree :=
  if ∀ i, i < w.len → ∀ r, r < T.next → (T.change write t r (w.lo + i)).isSome then
    let perm := fun r x =>
      if w.Has x ∧ r < T.next then (T.change write t r x).getD .disabled else T.perm r x
    some { T with perm := perm }
  else none

/-- A new reference derived from `t`. -/
def push (p : GPerm) (t : Nat) (T : GTree) : Nat × GTree :=
  (T.next, { T with path := fun r => if r = T.next then T.next :: T.path t else T.path r,
                    perm := fun r x => if r = T.next then p else T.perm r x,
                    next := T.next + 1 })

/-- What the end of the protection of `t` does to the permission of `r`: an access through `t`,
for writing where `t` has written, that references derived from `t` do not notice. -/
def ending (T : GTree) (t r x : Nat) : Option GPerm :=
  if t ∈ T.path r ∧ r ≠ t then some (T.perm r x)
  else T.change (decide (T.perm t x = .active)) t r x

/-- The function returns to which `t` was passed. The protector ends after the access. -/
def leave (t : Nat) (w : Window) (T : GTree) : Option GTree :=
  if ∀ i, i < w.len → ∀ r, r < T.next → (T.ending t r (w.lo + i)).isSome then
    let perm := fun r x =>
      if w.Has x ∧ r < T.next then (T.ending t r x).getD .disabled else T.perm r x
    some { T with perm := perm, prot := T.prot.filter (· ≠ t) }
  else none

/-- The rules of Tree Borrows. A raw pointer has the tag of the reference it is made of. -/
def rules : Rules GTree where
  mutRef t w T := (T.access false t w).map (push .reserved t)
  shrRef t w T := (T.access false t w).map (push .frozen t)
  mutRaw t _ T := some (t, T)
  shrRaw t _ T := some (t, T)
  access := access
  enter t T := { T with prot := t :: T.prot }
  leave := leave

end GTree

/-! ## What the crate does -/

namespace Rules

variable {S : Type} (R : Rules S)

/-- `self.data.get_unchecked_mut(index)` and a write to the element
(src/data_container.rs:154-156, 180-182, 222-224). -/
def set (t : Nat) (w : Window) (x : Nat) (s : S) : Option S := do
  let (t1, s) ← R.mutRef t w s
  let (t2, s) ← R.mutRef t1 w s
  let (t3, s) ← R.mutRef t2 (.one x) (R.enter t2 s)
  let s ← R.leave t2 w s
  R.access true t3 (.one x) s

/-- `*self.data.get_unchecked(index)` (src/data_container.rs:140-142, 166-168, 192-194, 208-210). -/
def get (t : Nat) (w : Window) (x : Nat) (s : S) : Option S := do
  let (t1, s) ← R.shrRef t w s
  let (t2, s) ← R.shrRef t1 w s
  let (t3, s) ← R.shrRef t2 (.one x) (R.enter t2 s)
  let s ← R.leave t2 w s
  R.access false t3 (.one x) s

/-- `self.data.as_mut_ptr()` (src/data_container.rs:158-160, 184-186, 226-228). -/
def pointerMut (t : Nat) (w : Window) (s : S) : Option (Nat × S) := do
  let (t1, s) ← R.mutRef t w s
  let (t2, s) ← R.mutRef t1 w s
  let (t3, s) ← R.mutRaw t2 w (R.enter t2 s)
  let s ← R.leave t2 w s
  return (t3, s)

/-- `self.data.as_ptr()` (src/data_container.rs:144-146, 170-172, 196-198, 212-214). -/
def pointer (t : Nat) (w : Window) (s : S) : Option (Nat × S) := do
  let (t1, s) ← R.shrRef t w s
  let (t2, s) ← R.shrRef t1 w s
  let (t3, s) ← R.shrRaw t2 w (R.enter t2 s)
  let s ← R.leave t2 w s
  return (t3, s)

/-- `block_mut` and `get_slice_mut`: a pointer, and `std::slice::from_raw_parts_mut`
(src/matrix/matrix_slices.rs:48-71, src/matrix/constructors.rs:135-146,
src/data_container.rs:53-77). -/
def viewMut (t : Nat) (w w' : Window) (s : S) : Option (Nat × S) := do
  let (p, s) ← R.pointerMut t w s
  R.mutRef p w' s

/-- `block` and `get_slice`: a pointer, and `std::slice::from_raw_parts`
(src/matrix/matrix_slices.rs:19-39, src/matrix/constructors.rs:151-162,
src/data_container.rs:23-40). -/
def view (t : Nat) (w w' : Window) (s : S) : Option (Nat × S) := do
  let (p, s) ← R.pointer t w s
  R.shrRef p w' s

end Rules

/-! ## Programs -/

/-- A view that the program holds: its reference, the matrix, and whether the reference is a
parameter of a function that is running. -/
structure Handle where
  tag : Nat
  mat : BaseMatrix
  arg : Bool

/-- The views that a program holds: the chain of mutable views, the last first, and the shared
views made of the last. -/
structure Held where
  chain : List Handle
  shared : List Handle

/-- What a program can do. -/
inductive Deed where
  /-- `*v.get_mut(i, j) = x` on the last mutable view -/
  | set (i j : Nat)
  /-- `v.get(i, j)` on the last mutable view -/
  | get (i j : Nat)
  /-- `v.get(i, j)` on a shared view -/
  | read (k i j : Nat)
  /-- `v.block_mut(top_left, dim)` on the last mutable view -/
  | blockMut (top_left dim : Nat × Nat)
  /-- the slice of the last mutable view is borrowed again and passed to a function (this covers
  a view that is passed by value, if the references inside a parameter are protected too) -/
  | call
  /-- the last mutable view is given up; if it is a parameter the function returns -/
  | drop
  /-- `v.block(top_left, dim)` on the last mutable view -/
  | block (top_left dim : Nat × Nat)
  /-- `v.block(top_left, dim)` on a shared view -/
  | blockOf (k : Nat) (top_left dim : Nat × Nat)
  /-- `v.get_slice_mut(first, last)` on the last mutable view, and accesses to the slice -/
  | sliceMut (first last : Nat) (uses : List (Nat × Bool))
  deriving Repr

/-- Accesses through one reference. -/
def Rules.accesses {S : Type} (R : Rules S) (t : Nat) : List (Nat × Bool) → S → Option S
  | [], s => some s
  | u :: us, s => (R.access u.2 t (.one u.1) s).bind (R.accesses t us)

/-- One deed. Calls that panic do nothing; neither do deeds on views that are not there. The
mutable uses end the shared views. -/
def Rules.step [Target] {S : Type} (R : Rules S) (cfg : Cfg) (h : Held) (s : S) :
    Deed → Option (Held × S)
  | .set i j =>
    match h.chain with
    | [] => some (h, s)
    | v :: _ =>
      match v.mat.get_mut cfg i j with
      | .ok l => (R.set v.tag (windowOf v.mat) l.idx s).map fun s => ({ h with shared := [] }, s)
      | .panic => some (h, s)
      | .ub => none
  | .get i j =>
    match h.chain with
    | [] => some (h, s)
    | v :: _ =>
      match v.mat.get_mut cfg i j with
      | .ok l => (R.get v.tag (windowOf v.mat) l.idx s).map fun s => (h, s)
      | .panic => some (h, s)
      | .ub => none
  | .read k i j =>
    match h.shared[k]? with
    | none => some (h, s)
    | some v =>
      match v.mat.get_mut cfg i j with
      | .ok l => (R.get v.tag (windowOf v.mat) l.idx s).map fun s => (h, s)
      | .panic => some (h, s)
      | .ub => none
  | .blockMut tl d =>
    match h.chain with
    | [] => some (h, s)
    | v :: vs =>
      match v.mat.block cfg tl d with
      | .ok b => (R.viewMut v.tag (windowOf v.mat) (windowOf b) s).map fun (t, s) =>
          (⟨⟨t, b, false⟩ :: v :: vs, []⟩, s)
      | .panic => some (h, s)
      | .ub => none
  | .call =>
    match h.chain with
    | [] => some (h, s)
    | v :: vs => (R.mutRef v.tag (windowOf v.mat) s).map fun (t, s) =>
        (⟨⟨t, v.mat, true⟩ :: v :: vs, []⟩, R.enter t s)
  | .drop =>
    match h.chain with
    | [] => some (h, s)
    | v :: vs =>
      if v.arg then (R.leave v.tag (windowOf v.mat) s).map fun s => (⟨vs, []⟩, s)
      else some (⟨vs, []⟩, s)
  | .block tl d =>
    match h.chain with
    | [] => some (h, s)
    | v :: _ =>
      match v.mat.block cfg tl d with
      | .ok b => (R.view v.tag (windowOf v.mat) (windowOf b) s).map fun (t, s) =>
          ({ h with shared := h.shared ++ [⟨t, b, false⟩] }, s)
      | .panic => some (h, s)
      | .ub => none
  | .blockOf k tl d =>
    match h.shared[k]? with
    | none => some (h, s)
    | some v =>
      match v.mat.block cfg tl d with
      | .ok b => (R.view v.tag (windowOf v.mat) (windowOf b) s).map fun (t, s) =>
          ({ h with shared := h.shared ++ [⟨t, b, false⟩] }, s)
      | .panic => some (h, s)
      | .ub => none
  | .sliceMut first last us =>
    match h.chain with
    | [] => some (h, s)
    | v :: _ =>
      match v.mat.data.get_slice_mut first last with
      | .ok c => do
        let (t, s) ← R.viewMut v.tag (windowOf v.mat) ⟨c.off, c.len⟩ s
        let s ← R.accesses t (us.filterMap fun u =>
          if u.1 < c.len then some (c.off + u.1, u.2) else none) s
        return ({ h with shared := [] }, s)
      | .panic => some (h, s)
      | .ub => none

/-- A program. -/
def Rules.run [Target] {S : Type} (R : Rules S) (cfg : Cfg) : List Deed → Held × S → Option (Held × S)
  | [], x => some x
  | d :: ds, x => (R.step cfg x.1 x.2 d).bind (R.run cfg ds)

end Borrow

end Householder
