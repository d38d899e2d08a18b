import Verif.Model.Guards

/-!
# The four parts of `split_in_four_mut`, under the rules with protectors

The references are made and used as in `Model/Guards.lean`: the pointer comes from the reference that
the matrix holds (`Model/Borrow.lean` starts at the pointer), the calls of `<[T]>::as_mut_ptr` and
`<[T]>::get_unchecked_mut` protect their parameters while they run, and the matrix itself may be a
parameter of a function that is running.
-/

namespace Householder

namespace Borrow

namespace Rules

variable {S : Type} (R : Rules S)

/-- Slices made one after the other from one pointer with the tag `p`
(src/matrix/matrix_slices.rs:112-136, src/matrix/constructors.rs:135-146). -/
def parts (p : Nat) : List Window → S → Option (List (Nat × Window) × S)
  | [], s => some ([], s)
  | w :: ws, s => do
    let (t, s) ← R.mutRef p w s
    let (vs, s) ← parts p ws s
    return ((t, w) :: vs, s)

/-- One use of a part. -/
def use (vs : List (Nat × Window)) (u : Use) (s : S) : Option S :=
  match vs[u.view]? with
  | none => some s
  | some (t, w) => if u.write then R.set t w u.cell s else R.get t w u.cell s

/-- A sequence of uses. -/
def uses (vs : List (Nat × Window)) : List Use → S → Option S
  | [], s => some s
  | u :: us, s => (R.use vs u s).bind (uses vs us)

/-- `split_in_four_mut` of a matrix whose reference has the tag `t` and covers `w`
(src/matrix/matrix_slices.rs:89-141), and a sequence of uses of the parts, which cover `ws`. -/
def splitAndUse (t : Nat) (w : Window) (ws : List Window) (us : List Use) (s : S) : Option S := do
  let (p, s) ← R.pointerMut t w s
  let (vs, s) ← R.parts p ws s
  R.uses vs us s

end Rules

end Borrow

end Householder
