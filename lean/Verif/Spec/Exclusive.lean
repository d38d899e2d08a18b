import Verif.Spec.Lifetimes
import Verif.Spec.Matrix

/-!
# Exclusive borrows

What Rust's rule "shared or mutable" demands of programs that use the library, on top of the rules
for moves and drops of `Spec/Lifetimes.lean`, and what it promises.
-/

namespace Householder.Spec

variable {α : Type}

/-- A step of a program together with the choice between the two variants of an operation:
`block_mut` instead of `block` (src/matrix/matrix_slices.rs:48, 19), a `SliceContainerMut` instead of
a `SliceContainer` (src/data_container.rs:94, 89). -/
structure XOp (α : Type) where
  mutable : Bool
  op : LOp α

/-- A program with lifetimes and exclusive borrows. -/
structure XSt (α : Type) where
  t : LSt α
  /-- the value can be written to: its container is a `DataContainerMut`
  (src/data_container.rs:153, 179, 221; src/base_matrix.rs:75, 162) -/
  writable : Nat → Bool
  /-- the values that it borrows from exclusively -/
  excl : Nat → List Nat
  /-- the value refers to a part of a split -/
  part : Nat → Bool

/-- The operands whose exclusive borrow is part of the type of the result: `block_mut<'a>(&'a mut
self, ..) -> SliceMatrixMut<'a, ..>` (src/matrix/matrix_slices.rs:48-52), `split_in_four_mut<'a>(&'a
mut self, ..)` (src/matrix/matrix_slices.rs:89-97). -/
def Op.exclusive (mutable : Bool) : Op α → List Nat
  | .block h _ _ => if mutable then [h] else []
  | .split h _ => [h]
  | _ => []

/-- The operands taken by `&mut`. -/
def Op.takesMut (mutable : Bool) (op : Op α) : List Nat :=
  op.writesTo.toList ++ op.exclusive mutable

/-- Whether the new values of the operation can be written to. -/
def Op.givesMut (mutable : Bool) : Op α → Bool
  | .fromSlice .. | .block .. => mutable
  | .split .. => true
  | op => op.owns

/-- Whether the new values of the operation refer to parts of a split. -/
def Op.givesPart (part : Nat → Bool) : Op α → Bool
  | .split .. => true
  | op => (op.moves ++ op.borrows).any part

namespace XSt

/-- The start of a program. -/
def init : XSt α := ⟨LSt.init, fun _ => false, fun _ => [], fun _ => false⟩

/-- After a step that took the program to `t'`: the values that are new. -/
def after (x : XSt α) (op : XOp α) (t' : LSt α) : XSt α :=
  match op.op with
  | .run o =>
    let new := fun h => decide (x.t.st.mats.length ≤ h ∧ h < t'.st.mats.length)
    { t := t'
      writable := fun h => if new h then o.givesMut op.mutable else x.writable h
      excl := fun h => if new h then o.exclusive op.mutable ++ o.moves.flatMap x.excl else x.excl h
      part := fun h => if new h then o.givesPart x.part else x.part h }
  | _ => { x with t := t' }

end XSt

section

variable [Zero α] [One α] [Add α] [Mul α]

/-- One step. -/
def XOp.step [Target] (cfg : Cfg) (kern : Kern α) (x : XSt α) (op : XOp α) : Option (Obs α × XSt α) :=
  (op.op.step cfg kern x.t).map fun y => (y.1, x.after op y.2)

/-- A program. -/
def runExclusive [Target] (cfg : Cfg) (kern : Kern α) : XSt α → List (XOp α) → Option (List (Obs α) × XSt α)
  | x, [] => some ([], x)
  | x, op :: ops => do
    let y ← op.step cfg kern x
    let z ← runExclusive cfg kern y.2 ops
    return (y.1 :: z.1, z.2)

/-- A condition on each step of a program, in the state in which it is run. -/
def AlongExclusive [Target] (cfg : Cfg) (kern : Kern α) (P : XSt α → XOp α → Prop) :
    XSt α → List (XOp α) → Prop
  | _, [] => True
  | x, op :: ops => P x op ∧ ∀ o x', op.step cfg kern x = some (o, x') →
      AlongExclusive cfg kern P x' ops

end

/-- No value that is still there borrows exclusively from the value `h`. -/
def Readable (x : XSt α) (h : Nat) : Prop := ∀ g, (x.t.life g).live = true → h ∉ x.excl g

/-- What the borrow checker demands: the rules for moves and drops; operands are not exclusively
borrowed; an operand taken by `&mut` can be written to, is not borrowed at all, and is only one of
the operands. (A borrow ends when the borrowing value is dropped; where Rust lets a borrow end
earlier, the program here drops the value there.) -/
def Checked (x : XSt α) (op : XOp α) : Prop :=
  Admitted x.t op.op ∧
  match op.op with
  | .run o => (∀ h ∈ o.operands, Readable x h) ∧
      ∀ h ∈ o.takesMut op.mutable, x.writable h = true ∧ NotLent x.t h ∧ o.operands.count h = 1
  | _ => True

/-- The conditions of C50 except for those on the overlap of operands. -/
def Plain [Target] (cfg : Cfg) (x : XSt α) (op : XOp α) : Prop :=
  match op.op with
  | .run o => NoStrides o ∧ NoEmptyBlock o ∧ (cfg.overflowChecks = true ∨ NoWrap x.t.st o)
  | _ => True

/-- `matmul` does not multiply parts of splits into parts of splits, unless their windows do not
overlap. -/
def PartsApart (x : XSt α) (op : XOp α) : Prop :=
  match op.op with
  | .run (.matmul _ a b _ c) => ∀ mc, x.t.st.base? c = some mc → x.part c = true →
      (∀ ma, x.t.st.base? a = some ma → x.part a = true → ∀ q, inWindow q mc → ¬ inWindow q ma) ∧
      (∀ mb, x.t.st.base? b = some mb → x.part b = true → ∀ q, inWindow q mc → ¬ inWindow q mb)
  | _ => True

/-- Parts of splits are not written to by `get_slice_mut` and `matmul`, and blocks of them show
elements of them. -/
def PartsKept [Target] (cfg : Cfg) (x : XSt α) (op : XOp α) : Prop :=
  match op.op with
  | .run (.writeSlice h _ _ _) => x.part h = false
  | .run (.matmul _ _ _ _ c) => x.part c = false
  | .run (.block h tl d) => x.part h = true → ∀ b v, x.t.st.base? h = some b →
      b.block cfg tl d = .ok v → ∀ i j, Stored v.layout i j →
        ∃ r c, Stored b.layout r c ∧ cell v i j = cell b r c
  | _ => True

end Householder.Spec
