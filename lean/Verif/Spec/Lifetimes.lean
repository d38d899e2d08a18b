import Verif.Spec.Histories
import Verif.Spec.Alloc

/-!
# Lifetimes and deallocation

Programs that also drop values. The library has no `Drop` implementation of its own: storage goes
when the value that owns it goes. What the signatures say about moves and borrows is written down
here operation by operation; the rules for moves and borrows themselves are Rust's.
-/

namespace Householder.Spec

variable {α : Type}

/-- The allocations that an expression refers to. -/
def storage : Mat α → List Nat
  | .base b => [b.data.buf]
  | .ref m => storage m
  | .addition a b _ => storage a ++ storage b
  | .scalarMult m _ => storage m

/-- The operands that the operation takes by value: `a + b` and `a + &b` take `a`, `a + b` and
`&a + b` take `b` (src/addition.rs:151, 171, 191, 220), `s * a` and `a * s` take `a`
(src/scalar_mult.rs:117, 133, 147, 163). All other functions take references. -/
def Op.moves : Op α → List Nat
  | .add refLeft refRight h1 h2 =>
      (if refLeft then [] else [h1]) ++ (if refRight then [] else [h2])
  | .scale _ byRef _ h => if byRef then [] else [h]
  | _ => []

/-- The operands whose borrow is part of the type of the result: `block<'a>(&'a self, ..) ->
SliceMatrix<'a, ..>` and `block_mut` (src/matrix/matrix_slices.rs:19-23, 48-52),
`split_in_four_mut<'a>(&'a mut self, ..)` (src/matrix/matrix_slices.rs:89-97), `from_ref<'a>(&'a ..)
-> RefMat<'a, ..>` (src/matrix.rs:129-131), and the operands by reference of the operators, which
become a `MatrixRef<'a, ..>` (src/addition.rs:168-222, src/scalar_mult.rs:130-135, 160-165). `eval`,
`dot` and the constructors return matrices without a lifetime (src/matrix/common_impl.rs:79,
src/matrix_multiply.rs:31). -/
def Op.borrows : Op α → List Nat
  | .block h _ _ | .split h _ | .ref h => [h]
  | .add refLeft refRight h1 h2 =>
      (if refLeft then [h1] else []) ++ (if refRight then [h2] else [])
  | .scale _ byRef _ h => if byRef then [h] else []
  | _ => []

/-- All operands. -/
def Op.operands : Op α → List Nat
  | .element h _ | .get h _ _ | .get1d h _ | .forEach h _ | .fillRand h _ | .readSlice h _ _
  | .writeSlice h _ _ _ | .block h _ _ | .split h _ | .ref h | .scale _ _ _ h | .eval h => [h]
  | .add _ _ a b | .dot a b => [a, b]
  | .matmul _ a b _ c => [a, b, c]
  | _ => []

/-- The operation wraps a slice that the program owns (`SliceContainer<'a, _>` holds a `&'a [Item]`,
src/data_container.rs:89-96, 123-137). -/
def Op.wrapsSlice : Op α → Bool
  | .fromSlice .. => true
  | _ => false

/-- What Rust knows about a value. -/
structure Life where
  /-- neither moved nor dropped -/
  live : Bool
  /-- the allocations of the owning containers in the value -/
  owns : List Nat
  /-- the values that it borrows from -/
  lenders : List Nat
  /-- the slices of the program that it borrows -/
  slices : List Nat
  deriving DecidableEq, Repr

/-- A program with lifetimes: memory and values, what Rust knows about each value, the allocations
that belong to the program itself, and the allocations freed so far. -/
structure LSt (α : Type) where
  st : St α
  life : Nat → Life
  program : List Nat
  freed : List Nat

/-- What is left of a value that was moved or dropped: nothing. (An empty matrix without storage.) -/
def gone : Mat α := .base ⟨⟨0, 0, 0⟩, .rowMajor ⟨(0, 0)⟩, .dynamic, .dynamic⟩

namespace LSt

/-- The start of a program. -/
def init : LSt α := ⟨St.init, fun _ => ⟨false, [], [], []⟩, [], []⟩

/-- Freeing an allocation; freeing it again is undefined behaviour. No cell of a freed allocation
exists, so that reading or writing there is undefined behaviour. -/
def free (t : LSt α) (b : Nat) : Option (LSt α) :=
  if b < t.st.mem.bufs.length ∧ b ∉ t.freed then
    some { t with st := ⟨⟨t.st.mem.bufs.set b []⟩, t.st.mats⟩, freed := b :: t.freed }
  else none

/-- The values `hs` are no longer there. -/
def leave (t : LSt α) (hs : List Nat) : LSt α :=
  { t with
    st := ⟨t.st.mem, t.st.mats.mapIdx fun h m => if h ∈ hs then gone else m⟩
    life := fun h => if h ∈ hs then { t.life h with live := false } else t.life h }

/-- Dropping values: everything they own is freed. -/
def drop (t : LSt α) (hs : List Nat) : Option (LSt α) := do
  let t' ← (hs.flatMap fun h => (t.life h).owns).foldlM free t
  return t'.leave hs

/-- What Rust knows about the new values of a successful operation: a new matrix owns the new
allocation; an expression owns and borrows what its operands by value owned and borrowed, and
borrows its operands by reference. -/
def newLife (t : LSt α) (op : Op α) : Life where
  live := true
  owns := if op.owns then (if op.wrapsSlice then [] else [t.st.mem.bufs.length])
    else op.moves.flatMap fun h => (t.life h).owns
  lenders := op.borrows ++ op.moves.flatMap fun h => (t.life h).lenders
  slices := if op.wrapsSlice then [t.st.mem.bufs.length]
    else op.moves.flatMap fun h => (t.life h).slices

/-- After a successful operation that took the state of the program to `s'`. -/
def after (t : LSt α) (op : Op α) (s' : St α) : LSt α :=
  leave { t with
    st := s'
    life := fun h => if t.st.mats.length ≤ h ∧ h < s'.mats.length then t.newLife op else t.life h
    program := if op.wrapsSlice then t.st.mem.bufs.length :: t.program else t.program } op.moves

end LSt

/-- What a program with lifetimes may do. -/
inductive LOp (α : Type) where
  /-- an operation of the library -/
  | run (op : Op α)
  /-- dropping a value -/
  | drop (h : Nat)
  /-- dropping a slice of the program's own -/
  | dropSlice (b : Nat)

section

variable [Zero α] [One α] [Add α] [Mul α]

/-- One step. When an operation panics, its operands by value are dropped. -/
def LOp.step [Target] (cfg : Cfg) (kern : Kern α) (t : LSt α) : LOp α → Option (Obs α × LSt α)
  | .run op =>
      match op.exec cfg kern t.st with
      | .ok (o, s') => some (o, t.after op s')
      | .panic => (t.drop op.moves).map fun t' => (.panicked, t')
      | .ub => none
  | .drop h => (t.drop [h]).map fun t' => (.done, t')
  | .dropSlice b => (t.free b).map fun t' => (.done, t')

/-- A program. -/
def runLife [Target] (cfg : Cfg) (kern : Kern α) : LSt α → List (LOp α) → Option (List (Obs α) × LSt α)
  | t, [] => some ([], t)
  | t, op :: ops => do
    let x ← op.step cfg kern t
    let y ← runLife cfg kern x.2 ops
    return (x.1 :: y.1, y.2)

/-- A condition on each operation of a program, in the state in which it is run. -/
def AlongLife [Target] (cfg : Cfg) (kern : Kern α) (P : LSt α → LOp α → Prop) :
    LSt α → List (LOp α) → Prop
  | _, [] => True
  | t, op :: ops => P t op ∧ ∀ o t', op.step cfg kern t = some (o, t') →
      AlongLife cfg kern P t' ops

end

/-- No value that is still there borrows from the value `h`. -/
def NotLent (t : LSt α) (h : Nat) : Prop := ∀ g, (t.life g).live = true → h ∉ (t.life g).lenders

/-- What the borrow checker demands (as far as moves and drops are concerned): operands have neither
been moved nor dropped; a value that is moved or dropped is not borrowed; a value is not moved
twice, and not moved and borrowed at once; a slice is not dropped while it is borrowed. -/
def Admitted (t : LSt α) : LOp α → Prop
  | .run op => (∀ h ∈ op.operands, (t.life h).live = true) ∧ (∀ h ∈ op.moves, NotLent t h) ∧
      op.moves.Nodup ∧ ∀ h ∈ op.moves, h ∉ op.borrows
  | .drop h => (t.life h).live = true ∧ NotLent t h
  | .dropSlice b => b ∈ t.program ∧ b ∉ t.freed ∧
      ∀ g, (t.life g).live = true → b ∉ (t.life g).slices

/-- The program without its drops. -/
def withoutDrops (ops : List (LOp α)) : List (Op α) :=
  ops.filterMap fun
    | .run op => some op
    | _ => none

/-- What the operations of the library returned. -/
def returned (ops : List (LOp α)) (os : List (Obs α)) : List (Obs α) :=
  (ops.zip os).filterMap fun
    | (.run _, o) => some o
    | _ => none

/-- The conditions of C50 on the operations of the library. -/
def Careful [Target] (cfg : Cfg) (t : LSt α) : LOp α → Prop
  | .run op => NoStrides op ∧ NoOverlap t.st op ∧ NoEmptyBlock op ∧
      (cfg.overflowChecks = true ∨ NoWrap t.st op)
  | _ => True

end Householder.Spec
