import Verif.Model.GuardsSplit
import Verif.Model.MatMul

/-!
# Products under the aliasing rules with protectors

A program holds views of several matrices, each of which has its memory to itself, as in
`Model/Guards.lean`, and multiplies them. `matmul` gets pointers to the two factors and the result, in
this order, and the kernel reads the factors and reads and writes the result through these
pointers, in an order that we do not know; so the order is part of the program.

Simplification: the references `mat_a`, `mat_b` and `mat_c` cover the structures, not the elements
(for matrices with an array inside they cover both: `Model/InlineMul.lean`).
-/

namespace Householder

namespace Borrow

/-- An access by the kernel: to which operand, at which element. -/
inductive Touch where
  | a (i l : Nat)
  | b (l j : Nat)
  | c (i j : Nat) (write : Bool)
  deriving Repr

/-- What a program can do with several matrices. -/
inductive Command where
  /-- something with matrix `k` -/
  | deed (k : Nat) (d : Deed)
  /-- `matmul(alpha, a, b, beta, c)`, and what the kernel does. The factors are views of matrices: the
  last mutable view (`none`) or a shared one. The result is the last mutable view of the matrix
  `c`. -/
  | multiply (a b : Nat × Option Nat) (c : Nat) (us : List Touch)

/-- The view that is a factor. -/
def Held.operand (h : Held) : Option Nat → Option Handle
  | none => h.chain.head?
  | some k => h.shared[k]?

/-- An operand as the kernel knows it: of which matrix, the tag of the pointer, and the view. -/
structure Operand where
  slot : Nat
  tag : Nat
  mat : BaseMatrix

/-- The state of one matrix changes. -/
def put {S : Type} (k : Nat) (s : S) (h : Nat → Held × S) : Nat → Held × S :=
  fun n => if n = k then ((h n).1, s) else h n

namespace Rules

variable {S : Type} (R : Rules S)

/-- An access of the kernel to the element `(i, j)` as it finds it with the strides it gets
(src/matrix_multiply.rs:207-229). It stays in the shape it was given. -/
def touch [Target] (t : Nat) (m : BaseMatrix) (write : Bool) (i j : Nat) (s : S) : Option S :=
  if i < m.layout.dim.1 ∧ j < m.layout.dim.2 then
    match m.layout.stride with
    | .ok d =>
      if gemmValid m.get_pointer (asIsize d.1) (asIsize d.2) i j then
        R.access write t (.one (gemmLoc m.get_pointer (asIsize d.1) (asIsize d.2) i j).idx) s
      else none
    | .panic => some s
    | .ub => none
  else some s

/-- The kernel. -/
def kernel [Target] (a b c : Operand) : List Touch → (Nat → Held × S) → Option (Nat → Held × S)
  | [], h => some h
  | .a i l :: us, h => do
    let s ← R.touch a.tag a.mat false i l (h a.slot).2
    kernel a b c us (put a.slot s h)
  | .b l j :: us, h => do
    let s ← R.touch b.tag b.mat false l j (h b.slot).2
    kernel a b c us (put b.slot s h)
  | .c i j w :: us, h => do
    let s ← R.touch c.tag c.mat w i j (h c.slot).2
    kernel a b c us (put c.slot s h)

/-- One command. Calls that panic do nothing, nor do commands on views that are not there, or that
the borrow checker forbids: the result may not be a view of the same matrix as a factor. -/
def obey [Target] (cfg : Cfg) (h : Nat → Held × S) : Command → Option (Nat → Held × S)
  | .deed k d => (R.step cfg (h k).1 (h k).2 d).map fun x n => if n = k then x else h n
  | .multiply a b c us =>
    match (h a.1).1.operand a.2, (h b.1).1.operand b.2, (h c).1.chain with
    | some va, some vb, vc :: _ =>
      if c ≠ a.1 ∧ c ≠ b.1 ∧ va.mat.layout.dim.2 = vb.mat.layout.dim.1 ∧
          vc.mat.layout.dim.1 = va.mat.layout.dim.1 ∧ vc.mat.layout.dim.2 = vb.mat.layout.dim.2 then do
        let (pa, s) ← R.pointer va.tag (windowOf va.mat) (h a.1).2
        let h := put a.1 s h
        let (pb, s) ← R.pointer vb.tag (windowOf vb.mat) (h b.1).2
        let h := put b.1 s h
        let (pc, s) ← R.pointerMut vc.tag (windowOf vc.mat) (h c).2
        let h := put c s h
        let h ← R.kernel ⟨a.1, pa, va.mat⟩ ⟨b.1, pb, vb.mat⟩ ⟨c, pc, vc.mat⟩ us h
        return fun n => if n = c then ({ (h n).1 with shared := [] }, (h n).2) else h n
      else some h
    | _, _, _ => some h

/-- A program. -/
def obeyAll [Target] (cfg : Cfg) : List Command → (Nat → Held × S) → Option (Nat → Held × S)
  | [], h => some h
  | d :: ds, h => (R.obey cfg h d).bind (obeyAll cfg ds)

/-- `matmul(alpha, a, b, beta, c)` of three of the parts `q` of one split matrix, of which `c` is none of
the other two (src/matrix_multiply.rs:155-235); `vs` are the references of the parts. All operands are
parts of one allocation. If the shapes do not match the call panics before it makes pointers. -/
def multiplyThree [Target] (vs : List (Nat × Window)) (q : Fin 4 → BaseMatrix) (ka kb kc : Fin 4)
    (us : List Touch) (s : S) : Option S :=
  match vs[ka.val]?, vs[kb.val]?, vs[kc.val]? with
  | some va, some vb, some vc =>
    if (q ka).layout.dim.2 = (q kb).layout.dim.1 ∧ (q kc).layout.dim.1 = (q ka).layout.dim.1 ∧
        (q kc).layout.dim.2 = (q kb).layout.dim.2 then do
      let (pa, s) ← R.pointer va.1 va.2 s
      let (pb, s) ← R.pointer vb.1 vb.2 s
      let (pc, s) ← R.pointerMut vc.1 vc.2 s
      let h ← R.kernel ⟨0, pa, q ka⟩ ⟨0, pb, q kb⟩ ⟨0, pc, q kc⟩ us fun _ => (⟨[], []⟩, s)
      return (h 0).2
    else some s
  | _, _, _ => some s

/-- `split_in_four_mut` of a matrix whose reference has the tag `t` and covers `w`
(src/matrix/matrix_slices.rs:89-141), and a product of three of the parts `q`. -/
def multiplyParts [Target] (t : Nat) (w : Window) (q : Fin 4 → BaseMatrix) (ka kb kc : Fin 4)
    (us : List Touch) (s : S) : Option S := do
  let (p, s) ← R.pointerMut t w s
  let (vs, s) ← R.parts p [windowOf (q 0), windowOf (q 1), windowOf (q 2), windowOf (q 3)] s
  R.multiplyThree vs q ka kb kc us s

end Rules

end Borrow

end Householder
