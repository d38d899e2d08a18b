import Verif.Model.Inline
import Verif.Model.GuardsMul

/-!
# Products of matrices that hold their elements inside themselves

As in `Model/GuardsMul.lean`, a program holds views of several matrices, each of which has its memory
to itself, and multiplies them; but any of the matrices may have its elements inside itself. Then
`mat_a`, `mat_b` and `mat_c` of `matmul` are references to the elements too, they are protected until
`matmul` returns, and `mat_a.layout()` and so on read the elements as far as the aliasing models are
concerned. The kernel goes on using its pointers all the while.

How often the layouts are looked up, and through how many methods the pointers are got, is a parameter
of each call (`Plan`).
-/

namespace Householder

namespace Borrow

/-- What a program can do with several matrices. -/
inductive Order where
  /-- something with matrix `k` -/
  | deed (k : Nat) (d : Deed) (pl : Plan)
  /-- `matmul(alpha, a, b, beta, c)`, as in `Command` -/
  | multiply (a b : Nat × Option Nat) (c : Nat) (pa pb pc : Plan) (us : List Touch)

/-- Is the factor the matrix itself, with its elements inside, or a reference to it? -/
def Body.inside (b : Body) (o : Option Nat) : Bool := decide (o = none ∧ b.Inside)

namespace Rules

variable {S : Type} (R : Rules S)

/-- A factor is passed to `matmul` (src/matrix_multiply.rs:191-192). Without elements inside, the
reference does not cover the elements. -/
def pass (inside : Bool) (t : Nat) (w : Window) (s : S) : Option (Nat × S) :=
  if inside then (R.shrRef t w s).map fun x => (x.1, R.enter x.1 x.2) else some (t, s)

/-- The result is passed (src/matrix_multiply.rs:194). -/
def passMut (inside : Bool) (t : Nat) (w : Window) (s : S) : Option (Nat × S) :=
  if inside then (R.mutRef t w s).map fun x => (x.1, R.enter x.1 x.2) else some (t, s)

/-- The layout of an operand is looked up (src/matrix_multiply.rs:196-198, 211-216). -/
def seek (inside : Bool) (ns : List Nat) (t : Nat) (w : Window) (s : S) : Option S :=
  if inside then R.looks ns t w s else some s

/-- The pointer to a factor (src/matrix_multiply.rs:224, 227). -/
def reach (inside : Bool) (l : List (List Nat)) (t : Nat) (w : Window) (s : S) : Option (Nat × S) :=
  if inside then R.pointerIn l t w s else R.pointer t w s

/-- The pointer to the result (src/matrix_multiply.rs:231). -/
def reachMut (inside : Bool) (l : List (List Nat)) (t : Nat) (w : Window) (s : S) :
    Option (Nat × S) :=
  if inside then R.pointerMutIn l t w s else R.pointerMut t w s

/-- `matmul` returns. -/
def release (inside : Bool) (t : Nat) (w : Window) (s : S) : Option S :=
  if inside then R.leave t w s else some s

/-- `matmul` of the operands `va`, `vb`, `vc` of the matrices `a`, `b`, `c`
(src/matrix_multiply.rs:189-236): the operands are passed, the layouts looked up, the pointers got in
turn, the kernel runs, and the function returns. -/
def product [Target] (ia ib ic : Bool) (a b c : Nat) (va vb vc : Handle) (pa pb pc : Plan)
    (us : List Touch) (h : Nat → Held × S) : Option (Nat → Held × S) := do
  let wa := windowOf va.mat
  let wb := windowOf vb.mat
  let wc := windowOf vc.mat
  let (ta, s) ← R.pass ia va.tag wa (h a).2
  let h := put a s h
  let (tb, s) ← R.pass ib vb.tag wb (h b).2
  let h := put b s h
  let (tc, s) ← R.passMut ic vc.tag wc (h c).2
  let h := put c s h
  let s ← R.seek ia pa.before ta wa (h a).2
  let h := put a s h
  let s ← R.seek ib pb.before tb wb (h b).2
  let h := put b s h
  let s ← R.seek ic pc.before tc wc (h c).2
  let h := put c s h
  let (qa, s) ← R.reach ia pa.inner ta wa (h a).2
  let h := put a s h
  let (qb, s) ← R.reach ib pb.inner tb wb (h b).2
  let h := put b s h
  let (qc, s) ← R.reachMut ic pc.inner tc wc (h c).2
  let h := put c s h
  let h ← R.kernel ⟨a, qa, va.mat⟩ ⟨b, qb, vb.mat⟩ ⟨c, qc, vc.mat⟩ us h
  let s ← R.release ia ta wa (h a).2
  let h := put a s h
  let s ← R.release ib tb wb (h b).2
  let h := put b s h
  let s ← R.release ic tc wc (h c).2
  return put c s h

/-- `matmul` of operands whose shapes do not match (src/matrix_multiply.rs:189-207): the operands are
passed, the dimensions looked up, and the assertion fails; unwinding ends the protection. -/
def refuse [Target] (ia ib ic : Bool) (a b c : Nat) (va vb vc : Handle) (pa pb pc : Plan)
    (h : Nat → Held × S) : Option (Nat → Held × S) := do
  let wa := windowOf va.mat
  let wb := windowOf vb.mat
  let wc := windowOf vc.mat
  let (ta, s) ← R.pass ia va.tag wa (h a).2
  let h := put a s h
  let (tb, s) ← R.pass ib vb.tag wb (h b).2
  let h := put b s h
  let (tc, s) ← R.passMut ic vc.tag wc (h c).2
  let h := put c s h
  let s ← R.seek ia pa.before ta wa (h a).2
  let h := put a s h
  let s ← R.seek ib pb.before tb wb (h b).2
  let h := put b s h
  let s ← R.seek ic pc.before tc wc (h c).2
  let h := put c s h
  let s ← R.release ia ta wa (h a).2
  let h := put a s h
  let s ← R.release ib tb wb (h b).2
  let h := put b s h
  let s ← R.release ic tc wc (h c).2
  return put c s h

/-- One command, as in `obey`. The borrow checker does not let the result be a factor too. -/
def obeyIn [Target] (cfg : Cfg) (h : Nat → Body × S) : Order → Option (Nat → Body × S)
  | .deed k d pl => (R.stepIn cfg (h k).1 (h k).2 d pl).map fun x n => if n = k then x else h n
  | .multiply a b c pa pb pc us =>
    match (h a.1).1.held.operand a.2, (h b.1).1.held.operand b.2, (h c).1.held.chain with
    | some va, some vb, vc :: _ =>
      if c ≠ a.1 ∧ c ≠ b.1 then
        (if va.mat.layout.dim.2 = vb.mat.layout.dim.1 ∧ vc.mat.layout.dim.1 = va.mat.layout.dim.1 ∧
            vc.mat.layout.dim.2 = vb.mat.layout.dim.2 then
          R.product ((h a.1).1.inside a.2) ((h b.1).1.inside b.2) ((h c).1.inside none) a.1 b.1 c
            va vb vc pa pb pc us fun n => ((h n).1.held, (h n).2)
        else
          R.refuse ((h a.1).1.inside a.2) ((h b.1).1.inside b.2) ((h c).1.inside none) a.1 b.1 c
            va vb vc pa pb pc fun n => ((h n).1.held, (h n).2)).map fun h' n =>
              (⟨if n = c then { (h' n).1 with shared := [] } else (h' n).1, (h n).1.inline⟩, (h' n).2)
      else some h
    | _, _, _ => some h

/-- A program. -/
def obeyAllIn [Target] (cfg : Cfg) : List Order → (Nat → Body × S) → Option (Nat → Body × S)
  | [], h => some h
  | d :: ds, h => (R.obeyIn cfg h d).bind (obeyAllIn cfg ds)

/-- As `multiplyParts`, for a matrix that holds its elements inside itself. The parts do not
(src/matrix/matrix_slices.rs:89-141, src/matrix_multiply.rs:155-235). -/
def multiplyPartsIn [Target] (pl : Plan) (t : Nat) (w : Window) (q : Fin 4 → BaseMatrix)
    (ka kb kc : Fin 4) (us : List Touch) (s : S) : Option S := do
  let (vs, s) ← R.splitIn pl t w [windowOf (q 0), windowOf (q 1), windowOf (q 2), windowOf (q 3)] s
  R.multiplyThree vs q ka kb kc us s

end Rules

end Borrow

end Householder
