import Verif.Spec.TraitsExact
import Verif.Spec.TraitsMul

/-!
# When products and views over implementations of the open traits are undefined

In terms of what the implementations answer; no contract is assumed of them.
-/

namespace Householder.Spec

variable {α β V D X : Type}

/-- Whether there was an answer. -/
def said (o : Out β) : Out Unit :=
  match o with
  | .ok _ => .ok ()
  | .panic => .panic
  | .ub => .ub

/-- Dimensions, strides and pointers as the documentation of the kernel asks for: the strides lead
from the pointers to places inside what the pointers may access, different ones for different
elements of the result, which are not places of the operands. -/
def KernelFits [Target] (da db dc sa sb sc : Nat × Nat) (pa pb pc : Ptr) : Prop :=
  ∃ A B C : Nat → Nat → Loc, Leads pa sa da A ∧ Leads pb sb db B ∧ Leads pc sc dc C ∧
    Distinct dc C ∧ Apart dc C da A ∧ Apart dc C db B

/-- The answers about dimensions, strides and pointers make a product undefined: the first that is
not given is undefined (the dimensions are compared before the others are asked for), or all are
given, the dimensions are compatible, and the kernel gets what it does not allow. -/
def ProductFaulty [Target] (da db dc sa sb sc : Out (Nat × Nat)) (pa pb pc : Out Ptr) : Prop :=
  Faulty [said da, said db, said dc] ∨
  ∃ x y z, da = .ok x ∧ db = .ok y ∧ dc = .ok z ∧ (x.2 = y.1 ∧ z.1 = x.1 ∧ z.2 = y.2) ∧
    (Faulty [said sa, said sb, said sc, said pa, said pb, said pc] ∨
     ∃ u v w p q r, sa = .ok u ∧ sb = .ok v ∧ sc = .ok w ∧ pa = .ok p ∧ pb = .ok q ∧ pc = .ok r ∧
       ¬ KernelFits x y z u v w p q r)

/-- The matrix that `dot` makes for a product of matrices of these dimensions, if it does. -/
def dotMade [Target] (cfg : Cfg) (i : DotImpl) (da db : Nat × Nat) (buf : Nat) : Option BaseMatrix :=
  match i with
  | .matMat => brandNew cfg buf (.rowMajor ⟨(da.1, db.2)⟩) (.dynamic, .dynamic)
  | .rowMat => if da.1 = 1 then brandNew cfg buf (.rowVector ⟨db.2⟩) (.fixed1, .dynamic) else none
  | .matCol => if db.2 = 1 then brandNew cfg buf (.columnVector ⟨da.1⟩) (.dynamic, .fixed1) else none

/-- The layout of a block. -/
def layoutOfBlock (l : Layout) (dim : Nat × Nat) : Option Layout :=
  match l with
  | .rowMajor _ | .asRowMajor _ => some (.asRowMajor ⟨dim, claimed l⟩)
  | .columnMajor _ | .asColumnMajor _ => some (.asColumnMajor ⟨dim, claimed l⟩)
  | _ => none

/-- A block of a matrix whose container answers `pointer` leaves what the pointer may access. -/
def BlockFaulty [Target] (cfg : Cfg) (l : Layout) (pointer : Out Ptr) (tl dim : Nat × Nat) : Prop :=
  ∃ a b k l', cfg.add tl.1 dim.1 = .ok a ∧ cfg.add tl.2 dim.2 = .ok b ∧ a ≤ l.dim.1 ∧ b ≤ l.dim.2 ∧
    l.convert_2d_raw cfg tl.1 tl.2 = .ok k ∧ layoutOfBlock l dim = some l' ∧
    (pointer = .ub ∨ ∃ p, pointer = .ok p ∧
      LeavesContainer [viewOf cfg p.prov (.ok (p.off + k)) dim l'])

/-- The four parts of a split of a matrix whose container answers with `p`. -/
def splitReach [Target] (cfg : Cfg) (l : Layout) (p : Ptr) (s : Nat × Nat) : List Access :=
  whenOk (do
    let right ← cfg.sub l.dim.2 s.2
    let below ← cfg.sub l.dim.1 s.1
    let s0 ← l.convert_2d_raw cfg 0 0
    let s1 ← l.convert_2d_raw cfg 0 s.2
    let s2 ← l.convert_2d_raw cfg s.1 0
    let s3 ← l.convert_2d_raw cfg s.1 s.2
    return [(s0, s), (s1, (s.1, right)), (s2, (below, s.2)), (s3, (below, right))]) fun xs =>
  xs.map fun x =>
    viewOf cfg p.prov (.ok (p.off + asIsize x.1)) x.2 (.asRowMajor ⟨x.2, claimed l⟩)

end Householder.Spec
