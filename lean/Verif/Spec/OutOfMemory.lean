import Verif.Spec.Interleave

/-!
# When memory runs out

Everywhere else in the model an allocation that is not too large for Rust's types succeeds. Here it may
be refused. The process is then aborted, as `handle_alloc_error` does. (The arrays of the fixed-size
types are counted like other allocations: they live on the stack, and an overflow of the stack ends the
process as well.)
-/

namespace Householder.Spec

variable {α β : Type}

/-- How a computation ends when it has no undefined behaviour. -/
inductive Ending (β : Type) where
  | returned (b : β)
  | panicked
  | aborted
  deriving DecidableEq

/-- An allocator: whether room for so many more elements is found beside the present memory. -/
abbrev Allocator (α : Type) := Mem α → Nat → Bool

/-- Room for this many elements in all. -/
def roomFor (B : Nat) : Allocator α := fun mem k => (mem.bufs.map List.length).sum + k ≤ B

/-- Running without interruption, with an allocator that may refuse. An allocation of no elements needs
no memory. -/
def _root_.Householder.Steps.within (grant : Allocator α) :
    Steps α β → Mem α → Option (Ending β × Mem α)
  | .done (.ok b), mem => some (.returned b, mem)
  | .done .panic, mem => some (.panicked, mem)
  | .done .ub, _ => none
  | .read p k, mem => (mem.get? p).bind fun v => (k v).within grant mem
  | .write p v k, mem => (mem.get? p).bind fun _ =>
      k.within grant ⟨mem.bufs.modify p.buf (·.set p.idx v)⟩
  | .alloc xs k, mem =>
      if xs.length = 0 ∨ grant mem xs.length = true then
        (k mem.bufs.length).within grant ⟨mem.bufs ++ [xs]⟩
      else some (.aborted, mem)

/-- The end of a computation in unlimited memory. -/
def Ending.of : Option β → Ending β
  | some b => .returned b
  | none => .panicked

/-- The computation makes no allocation. -/
def AllocFree : Steps α β → Prop
  | .done _ => True
  | .read _ k => ∀ v, AllocFree (k v)
  | .write _ _ k => AllocFree k
  | .alloc _ _ => False

/-- Once the computation has written it makes no more allocations. -/
def Upfront : Steps α β → Prop
  | .done _ => True
  | .read _ k => ∀ v, Upfront (k v)
  | .write _ _ k => AllocFree k
  | .alloc _ k => ∀ b, Upfront (k b)

/-! ### What an operation asks for -/

/-- The mathematical result `x` as a `usize`: with overflow checks it has to be one, without them it is
taken modulo the word size. -/
def asUsize [Target] (cfg : Cfg) (x : Nat) : Option Nat :=
  if x < W then some x else if cfg.overflowChecks then none else some (x % W)

/-- A `Vec` of so many elements, if it can exist: Rust's allocations have at most `isize::MAX` bytes. -/
def vecOf [Target] (cfg : Cfg) (n : Nat) : Option Nat :=
  if n * cfg.item.size ≤ isizeMax then some n else none

/-- The number of elements of a new matrix of the layout. (`ColumnVector::from_dimension` takes `1×n`
for the shape of a column, and makes a column of one element of it.) -/
def sizeOfNew [Target] (cfg : Cfg) (k : BaseKind) (r c : Nat) : Option Nat :=
  match k with
  | .rowMajor | .columnMajor => asUsize cfg (r * c)
  | .rowVector => if r = 1 then some c else none
  | .columnVector => if r = 1 then some 1 else none
  | .upperTriangular =>
      if r = c then (asUsize cfg (r + 1)).bind fun a => (asUsize cfg (r * a)).map (· / 2) else none

/-- The number of elements that the operation asks the allocator for. `none`: it does not. -/
def Op.asks [Target] (cfg : Cfg) (mats : List (Mat α)) : Op α → Option Nat
  | .zeros k r c => (sizeOfNew cfg k r c).bind (vecOf cfg)
  | .rowZeros n | .colZeros n => vecOf cfg n
  | .rowZerosDim r c => if r = 1 then vecOf cfg c else none
  | .colZerosDim r c => if c = 1 then vecOf cfg r else none
  | .fixedZeros rs cs k => if (rs, cs, k) ∈ fixedMatrixTypes then some (rs.N * cs.N) else none
  | .fixedVector rs cs k n => if (rs, cs, k, n) ∈ fixedVectorTypes then some n else none
  | .fromSlice _ _ xs _ => vecOf cfg xs.length
  | .fromVector _ _ n _ => vecOf cfg n
  | .eval h => mats[h]?.bind fun m =>
      if m.sizes = (.dynamic, .dynamic) then
        (sizeOfNew cfg m.layout.indexKind m.layout.dim.1 m.layout.dim.2).bind (vecOf cfg)
      else none
  | .dot a b => (baseAt mats a).bind fun ma => (baseAt mats b).bind fun mb =>
      match dotImpl ma mb with
      | some .matMat => (asUsize cfg (ma.layout.dim.1 * mb.layout.dim.2)).bind (vecOf cfg)
      | some .rowMat => if ma.layout.dim.1 = 1 then vecOf cfg mb.layout.dim.2 else none
      | some .matCol => if mb.layout.dim.2 = 1 then vecOf cfg ma.layout.dim.1 else none
      | none => none
  | _ => none

/-! ### Programs -/

/-- A program in limited memory: its next operation. The last component says whether the process has
been aborted. -/
def withinStep [Target] [Zero α] [One α] [Add α] [Mul α] (cfg : Cfg) (K : GemmArgs α → Steps α Unit)
    (grant : Allocator α) (prog : List (Obs α) → Option (Op α)) (x : List (Obs α) × St α × Bool) :
    Option (List (Obs α) × St α × Bool) :=
  if x.2.2 then some x
  else match prog x.1 with
    | none => some x
    | some op => ((op.steps cfg K x.2.1.mats).within grant x.2.1.mem).map fun y =>
        match y.1 with
        | .returned r => (x.1 ++ [r.1], ⟨y.2, x.2.1.mats ++ r.2⟩, false)
        | .panicked => (x.1 ++ [.panicked], ⟨y.2, x.2.1.mats⟩, false)
        | .aborted => (x.1, ⟨y.2, x.2.1.mats⟩, true)

/-- A program in limited memory: `n` operations, as `alone`. -/
def aloneWithin [Target] [Zero α] [One α] [Add α] [Mul α] (cfg : Cfg) (K : GemmArgs α → Steps α Unit)
    (grant : Allocator α) (prog : List (Obs α) → Option (Op α)) (s : St α) :
    Nat → Option (List (Obs α) × St α × Bool)
  | 0 => some ([], s, false)
  | n + 1 => (aloneWithin cfg K grant prog s n).bind (withinStep cfg K grant prog)

end Householder.Spec
