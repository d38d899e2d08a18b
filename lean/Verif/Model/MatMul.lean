import Verif.Model.Constructors

/-!
# Matrix multiplication (src/matrix_multiply.rs)
-/

namespace Householder

variable {α : Type}

/-- The address (relative to the pointer's provenance) of element `(i, j)` of a strided
operand of gemm: `ptr + i*rs + j*cs`. -/
def gemmAddr (p : Ptr) (rs cs : Int) (i j : Nat) : Int := (p.off : Int) + i * rs + j * cs

/-- The address is inside the memory the pointer may access. -/
def gemmValid (p : Ptr) (rs cs : Int) (i j : Nat) : Prop :=
  0 ≤ gemmAddr p rs cs i j ∧ gemmAddr p rs cs i j < p.prov.len

instance (p : Ptr) (rs cs : Int) (i j : Nat) : Decidable (gemmValid p rs cs i j) := by
  unfold gemmValid; infer_instance

/-- The place at a (valid) address. -/
def gemmLoc (p : Ptr) (rs cs : Int) (i j : Nat) : Loc :=
  ⟨p.prov.buf, p.prov.off + (gemmAddr p rs cs i j).toNat⟩

/-- All `m × n` addresses of a strided operand are valid. -/
def gemmAllValid (m n : Nat) (p : Ptr) (rs cs : Int) : Prop :=
  ∀ i < m, ∀ j < n, gemmValid p rs cs i j

instance (m n : Nat) (p : Ptr) (rs cs : Int) : Decidable (gemmAllValid m n p rs cs) := by
  unfold gemmAllValid; infer_instance

/-- Distinct elements have distinct addresses. -/
def gemmNoAlias (m n : Nat) (p : Ptr) (rs cs : Int) : Prop :=
  ∀ i < m, ∀ j < n, ∀ i' < m, ∀ j' < n,
    gemmLoc p rs cs i j = gemmLoc p rs cs i' j' → i = i' ∧ j = j'

set_option synthInstance.maxSize 1000 in
instance (m n : Nat) (p : Ptr) (rs cs : Int) : Decidable (gemmNoAlias m n p rs cs) := by
  unfold gemmNoAlias; infer_instance

/-- No element of an `m × n` operand is an element of an `m' × n'` operand. -/
def gemmDisjoint (m n : Nat) (p : Ptr) (rs cs : Int) (m' n' : Nat) (q : Ptr) (rs' cs' : Int) :
    Prop :=
  ∀ i < m, ∀ j < n, ∀ i' < m', ∀ j' < n', gemmLoc p rs cs i j ≠ gemmLoc q rs' cs' i' j'

set_option synthInstance.maxSize 1000 in
instance (m n : Nat) (p : Ptr) (rs cs : Int) (m' n' : Nat) (q : Ptr) (rs' cs' : Int) :
    Decidable (gemmDisjoint m n p rs cs m' n' q rs' cs') := by
  unfold gemmDisjoint; infer_instance

/-- The documented preconditions of `matrixmultiply`'s `sgemm`/`dgemm`/`cgemm`/`zgemm`:
every address is valid, distinct elements of `C` have distinct addresses ("Strides for C
must not result in elements that alias each other"), and, as for every `&mut` access
in Rust, `C` is disjoint from `A` and `B`. -/
def gemmPre (m k n : Nat) (a : Ptr) (rsa csa : Int) (b : Ptr) (rsb csb : Int)
    (c : Ptr) (rsc csc : Int) : Prop :=
  gemmAllValid m k a rsa csa ∧ gemmAllValid k n b rsb csb ∧ gemmAllValid m n c rsc csc ∧
  gemmNoAlias m n c rsc csc ∧
  gemmDisjoint m n c rsc csc m k a rsa csa ∧ gemmDisjoint m n c rsc csc k n b rsb csb

instance (m k n : Nat) (a : Ptr) (rsa csa : Int) (b : Ptr) (rsb csb : Int)
    (c : Ptr) (rsc csc : Int) : Decidable (gemmPre m k n a rsa csa b rsb csb c rsc csc) := by
  unfold gemmPre; infer_instance

/-- Which element of a product: row `i` and column `j` of an `m × n` result. -/
structure Site where
  /-- rows of the result -/
  m : Nat
  /-- columns of the result -/
  n : Nat
  /-- row of the element -/
  i : Nat
  /-- column of the element -/
  j : Nat
  deriving DecidableEq, Repr

/-- The arithmetic of one output element: `kern site alpha [(a₀,b₀), …] beta c`. The model leaves
it abstract (the order of the operations may differ from element to element, because the crate
works in tiles); `exactKern` is the documented formula. -/
abbrev Kern (α : Type) := Site → α → List (α × α) → α → α → α

/-- `alpha * Σ aₗ bₗ + beta * c` (src/matrix_multiply.rs:7, 51) in exact arithmetic. -/
def exactKern [Zero α] [Add α] [Mul α] : Kern α :=
  fun _ alpha ps beta c => alpha * (ps.map fun p => p.1 * p.2).sum + beta * c

/-- The external `gemm` (called at src/matrix_multiply.rs:219-234 and 305-322), by its
contract: `C[i,j] := kern site alpha (A[i,·], B[·,j]) beta C[i,j]` for all `i < m`, `j < n`.
Outside its preconditions its behaviour is undefined. (Simplification: blocking, packing
and the order of the floating-point operations are the crate's business; see `Spec/Ieee.lean` for
what is assumed about the order.) -/
def gemm (kern : Kern α) (m k n : Nat) (alpha : α) (a : Ptr) (rsa csa : Int)
    (b : Ptr) (rsb csb : Int) (beta : α) (c : Ptr) (rsc csc : Int) (mem : Mem α) : Out (Mem α) :=
  if gemmPre m k n a rsa csa b rsb csb c rsc csc then
    forRange m (fun i mem =>
      forRange n (fun j mem => do
        let ps ← (List.range k).mapM (fun l => do
          let x ← mem.read (gemmLoc a rsa csa i l)
          let y ← mem.read (gemmLoc b rsb csb l j)
          return (x, y))
        let old ← mem.read (gemmLoc c rsc csc i j)
        mem.write (gemmLoc c rsc csc i j) (kern ⟨m, n, i, j⟩ alpha ps beta old)) mem) mem
  else .ub

/-- `MatMul::matmul` (src/matrix_multiply.rs:189-236 for real scalars, 272-324 for complex
scalars: the latter pass the same data reinterpreted as pairs of reals). The impls exist
for strided layouts only; `stride()` of any other layout panics. -/
def matmul [Target] (kern : Kern α) (alpha : α) (mat_a mat_b : BaseMatrix) (beta : α)
    (mat_c : BaseMatrix) (mem : Mem α) : Out (Mem α) := do
  let dim1 := mat_a.layout.dim
  let dim2 := mat_b.layout.dim
  let dim3 := mat_c.layout.dim
  Out.assert (dim1.2 = dim2.1 ∧ dim3.1 = dim1.1 ∧ dim3.2 = dim2.2)
  let m := dim1.1
  let k := dim1.2
  let n := dim2.2
  let rsa := asIsize (← mat_a.layout.stride).1
  let csa := asIsize (← mat_a.layout.stride).2
  let rsb := asIsize (← mat_b.layout.stride).1
  let csb := asIsize (← mat_b.layout.stride).2
  let rsc := asIsize (← mat_c.layout.stride).1
  let csc := asIsize (← mat_c.layout.stride).2
  gemm kern m k n alpha mat_a.get_pointer rsa csa mat_b.get_pointer rsb csb beta
    mat_c.get_pointer rsc csc mem

/-- `Dot::dot`, matrix × matrix (src/matrix_multiply.rs:75-89) -/
def dot_mm [Target] [Zero α] [One α] (cfg : Cfg) (kern : Kern α) (a b : BaseMatrix) (mem : Mem α) :
    Out (BaseMatrix × Mem α) := do
  let (res, mem1) ← zeros_from_dim cfg .rowMajor a.layout.dim.1 b.layout.dim.2 mem
  let mem2 ← matmul kern 1 a b 0 res mem1
  return (res, mem2)

/-- `Dot::dot`, row vector × matrix (src/matrix_multiply.rs:104-118) -/
def dot_vm [Target] [Zero α] [One α] (cfg : Cfg) (kern : Kern α) (a b : BaseMatrix) (mem : Mem α) :
    Out (BaseMatrix × Mem α) := do
  let (res, mem1) ← RowVectorD.zeros_from_dim cfg a.layout.dim.1 b.layout.dim.2 mem
  let mem2 ← matmul kern 1 a b 0 res mem1
  return (res, mem2)

/-- `Dot::dot`, matrix × column vector (src/matrix_multiply.rs:138-152) -/
def dot_mv [Target] [Zero α] [One α] (cfg : Cfg) (kern : Kern α) (a b : BaseMatrix) (mem : Mem α) :
    Out (BaseMatrix × Mem α) := do
  let (res, mem1) ← ColumnVectorD.zeros_from_dim cfg a.layout.dim.1 b.layout.dim.2 mem
  let mem2 ← matmul kern 1 a b 0 res mem1
  return (res, mem2)

/-- The three `impl Dot` of src/matrix_multiply.rs:61-155. -/
inductive DotImpl where
  /-- Matrix x Matrix = Matrix -/
  | matMat
  /-- RowVector x Matrix = RowVector -/
  | rowMat
  /-- Matrix x ColumnVector = ColumnVector -/
  | matCol
  deriving DecidableEq, Repr

/-- The impl that the compiler selects from the layouts (`L1: StridedLayoutType`,
src/matrix_multiply.rs:65-66, 94-95, 123-124) and the size types of the operands
(src/matrix_multiply.rs:69-70, 98-99, 127-128). `none`: no impl, the program does not compile. -/
def dotImpl (a b : BaseMatrix) : Option DotImpl :=
  if a.layout.isStrided && b.layout.isStrided then
    match a.rs, a.cs, b.rs, b.cs with
    | .dynamic, .dynamic, .dynamic, .dynamic => some .matMat
    | .fixed1, .dynamic, .dynamic, .dynamic => some .rowMat
    | .dynamic, .dynamic, .dynamic, .fixed1 => some .matCol
    | _, _, _, _ => none
  else none

/-- `a.dot(&b)` for the selected impl. -/
def dot [Target] [Zero α] [One α] (cfg : Cfg) (kern : Kern α) (i : DotImpl) (a b : BaseMatrix) (mem : Mem α) :
    Out (BaseMatrix × Mem α) :=
  match i with
  | .matMat => dot_mm cfg kern a b mem
  | .rowMat => dot_vm cfg kern a b mem
  | .matCol => dot_mv cfg kern a b mem

/-- Whether `MatMul::matmul` is implemented for the layouts (`StridedLayoutType`,
src/matrix_multiply.rs:162-164, 245-247) and the size types of the operands
(src/matrix_multiply.rs:339-346). -/
def matmulImpl (a b c : BaseMatrix) : Bool :=
  (a.layout.isStrided && b.layout.isStrided && c.layout.isStrided) &&
  match a.rs, a.cs, b.rs, b.cs, c.rs, c.cs with
  | .dynamic, .dynamic, .dynamic, .dynamic, .dynamic, .dynamic => true
  | .dynamic, .dynamic, .dynamic, .fixed1, .dynamic, .fixed1 => true
  | .fixed1, .dynamic, .dynamic, .dynamic, .fixed1, .dynamic => true
  | _, _, _, _, _, _ => false

end Householder
