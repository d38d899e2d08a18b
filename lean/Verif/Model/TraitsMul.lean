import Verif.Model.Traits
import Verif.Model.MatMul

/-!
# Products and views over other implementations of the open traits

`matmul` and `dot` exist for every `StridedLayoutType` (src/traits/layout.rs:101, a trait without
functions of its own) and every `DataContainer`; `block`, `block_mut` and `split_in_four_mut` for
layouts of the crate over every `DataContainer`.
-/

namespace Householder

variable {α V D X V₁ D₁ X₁ V₂ D₂ X₂ V₃ D₃ X₃ : Type}

namespace AnyBase

/-- `MatMul::matmul` (src/matrix_multiply.rs:189-236, 272-324) for any three implementations. -/
def matmul [Target] (I₁ : Impls α V₁ D₁ X₁) (I₂ : Impls α V₂ D₂ X₂) (I₃ : Impls α V₃ D₃ X₃) (kern : Kern α)
    (alpha : α) (mat_a : AnyBase V₁ D₁) (mat_b : AnyBase V₂ D₂) (beta : α) (mat_c : AnyBase V₃ D₃)
    (mem : Mem α) : Out (Mem α) := do
  let dim1 ← I₁.lay.dim mat_a.layout
  let dim2 ← I₂.lay.dim mat_b.layout
  let dim3 ← I₃.lay.dim mat_c.layout
  Out.assert (dim1.2 = dim2.1 ∧ dim3.1 = dim1.1 ∧ dim3.2 = dim2.2)
  let m := dim1.1
  let k := dim1.2
  let n := dim2.2
  let rsa := asIsize (← I₁.lay.stride mat_a.layout).1
  let csa := asIsize (← I₁.lay.stride mat_a.layout).2
  let rsb := asIsize (← I₂.lay.stride mat_b.layout).1
  let csb := asIsize (← I₂.lay.stride mat_b.layout).2
  let rsc := asIsize (← I₃.lay.stride mat_c.layout).1
  let csc := asIsize (← I₃.lay.stride mat_c.layout).2
  let a ← I₁.dat.get_pointer mat_a.data
  let b ← I₂.dat.get_pointer mat_b.data
  let c ← I₃.dat.get_pointer_mut mat_c.data
  gemm kern m k n alpha a rsa csa b rsb csb beta c rsc csc mem

/-- `Dot::dot` (src/matrix_multiply.rs:75-89, 104-118, 138-152) for any two implementations; the
result is a matrix of the crate. -/
def dot [Target] [Zero α] [One α] (I₁ : Impls α V₁ D₁ X₁) (I₂ : Impls α V₂ D₂ X₂) (cfg : Cfg)
    (kern : Kern α) (i : DotImpl) (a : AnyBase V₁ D₁) (b : AnyBase V₂ D₂) (mem : Mem α) :
    Out (BaseMatrix × Mem α) := do
  let d1 ← I₁.lay.dim a.layout
  let d2 ← I₂.lay.dim b.layout
  let (res, mem1) ← match i with
    | .matMat => zeros_from_dim cfg .rowMajor d1.1 d2.2 mem
    | .rowMat => RowVectorD.zeros_from_dim cfg d1.1 d2.2 mem
    | .matCol => ColumnVectorD.zeros_from_dim cfg d1.1 d2.2 mem
  let mem2 ← matmul I₁ I₂ (crateImpls cfg α) kern 1 a b 0 ⟨res.data, res.layout⟩ mem1
  return (res, mem2)

/-- `block` and `block_mut` (src/matrix/matrix_slices.rs:19-39, 48-69): they differ only in the
function of the container that hands out the pointer. -/
def blockWith [Target] (get_pointer : D → Out Ptr) (cfg : Cfg) (m : AnyBase Layout D)
    (top_left dim : Nat × Nat) : Out BaseMatrix := do
  let a ← cfg.add top_left.1 dim.1
  let b ← cfg.add top_left.2 dim.2
  Out.assert (a ≤ m.layout.dim.1 ∧ b ≤ m.layout.dim.2)
  let start_index ← m.layout.convert_2d_raw cfg top_left.1 top_left.2
  let p ← get_pointer m.data
  let ptr ← p.add start_index
  let stride ← m.layout.stride
  match BaseMatrix.strideLayout m.layout dim stride with
  | some l => from_pointer_strided cfg ptr dim l
  | none => .panic

/-- `block` (src/matrix/matrix_slices.rs:19-39) over any container -/
def block [Target] (I : DataImpl α D) (cfg : Cfg) (m : AnyBase Layout D) (top_left dim : Nat × Nat) :
    Out BaseMatrix := blockWith I.get_pointer cfg m top_left dim

/-- `block_mut` (src/matrix/matrix_slices.rs:48-69) over any container -/
def block_mut [Target] (I : DataImpl α D) (cfg : Cfg) (m : AnyBase Layout D) (top_left dim : Nat × Nat) :
    Out BaseMatrix := blockWith I.get_pointer_mut cfg m top_left dim

/-- `split_in_four_mut` (src/matrix/matrix_slices.rs:89-141) over any container, for row-major
matrices (src/matrix/matrix_slices.rs:161) -/
def split_in_four_mut [Target] (I : DataImpl α D) (cfg : Cfg) (m : AnyBase Layout D) (split_at : Nat × Nat) :
    Out (BaseMatrix × BaseMatrix × BaseMatrix × BaseMatrix) := do
  match m.layout with
  | .rowMajor _ =>
    let dim := m.layout.dim
    let stride ← m.layout.stride
    let ptr ← I.get_pointer_mut m.data
    let dim0 := split_at
    let d1 ← cfg.sub dim.2 split_at.2
    let dim1 := (split_at.1, d1)
    let d2 ← cfg.sub dim.1 split_at.1
    let dim2 := (d2, split_at.2)
    let d31 ← cfg.sub dim.1 split_at.1
    let d32 ← cfg.sub dim.2 split_at.2
    let dim3 := (d31, d32)
    let start0 ← m.layout.convert_2d_raw cfg 0 0
    let start1 ← m.layout.convert_2d_raw cfg 0 split_at.2
    let start2 ← m.layout.convert_2d_raw cfg split_at.1 0
    let start3 ← m.layout.convert_2d_raw cfg split_at.1 split_at.2
    let p0 ← ptr.offset (asIsize start0)
    let b0 ← from_pointer_strided cfg p0 dim0 (.asRowMajor ⟨dim0, stride⟩)
    let p1 ← ptr.offset (asIsize start1)
    let b1 ← from_pointer_strided cfg p1 dim1 (.asRowMajor ⟨dim1, stride⟩)
    let p2 ← ptr.offset (asIsize start2)
    let b2 ← from_pointer_strided cfg p2 dim2 (.asRowMajor ⟨dim2, stride⟩)
    let p3 ← ptr.offset (asIsize start3)
    let b3 ← from_pointer_strided cfg p3 dim3 (.asRowMajor ⟨dim3, stride⟩)
    return (b0, b1, b2, b3)
  | _ => .panic

end AnyBase

end Householder
