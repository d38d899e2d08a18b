import Verif.Spec.Views
import Verif.Model.MatMul

/-!
# Programs

Programs that use the safe functions of the library: operations on any number of matrices, views
and expressions, in any order. A program catches panics and continues.
-/

namespace Householder.Spec

variable {α : Type}

/-- The state of a program: the memory and the matrix values created so far. Values stay available
(Rust programs may use a value less often: moves and borrows only forbid programs). -/
structure St (α : Type) where
  mem : Mem α
  mats : List (Mat α)

/-- What a program may do. Matrix values are given by their position in `St.mats`. -/
inductive Op (α : Type) where
  /-- `MatrixD::<_, L>::zeros_from_dim(rows, cols)`; also `mat!` -/
  | zeros (k : BaseKind) (rows cols : Nat)
  /-- `RowVectorD::zeros_from_length(n)`; also `vector!` -/
  | rowZeros (n : Nat)
  /-- `RowVectorD::zeros_from_dim(rows, cols)` -/
  | rowZerosDim (rows cols : Nat)
  /-- `ColumnVectorD::zeros_from_length(n)`; also `vector!` -/
  | colZeros (n : Nat)
  /-- `ColumnVectorD::zeros_from_dim(rows, cols)` -/
  | colZerosDim (rows cols : Nat)
  /-- `MatrixNM::zeros_from_dim()` -/
  | fixedZeros (rs cs : SizeId) (k : BaseKind)
  /-- `VectorN::zeros_from_length()` -/
  | fixedVector (rs cs : SizeId) (k : BaseKind) (n : Nat)
  /-- `from_data` of a slice of the program's with the elements `xs` -/
  | fromSlice (rs cs : SizeId) (xs : List α) (l : Layout)
  /-- `from_data` of a `VectorContainer::new(n)` -/
  | fromVector (rs cs : SizeId) (n : Nat) (l : Layout)
  /-- an element access of a base matrix -/
  | element (h : Nat) (op : ArrOp α)
  /-- `m.get(r, c)` of any matrix -/
  | get (h r c : Nat)
  /-- `m.get1d(k)` of any matrix -/
  | get1d (h k : Nat)
  /-- `m.for_each(f)`; `f` may use all elements it has been given before -/
  | forEach (h : Nat) (f : List α → α → α)
  /-- `m.fill_from_rand_standard_normal(rng)`; the `k`-th number drawn is `draw k` -/
  | fillRand (h : Nat) (draw : Nat → α)
  /-- reading all of `m.get_slice(first, last)` -/
  | readSlice (h first last : Nat)
  /-- writing `xs` to the start of `m.get_slice_mut(first, last)` -/
  | writeSlice (h first last : Nat) (xs : List α)
  /-- `m.block(top_left, dim)`, `m.block_mut(top_left, dim)` -/
  | block (h : Nat) (top_left dim : Nat × Nat)
  /-- `m.split_in_four_mut(s)` -/
  | split (h : Nat) (s : Nat × Nat)
  /-- `Matrix::from_ref(&m)` -/
  | ref (h : Nat)
  /-- `a + b`, `a + &b`, `&a + b`, `&a + &b` -/
  | add (refLeft refRight : Bool) (h1 h2 : Nat)
  /-- `s * a`, `s * &a`, `a * s`, `&a * s` -/
  | scale (scalarFirst byRef : Bool) (s : α) (h : Nat)
  /-- `m.eval()` -/
  | eval (h : Nat)
  /-- `MatMul::matmul(alpha, a, b, beta, c)` -/
  | matmul (alpha : α) (a b : Nat) (beta : α) (c : Nat)
  /-- `a.dot(&b)` -/
  | dot (a b : Nat)

/-- What the program observes. -/
inductive Obs (α : Type) where
  | value (v : α)
  | values (vs : List α)
  | done
  | panicked
  deriving DecidableEq, Repr

/-- The response to an element access as an observation. -/
def Resp.obs : Resp α → Obs α
  | .value v => .value v
  | .done => .done
  | .panicked => .panicked

namespace St

/-- The start of a program. -/
def init : St α := ⟨⟨[]⟩, []⟩

/-- The base matrix at a position. -/
def base? (s : St α) (h : Nat) : Option BaseMatrix :=
  match s.mats[h]? with
  | some (.base b) => some b
  | _ => none

/-- A new base matrix and the memory it lives in. -/
def push (s : St α) (x : BaseMatrix × Mem α) : St α := ⟨x.2, s.mats ++ [.base x.1]⟩

end St

/-- Running with a value; an operation on a value that does not exist, or does not have the
operation, is a program that does not compile; here it has no effect. -/
def withSome {A B : Type} (x : Option A) (f : A → Out B) : Out B :=
  match x with
  | some a => f a
  | none => .panic

/-- The layouts that are not `ArbitraryStride..`. -/
def isBaseLayout : Layout → Bool
  | .rowMajor _ | .columnMajor _ | .rowVector _ | .columnVector _ | .upperTriangular _ => true
  | _ => false

/-- Whether `block` exists for the layout and size types (src/matrix/matrix_slices.rs:146-159). -/
def hasBlock (b : BaseMatrix) : Bool :=
  (match b.layout with
    | .rowMajor _ | .columnMajor _ | .asRowMajor _ | .asColumnMajor _ => true
    | _ => false) && b.rs = .dynamic && b.cs = .dynamic

/-- Whether `split_in_four_mut` exists (src/matrix/matrix_slices.rs:161). -/
def hasSplit (b : BaseMatrix) : Bool :=
  (match b.layout with
    | .rowMajor _ => true
    | _ => false) && b.rs = .dynamic && b.cs = .dynamic

/-- One operation. -/
def Op.exec [Target] [Zero α] [One α] [Add α] [Mul α] (cfg : Cfg) (kern : Kern α) (s : St α) :
    Op α → Out (Obs α × St α)
  | .zeros k rows cols => do
      let x ← zeros_from_dim cfg k rows cols s.mem
      return (.done, s.push x)
  | .rowZeros n => do
      let x ← RowVectorD.zeros_from_length cfg n s.mem
      return (.done, s.push x)
  | .rowZerosDim rows cols => do
      let x ← RowVectorD.zeros_from_dim cfg rows cols s.mem
      return (.done, s.push x)
  | .colZeros n => do
      let x ← ColumnVectorD.zeros_from_length cfg n s.mem
      return (.done, s.push x)
  | .colZerosDim rows cols => do
      let x ← ColumnVectorD.zeros_from_dim cfg rows cols s.mem
      return (.done, s.push x)
  | .fixedZeros rs cs k =>
      if (rs, cs, k) ∈ fixedMatrixTypes then do
        let x ← fixed_zeros_from_dim cfg rs cs k s.mem
        return (.done, s.push x)
      else .panic
  | .fixedVector rs cs k n =>
      if (rs, cs, k, n) ∈ fixedVectorTypes then
        withSome (k.from_length n) fun l => do
          let x ← fixed_zeros_from_length cfg rs cs l n s.mem
          return (.done, s.push x)
      else .panic
  | .fromSlice rs cs xs l => do
      let d ← Container.newSlice cfg s.mem xs
      let m ← from_data cfg rs cs d.1 l
      return (.done, s.push (m, d.2))
  | .fromVector rs cs n l => do
      let d ← Container.newVector cfg s.mem n
      let m ← from_data cfg rs cs d.1 l
      return (.done, s.push (m, d.2))
  | .element h op => withSome (s.base? h) fun b => do
      let x ← Spec.exec cfg b s.mem op
      return (x.1.obs, ⟨x.2, s.mats⟩)
  | .get h r c => withSome s.mats[h]? fun m => do
      let v ← m.get cfg s.mem r c
      return (.value v, s)
  | .get1d h k => withSome s.mats[h]? fun m => do
      let v ← m.get1d cfg s.mem k
      return (.value v, s)
  | .forEach h f => withSome (s.base? h) fun b => do
      let x ← b.for_each cfg (fun (σ : List α) v => (σ ++ [v], f σ v)) [] s.mem
      return (.done, ⟨x.2, s.mats⟩)
  | .fillRand h draw => withSome (s.base? h) fun b => do
      let x ← b.fill_from_rand cfg (fun k => (draw k, k + 1)) 0 s.mem
      return (.done, ⟨x.2, s.mats⟩)
  | .readSlice h first last => withSome (s.base? h) fun b => do
      let w ← b.get_slice first last
      let vs ← w.toList s.mem
      return (.values vs, s)
  | .writeSlice h first last xs => withSome (s.base? h) fun b => do
      let w ← b.get_slice_mut first last
      let mem ← w.writeList s.mem xs
      return (.done, ⟨mem, s.mats⟩)
  | .block h tl d => withSome (s.base? h) fun b =>
      if hasBlock b then do
        let v ← b.block cfg tl d
        return (.done, s.push (v, s.mem))
      else .panic
  | .split h p => withSome (s.base? h) fun b =>
      if hasSplit b then do
        let q ← b.split_in_four_mut cfg p
        return (.done, ⟨s.mem, s.mats ++ (List.finRange 4).map fun k => .base (quad q k)⟩)
      else .panic
  | .ref h => withSome s.mats[h]? fun m => return (.done, ⟨s.mem, s.mats ++ [m.from_ref]⟩)
  | .add refLeft refRight h1 h2 =>
      withSome s.mats[h1]? fun a => withSome s.mats[h2]? fun b =>
        if a.layout.indexKind = b.layout.indexKind ∧ a.sizes = b.sizes then do
          let m ← match refLeft, refRight with
            | false, false => a.add_vv b
            | false, true => a.add_vr b
            | true, false => a.add_rv b
            | true, true => a.add_rr b
          return (.done, ⟨s.mem, s.mats ++ [m]⟩)
        else .panic
  | .scale scalarFirst byRef x h => withSome s.mats[h]? fun a =>
      let m := match scalarFirst, byRef with
        | true, false => .mul_sv x a
        | true, true => .mul_sr x a
        | false, false => .mul_vs a x
        | false, true => .mul_rs a x
      return (.done, ⟨s.mem, s.mats ++ [m]⟩)
  | .eval h => withSome s.mats[h]? fun m =>
      if m.sizes = (.dynamic, .dynamic) then do
        let x ← m.eval cfg s.mem
        return (.done, s.push x)
      else .panic
  | .matmul alpha a b beta c =>
      withSome (s.base? a) fun ma => withSome (s.base? b) fun mb => withSome (s.base? c) fun mc =>
        if matmulImpl ma mb mc then do
          let mem ← Householder.matmul kern alpha ma mb beta mc s.mem
          return (.done, ⟨mem, s.mats⟩)
        else .panic
  | .dot a b =>
      withSome (s.base? a) fun ma => withSome (s.base? b) fun mb =>
        withSome (dotImpl ma mb) fun i => do
          let x ← Householder.dot cfg kern i ma mb s.mem
          return (.done, s.push x)

section Run

variable [Zero α] [One α] [Add α] [Mul α]

/-- One step of a program that catches panics and continues; undefined behaviour has no
continuation. -/
def Op.step [Target] (cfg : Cfg) (kern : Kern α) (s : St α) (op : Op α) : Option (Obs α × St α) :=
  match op.exec cfg kern s with
  | .ok x => some x
  | .panic => some (.panicked, s)
  | .ub => none

/-- A program: what it observes and where it ends. -/
def runProgram [Target] (cfg : Cfg) (kern : Kern α) : St α → List (Op α) → Option (List (Obs α) × St α)
  | s, [] => some ([], s)
  | s, op :: ops => do
    let x ← op.step cfg kern s
    let y ← runProgram cfg kern x.2 ops
    return (x.1 :: y.1, y.2)

/-- A condition on each operation of a program, in the state in which it is run. -/
def Along [Target] (cfg : Cfg) (kern : Kern α) (P : St α → Op α → Prop) : St α → List (Op α) → Prop
  | _, [] => True
  | s, op :: ops => P s op ∧ ∀ o s', op.step cfg kern s = some (o, s') → Along cfg kern P s' ops

end Run

/-- The cell `q` is in the memory window of `b`. -/
def inWindow (q : Loc) (b : BaseMatrix) : Prop :=
  q.buf = b.data.buf ∧ b.data.off ≤ q.idx ∧ q.idx < b.data.off + b.data.len

/-- The operation does not pass an arbitrary-stride layout to `from_data`. -/
def NoStrides : Op α → Prop
  | .fromSlice _ _ _ l => isBaseLayout l = true
  | .fromVector _ _ _ l => isBaseLayout l = true
  | _ => True

/-- The operation does not multiply into a matrix whose window overlaps one of the factors'.
(The borrow checker rejects such programs, except for the parts of one split.) -/
def NoOverlap (s : St α) : Op α → Prop
  | .matmul _ a b _ c => ∀ ma mb mc, s.base? a = some ma → s.base? b = some mb →
      s.base? c = some mc → ∀ q, inWindow q mc → ¬ inWindow q ma ∧ ¬ inWindow q mb
  | _ => True

/-- The operation does not ask for an empty block. -/
def NoEmptyBlock : Op α → Prop
  | .block _ _ d => 1 ≤ d.1 ∧ 1 ≤ d.2
  | _ => True

/-- No computation of a size or position that wraps around in a release build. -/
def NoWrap [Target] (s : St α) : Op α → Prop
  | .zeros k rows cols => ∀ l, k.from_dimension (rows, cols) = .ok l → count l < W ∧ TriFits l
  | .fromSlice _ _ _ l => count l < W ∧ TriFits l
  | .fromVector _ _ _ l => count l < W ∧ TriFits l
  | .block _ tl d => tl.1 + d.1 < W ∧ tl.2 + d.2 < W
  | .split h p => ∀ b, s.base? h = some b →
      0 < p.1 ∧ p.1 < b.layout.dim.1 ∧ 0 < p.2 ∧ p.2 < b.layout.dim.2
  | .dot a b => ∀ ma mb, s.base? a = some ma → s.base? b = some mb →
      ma.layout.dim.1 * mb.layout.dim.2 < W
  | _ => True

end Householder.Spec
