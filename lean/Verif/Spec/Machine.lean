import Verif.Spec.Histories
import Verif.Spec.Expr

/-!
# What programs should do: an abstract machine

What the operations of a program mean according to the documentation, without the library's index
arithmetic, pointers or layouts. A store is a list of elements; a matrix says which cell of which
store holds each of its positions. Every operation has a result; there is no undefined behaviour.
-/

namespace Householder.Spec

variable {α : Type}

/-- A matrix or view, abstractly. -/
structure AMat where
  /-- the number of the store that holds the elements -/
  store : Nat
  /-- the first of the cells that `get_slice` gives access to, and their number -/
  lo : Nat
  len : Nat
  /-- how the positions are enumerated -/
  kind : BaseKind
  sizes : SizeId × SizeId
  dim : Nat × Nat
  /-- the cell of the element at a position -/
  place : Nat → Nat → Nat
  /-- not a view, and not of an `ArbitraryStride..` type -/
  plain : Bool

/-- The positions of the matrix in 1D order. -/
def AMat.positions (m : AMat) : List (Nat × Nat) := orderOf m.kind m.dim

/-- A matrix that fills a store: the elements are stored in 1D order. -/
def AMat.root (store len : Nat) (kind : BaseKind) (sizes : SizeId × SizeId) (dim : Nat × Nat) : AMat :=
  { store, lo := 0, len, kind, sizes, dim, plain := true,
    place := fun r c => (orderOf kind dim).idxOf (r, c) }

/-- The part of the matrix of shape `d` that starts at `o`. Its cells are those from its first to
its last element. -/
def AMat.part (m : AMat) (o d : Nat × Nat) : AMat :=
  { m with
    lo := m.place o.1 o.2
    len := m.place (o.1 + d.1 - 1) (o.2 + d.2 - 1) + 1 - m.place o.1 o.2
    dim := d
    place := fun i j => m.place (o.1 + i) (o.2 + j)
    plain := false }

/-- A value of matrix type: a matrix or an expression. -/
inductive AVal (α : Type) where
  | base (m : AMat)
  | ref (a : AVal α)
  | add (a b : AVal α)
  | scale (s : α) (a : AVal α)

namespace AVal

def kind : AVal α → BaseKind
  | base m => m.kind
  | ref a => a.kind
  | add a _ => a.kind
  | scale _ a => a.kind

def sizes : AVal α → SizeId × SizeId
  | base m => m.sizes
  | ref a => a.sizes
  | add a _ => a.sizes
  | scale _ a => a.sizes

def dim : AVal α → Nat × Nat
  | base m => m.dim
  | ref a => a.dim
  | add a _ => a.dim
  | scale _ a => a.dim

/-- The positions in 1D order. -/
def positions (a : AVal α) : List (Nat × Nat) := orderOf a.kind a.dim

end AVal

/-- The contents of a cell. -/
def load [Zero α] (stores : List (List α)) (b i : Nat) : α :=
  (((stores[b]?).getD [])[i]?).getD 0

/-- Changing one cell. -/
def save (stores : List (List α)) (b i : Nat) (v : α) : List (List α) :=
  stores.modify b (·.set i v)

/-- The element at a position. -/
def AMat.load [Zero α] (m : AMat) (stores : List (List α)) (r c : Nat) : α :=
  Spec.load stores m.store (m.place r c)

/-- Changing the element at a position. -/
def AMat.save (m : AMat) (stores : List (List α)) (r c : Nat) (v : α) : List (List α) :=
  Spec.save stores m.store (m.place r c) v

/-- The value at a position. -/
def AVal.value [Zero α] [Add α] [Mul α] (stores : List (List α)) (r c : Nat) : AVal α → α
  | base m => m.load stores r c
  | ref a => a.value stores r c
  | add a b => a.value stores r c + b.value stores r c
  | scale s a => s * a.value stores r c

/-- The state of the machine. -/
structure ASt (α : Type) where
  stores : List (List α)
  vals : List (AVal α)

namespace ASt

def init : ASt α := ⟨[], []⟩

/-- The matrix or view at a position of the list of values. -/
def base? (s : ASt α) (h : Nat) : Option AMat :=
  match s.vals[h]? with
  | some (.base m) => some m
  | _ => none

/-- The operation panics and changes nothing. -/
def panic (s : ASt α) : Obs α × ASt α := (.panicked, s)

/-- The operation adds values. -/
def push (s : ASt α) (vs : List (AVal α)) : Obs α × ASt α := (.done, ⟨s.stores, s.vals ++ vs⟩)

/-- The operation changes stores. -/
def write (s : ASt α) (stores : List (List α)) : Obs α × ASt α := (.done, ⟨stores, s.vals⟩)

/-- A new matrix in a new store, unless it has more than `isize::MAX` bytes. -/
def fresh [Target] (size : Nat) (s : ASt α) (kind : BaseKind) (sizes : SizeId × SizeId) (dim : Nat × Nat)
    (f : Nat × Nat → α) : Obs α × ASt α :=
  let xs := (orderOf kind dim).map f
  if xs.length * size ≤ isizeMax then
    (.done, ⟨s.stores ++ [xs], s.vals ++ [.base (.root s.stores.length xs.length kind sizes dim)]⟩)
  else s.panic

end ASt

/-- Which shapes a kind of matrix has. -/
def HasShape (k : BaseKind) (d : Nat × Nat) : Prop :=
  match k with
  | .rowMajor | .columnMajor => True
  | .rowVector => d.1 = 1
  | .columnVector => d.2 = 1
  | .upperTriangular => d.1 = d.2

instance (k : BaseKind) (d : Nat × Nat) : Decidable (HasShape k d) := by
  unfold HasShape; split <;> infer_instance

/-- The position an element access refers to. -/
def ArrOp.target (ps : List (Nat × Nat)) : ArrOp α → Option (Nat × Nat)
  | .get r c | .set r c _ | .update r c _ => if (r, c) ∈ ps then some (r, c) else none
  | .get1d k | .set1d k _ | .update1d k _ => ps[k]?

/-- What an element access does with the element. -/
def ArrOp.act : ArrOp α → α → Resp α × α
  | .get _ _, x | .get1d _, x => (.value x, x)
  | .set _ _ v, _ | .set1d _ v, _ => (.done, v)
  | .update _ _ f, x | .update1d _ f, x => (.done, f x)

/-- How a layout given to `from_data` enumerates its positions. -/
def layoutKind : Layout → BaseKind
  | .rowMajor _ | .asRowMajor _ => .rowMajor
  | .columnMajor _ | .asColumnMajor _ => .columnMajor
  | .rowVector _ | .asRowVector _ => .rowVector
  | .columnVector _ | .asColumnVector _ => .columnVector
  | .upperTriangular _ => .upperTriangular

def layoutDim : Layout → Nat × Nat
  | .rowMajor l => l.dim
  | .columnMajor l => l.dim
  | .asRowMajor l => l.dim
  | .asColumnMajor l => l.dim
  | .rowVector l => (1, l.dim)
  | .asRowVector l => (1, l.dim)
  | .columnVector l => (l.dim, 1)
  | .asColumnVector l => (l.dim, 1)
  | .upperTriangular l => (l.dim, l.dim)

/-- The matrix that `from_data` makes of a store of length `len`. -/
def AMat.ofLayout (store len : Nat) (sizes : SizeId × SizeId) (l : Layout) : AMat :=
  { store, lo := 0, len, kind := layoutKind l, sizes, dim := layoutDim l, plain := isBaseLayout l
    place := match l with
      | .asRowMajor l => fun r c => l.stride.1 * r + l.stride.2 * c
      | .asColumnMajor l => fun r c => l.stride.1 * r + l.stride.2 * c
      | .asRowVector l => fun _ c => l.stride * c
      | .asColumnVector l => fun r _ => l.stride * r
      | _ => fun r c => (orderOf (layoutKind l) (layoutDim l)).idxOf (r, c) }

/-- `from_data` of a new store `xs`. -/
def ASt.fromData [Target] (size : Nat) (s : ASt α) (sizes : SizeId × SizeId) (xs : List α) (l : Layout) :
    Obs α × ASt α :=
  let m := AMat.ofLayout s.stores.length xs.length sizes l
  if xs.length * size ≤ isizeMax ∧ m.positions.length ≤ xs.length then
    (.done, ⟨s.stores ++ [xs], s.vals ++ [.base m]⟩)
  else s.panic

/-- Whether matrices of these size types can be multiplied, and the size types of the product. -/
def productSizes : SizeId × SizeId → SizeId × SizeId → Option (SizeId × SizeId)
  | (.dynamic, .dynamic), (.dynamic, .dynamic) => some (.dynamic, .dynamic)
  | (.dynamic, .dynamic), (.dynamic, .fixed1) => some (.dynamic, .fixed1)
  | (.fixed1, .dynamic), (.dynamic, .dynamic) => some (.fixed1, .dynamic)
  | _, _ => none

/-- The kind of the product of `dot` by its size types. -/
def productKind : SizeId × SizeId → BaseKind
  | (.fixed1, _) => .rowVector
  | (_, .fixed1) => .columnVector
  | _ => .rowMajor

/-- Row `i` of `a` and column `j` of `b`, element by element. -/
def pairs [Zero α] (stores : List (List α)) (a b : AMat) (i j : Nat) : List (α × α) :=
  (List.range a.dim.2).map fun l => (a.load stores i l, b.load stores l j)

/-- One operation of the machine. `size` is the number of bytes of an element. An operation on a
value that does not exist or does not have the operation panics, as in `Op.exec`. -/
def Op.meaning [Target] [Zero α] [One α] [Add α] [Mul α] (size : Nat) (kern : Kern α) (s : ASt α) :
    Op α → Obs α × ASt α
  | .zeros k rows cols =>
      if HasShape k (rows, cols) then s.fresh size k (.dynamic, .dynamic) (rows, cols) fun _ => 0
      else s.panic
  | .rowZeros n => s.fresh size .rowVector (.fixed1, .dynamic) (1, n) fun _ => 0
  | .rowZerosDim rows cols =>
      if rows = 1 then s.fresh size .rowVector (.fixed1, .dynamic) (1, cols) fun _ => 0 else s.panic
  | .colZeros n => s.fresh size .columnVector (.dynamic, .fixed1) (n, 1) fun _ => 0
  | .colZerosDim rows cols =>
      if cols = 1 then s.fresh size .columnVector (.dynamic, .fixed1) (rows, 1) fun _ => 0
      else s.panic
  | .fixedZeros rs cs k =>
      if (rs, cs, k) ∈ fixedMatrixTypes then s.fresh size k (rs, cs) (rs.N, cs.N) fun _ => 0
      else s.panic
  | .fixedVector rs cs k n =>
      if (rs, cs, k, n) ∈ fixedVectorTypes then s.fresh size k (rs, cs) (rs.N, cs.N) fun _ => 0
      else s.panic
  | .fromSlice rs cs xs l => s.fromData size (rs, cs) xs l
  | .fromVector rs cs n l => s.fromData size (rs, cs) (List.replicate n 0) l
  | .element h op => match s.base? h with
    | none => s.panic
    | some m => match op.target m.positions with
      | none => s.panic
      | some (r, c) =>
        let x := op.act (m.load s.stores r c)
        (x.1.obs, ⟨m.save s.stores r c x.2, s.vals⟩)
  | .get h r c => match s.vals[h]? with
    | none => s.panic
    | some a => if (r, c) ∈ a.positions then (.value (a.value s.stores r c), s) else s.panic
  | .get1d h k => match s.vals[h]? with
    | none => s.panic
    | some a => match a.positions[k]? with
      | none => s.panic
      | some (r, c) => (.value (a.value s.stores r c), s)
  | .forEach h f => match s.base? h with
    | none => s.panic
    | some m => s.write (m.positions.foldl (fun (x : List α × List (List α)) p =>
        let v := m.load x.2 p.1 p.2
        (x.1 ++ [v], m.save x.2 p.1 p.2 (f x.1 v))) ([], s.stores)).2
  | .fillRand h draw => match s.base? h with
    | none => s.panic
    | some m => s.write (m.positions.zipIdx.foldl (fun x p => m.save x p.1.1 p.1.2 (draw p.2)) s.stores)
  | .readSlice h first last => match s.base? h with
    | none => s.panic
    | some m => if first < last ∧ last ≤ m.len then
        (.values ((List.range (last - first)).map fun i => load s.stores m.store (m.lo + first + i)), s)
      else s.panic
  | .writeSlice h first last xs => match s.base? h with
    | none => s.panic
    | some m => if first < last ∧ last ≤ m.len ∧ xs.length ≤ last - first then
        s.write (xs.zipIdx.foldl (fun x p => save x m.store (m.lo + first + p.2) p.1) s.stores)
      else s.panic
  | .block h tl d => match s.base? h with
    | none => s.panic
    | some m =>
      if (m.kind = .rowMajor ∨ m.kind = .columnMajor) ∧ m.sizes = (.dynamic, .dynamic) ∧
          tl.1 + d.1 ≤ m.dim.1 ∧ tl.2 + d.2 ≤ m.dim.2 then s.push [.base (m.part tl d)]
      else s.panic
  | .split h p => match s.base? h with
    | none => s.panic
    | some m =>
      if m.kind = .rowMajor ∧ m.plain ∧ m.sizes = (.dynamic, .dynamic) ∧
          0 < p.1 ∧ p.1 < m.dim.1 ∧ 0 < p.2 ∧ p.2 < m.dim.2 then
        s.push ((List.finRange 4).map fun k =>
          .base (m.part (origin p k) (shape m.dim.1 m.dim.2 p k)))
      else s.panic
  | .ref h => match s.vals[h]? with
    | none => s.panic
    | some a => s.push [.ref a]
  | .add refLeft refRight h1 h2 => match s.vals[h1]?, s.vals[h2]? with
    | some a, some b =>
      if a.kind = b.kind ∧ a.sizes = b.sizes ∧ a.dim = b.dim then
        s.push [.add (if refLeft then .ref a else a) (if refRight then .ref b else b)]
      else s.panic
    | _, _ => s.panic
  | .scale _ byRef x h => match s.vals[h]? with
    | none => s.panic
    | some a => s.push [.scale x (if byRef then .ref a else a)]
  | .eval h => match s.vals[h]? with
    | none => s.panic
    | some a =>
      if a.sizes = (.dynamic, .dynamic) then
        s.fresh size a.kind (.dynamic, .dynamic) a.dim fun p => a.value s.stores p.1 p.2
      else s.panic
  | .matmul alpha a b beta c => match s.base? a, s.base? b, s.base? c with
    | some a, some b, some c =>
      if productSizes a.sizes b.sizes = some c.sizes ∧ a.dim.2 = b.dim.1 ∧ c.dim = (a.dim.1, b.dim.2) ∧
          a.kind ≠ .upperTriangular ∧ b.kind ≠ .upperTriangular ∧ c.kind ≠ .upperTriangular then
        s.write (c.positions.foldl (fun x p => c.save x p.1 p.2
          (kern ⟨c.dim.1, c.dim.2, p.1, p.2⟩ alpha (pairs s.stores a b p.1 p.2) beta (c.load s.stores p.1 p.2))) s.stores)
      else s.panic
    | _, _, _ => s.panic
  | .dot a b => match s.base? a, s.base? b with
    | some a, some b => match productSizes a.sizes b.sizes with
      | none => s.panic
      | some z =>
        if a.dim.2 = b.dim.1 ∧ HasShape (productKind z) (a.dim.1, b.dim.2) ∧
            a.kind ≠ .upperTriangular ∧ b.kind ≠ .upperTriangular then
          s.fresh size (productKind z) z (a.dim.1, b.dim.2) fun p =>
            kern ⟨a.dim.1, b.dim.2, p.1, p.2⟩ 1 (pairs s.stores a b p.1 p.2) 0 0
        else s.panic
    | _, _ => s.panic

/-- A program on the machine. -/
def runMachine [Target] [Zero α] [One α] [Add α] [Mul α] (size : Nat) (kern : Kern α) :
    ASt α → List (Op α) → List (Obs α) × ASt α
  | s, [] => ([], s)
  | s, op :: ops =>
    let x := op.meaning size kern s
    let y := runMachine size kern x.2 ops
    (x.1 :: y.1, y.2)

/-! ## Where the library does what it should -/

/-- The rows (or columns) of the matrix are next to each other in memory. Nothing for other kinds. -/
def AMat.Tight (m : AMat) : Prop :=
  match m.kind with
  | .rowMajor => ∀ r c, r < m.dim.1 → c < m.dim.2 → m.place r c = m.place 0 0 + r * m.dim.2 + c
  | .columnMajor => ∀ r c, r < m.dim.1 → c < m.dim.2 → m.place r c = m.place 0 0 + c * m.dim.1 + r
  | _ => True

/-- The matrices have no element in common. -/
def AMat.Apart (m m' : AMat) : Prop :=
  m.store = m'.store → ∀ p ∈ m.positions, ∀ p' ∈ m'.positions, m.place p.1 p.2 ≠ m'.place p'.1 p'.2

/-- The elements of a matrix are in different places. -/
def AMat.Simple (m : AMat) : Prop :=
  ∀ p ∈ m.positions, ∀ p' ∈ m.positions, m.place p.1 p.2 = m.place p'.1 p'.2 → p = p'

/-- All elements are in the first `len` cells. -/
def AMat.Inside (m : AMat) : Prop := ∀ p ∈ m.positions, m.place p.1 p.2 < m.len

/-- The uses of the library for which the code is right in a build with overflow checks. Left out
are: `MatrixD` with column vector layout (`ColumnVector::from_dimension` wants one row, C12), strided
layouts beyond the end of their data (C18), empty blocks (C27), blocks of views with gaps between
rows (C28), products of such views (C45) and products into a matrix that is also a factor. -/
def Op.Allowed (s : ASt α) : Op α → Prop
  | .zeros k _ _ => k ≠ .columnVector
  | .fromSlice rs cs xs l =>
      let m := AMat.ofLayout s.stores.length xs.length (rs, cs) l
      m.positions.length ≤ xs.length → m.Inside
  | .fromVector rs cs n l =>
      let m := AMat.ofLayout s.stores.length n (rs, cs) l
      m.positions.length ≤ n → m.Inside
  | .block h _ d => 1 ≤ d.1 ∧ 1 ≤ d.2 ∧ ∀ m, s.base? h = some m → m.Tight
  | .eval h => ∀ a, s.vals[h]? = some a → a.kind ≠ .columnVector
  | .matmul _ a b _ c => ∀ ma mb mc, s.base? a = some ma → s.base? b = some mb → s.base? c = some mc →
      ma.Tight ∧ mb.Tight ∧ mc.Tight ∧ mc.Simple ∧ mc.Apart ma ∧ mc.Apart mb
  | .dot a b => ∀ ma mb, s.base? a = some ma → s.base? b = some mb → ma.Tight ∧ mb.Tight
  | _ => True

/-- A condition on each operation of a program, in the state of the machine in which it is run. -/
def AlongMachine [Target] [Zero α] [One α] [Add α] [Mul α] (size : Nat) (kern : Kern α)
    (P : ASt α → Op α → Prop) : ASt α → List (Op α) → Prop
  | _, [] => True
  | s, op :: ops => P s op ∧ AlongMachine size kern P (op.meaning size kern s).2 ops

end Householder.Spec
