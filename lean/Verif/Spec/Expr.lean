import Verif.Spec.Matrix

/-!
# Matrix expressions

Source-level expressions over matrices, what type checking and run-time checking require of
them, and the value they should have at each position.
-/

namespace Householder.Spec

variable {α : Type}

/-- A matrix expression as a program writes it. -/
inductive Ex (α : Type) where
  /-- a matrix -/
  | leaf (b : BaseMatrix)
  /-- `Matrix::from_ref(&a)` -/
  | ref (a : Ex α)
  /-- `a + b`, `a + &b`, `&a + b`, `&a + &b` -/
  | add (refLeft refRight : Bool) (a b : Ex α)
  /-- `s * a`, `s * &a`, `a * s`, `&a * s` -/
  | scale (scalarFirst byRef : Bool) (s : α) (a : Ex α)

namespace Ex

/-- Running the expression: the operators of the library build a `Matrix` value. -/
def build : Ex α → Out (Mat α)
  | leaf b => .ok (.base b)
  | ref a => do
      let x ← a.build
      return x.from_ref
  | add refLeft refRight a b => do
      let x ← a.build
      let y ← b.build
      match refLeft, refRight with
      | false, false => x.add_vv y
      | false, true => x.add_vr y
      | true, false => x.add_rv y
      | true, true => x.add_rr y
  | scale scalarFirst byRef s a => do
      let x ← a.build
      match scalarFirst, byRef with
      | true, false => return .mul_sv s x
      | true, true => return .mul_sr s x
      | false, false => return .mul_vs x s
      | false, true => return .mul_rs x s

/-- The matrices in the expression. -/
def leaves : Ex α → List BaseMatrix
  | leaf b => [b]
  | ref a => a.leaves
  | add _ _ a b => a.leaves ++ b.leaves
  | scale _ _ _ a => a.leaves

/-- The expected shape: the shape of the first matrix. -/
def dim : Ex α → Nat × Nat
  | leaf b => b.layout.dim
  | ref a => a.dim
  | add _ _ a _ => a.dim
  | scale _ _ _ a => a.dim

/-- The index layout type. -/
def kind : Ex α → BaseKind
  | leaf b => b.layout.indexKind
  | ref a => a.kind
  | add _ _ a _ => a.kind
  | scale _ _ _ a => a.kind

/-- The size types. -/
def sizes : Ex α → SizeId × SizeId
  | leaf b => (b.rs, b.cs)
  | ref a => a.sizes
  | add _ _ a _ => a.sizes
  | scale _ _ _ a => a.sizes

/-- What the Rust type checker requires of a sum: the same index layout and the same size
types (src/addition.rs:31-37). -/
def Typed : Ex α → Prop
  | leaf _ => True
  | ref a => a.Typed
  | add _ _ a b => a.Typed ∧ b.Typed ∧ a.kind = b.kind ∧ a.sizes = b.sizes
  | scale _ _ _ a => a.Typed

/-- The shapes of the operands of every sum agree. -/
def Conform : Ex α → Prop
  | leaf _ => True
  | ref a => a.Conform
  | add _ _ a b => a.Conform ∧ b.Conform ∧ a.dim = b.dim
  | scale _ _ _ a => a.Conform

/-- The mathematical value of the expression at `(r, c)`, from the elements of the leaves. -/
def value [Add α] [Mul α] (mem : Mem α) (r c : Nat) : Ex α → Option α
  | leaf b => elem b mem r c
  | ref a => a.value mem r c
  | add _ _ a b => do
      let x ← a.value mem r c
      let y ← b.value mem r c
      return x + y
  | scale _ _ s a => do
      let x ← a.value mem r c
      return s * x

/-- The expression without references: every operand by value. -/
def owned : Ex α → Ex α
  | leaf b => leaf b
  | ref a => a.owned
  | add _ _ a b => add false false a.owned b.owned
  | scale f _ s a => scale f false s a.owned

end Ex

/-- The positions of a matrix with the given index layout type and shape, in 1D order. -/
def orderOf (k : BaseKind) (d : Nat × Nat) : List (Nat × Nat) :=
  match k with
  | .rowMajor => rowMajorOrder d.1 d.2
  | .columnMajor => columnMajorOrder d.1 d.2
  | .rowVector => (List.range d.2).map fun c => (0, c)
  | .columnVector => (List.range d.1).map fun r => (r, 0)
  | .upperTriangular => triangularOrder d.1

/-- Two expressions with the same tree whose matrices read the same, in possibly different
memories, whatever their physical layout; references may differ. -/
inductive Same (mem mem' : Mem α) : Ex α → Ex α → Prop where
  | leaf {b b' : BaseMatrix} (hk : b.layout.indexKind = b'.layout.indexKind)
      (hd : b.layout.dim = b'.layout.dim)
      (he : ∀ r c, Stored b.layout r c → elem b mem r c = elem b' mem' r c) :
      Same mem mem' (.leaf b) (.leaf b')
  | refLeft {a a' : Ex α} (h : Same mem mem' a a') : Same mem mem' (.ref a) a'
  | refRight {a a' : Ex α} (h : Same mem mem' a a') : Same mem mem' a (.ref a')
  | add {f g f' g' : Bool} {a b a' b' : Ex α} (h1 : Same mem mem' a a') (h2 : Same mem mem' b b') :
      Same mem mem' (.add f g a b) (.add f' g' a' b')
  | scale {f g f' g' : Bool} {s : α} {a a' : Ex α} (h : Same mem mem' a a') :
      Same mem mem' (.scale f g s a) (.scale f' g' s a')

end Householder.Spec
