import Verif.Model.Messages
import Verif.Spec.Layout

/-!
# What the message of a panic should say
-/

namespace Householder.Spec

/-- A call of a function of the crate that can panic. -/
inductive Call (α : Type) where
  | get (m : Mat α) (mem : Mem α) (row col : Nat)
  | get1d (m : Mat α) (mem : Mem α) (elem : Nat)
  | get_mut (m : BaseMatrix) (row col : Nat)
  | get1d_mut (m : BaseMatrix) (elem : Nat)
  | get_slice (d : Container) (first last : Nat)
  | get_slice_mut (d : Container) (first last : Nat)
  | from_data (rs cs : SizeId) (d : Container) (l : Layout)
  | from_dimension (k : BaseKind) (dim : Nat × Nat)
  | zeros (k : BaseKind) (rows cols : Nat) (mem : Mem α)
  | rowZeros (rows cols : Nat) (mem : Mem α)
  | columnZeros (rows cols : Nat) (mem : Mem α)
  | block (m : BaseMatrix) (top_left dim : Nat × Nat)
  | sum (a b : Mat α)
  | product (kern : Kern α) (alpha : α) (a b : BaseMatrix) (beta : α) (c : BaseMatrix) (mem : Mem α)
  | dot (kern : Kern α) (i : DotImpl) (a b : BaseMatrix) (mem : Mem α)
  | eval (m : Mat α) (mem : Mem α)

namespace Call

variable {α : Type} [Zero α] [One α] [Add α] [Mul α]

/-- What it prints, if it panics. -/
def message [Target] (cfg : Cfg) : Call α → Option Message
  | get m mem row col => (Telling.get cfg m mem row col).message
  | get1d m mem elem => (Telling.get1d cfg m mem elem).message
  | get_mut m row col => (Telling.get_mut cfg m row col).message
  | get1d_mut m elem => (Telling.get1d_mut cfg m elem).message
  | get_slice d first last => (Telling.get_slice d first last).message
  | get_slice_mut d first last => (Telling.get_slice_mut d first last).message
  | from_data rs cs d l => (Telling.from_data cfg rs cs d l).message
  | from_dimension k dim => (Telling.from_dimension k dim).message
  | zeros k rows cols mem => (Telling.zeros_from_dim cfg k rows cols mem).message
  | rowZeros rows cols mem => (Telling.row_zeros_from_dim cfg rows cols mem).message
  | columnZeros rows cols mem => (Telling.column_zeros_from_dim cfg rows cols mem).message
  | block m top_left dim => (Telling.block cfg m top_left dim).message
  | sum a b => (Telling.addition_new a b).message
  | product kern alpha a b beta c mem => (Telling.matmul kern alpha a b beta c mem).message
  | dot kern i a b mem => (Telling.dot cfg kern i a b mem).message
  | eval m mem => (Telling.eval cfg m mem).message

/-- The function panics, by the model without messages. -/
def Panics [Target] (cfg : Cfg) : Call α → Prop
  | get m mem row col => m.get cfg mem row col = .panic
  | get1d m mem elem => m.get1d cfg mem elem = .panic
  | get_mut m row col => m.get_mut cfg row col = .panic
  | get1d_mut m elem => m.get1d_mut cfg elem = .panic
  | get_slice d first last => d.get_slice first last = .panic
  | get_slice_mut d first last => d.get_slice_mut first last = .panic
  | from_data rs cs d l => Householder.from_data cfg rs cs d l = .panic
  | from_dimension k dim => k.from_dimension dim = .panic
  | zeros k rows cols mem => zeros_from_dim cfg k rows cols mem = .panic
  | rowZeros rows cols mem => RowVectorD.zeros_from_dim cfg rows cols mem = .panic
  | columnZeros rows cols mem => ColumnVectorD.zeros_from_dim cfg rows cols mem = .panic
  | block m top_left dim => m.block cfg top_left dim = .panic
  | sum a b => Mat.addition_new a b = .panic
  | product kern alpha a b beta c mem => matmul kern alpha a b beta c mem = .panic
  | dot kern i a b mem => Householder.dot cfg kern i a b mem = .panic
  | eval m mem => m.eval cfg mem = .panic

/-- The compiler accepts the call: `block` exists for the four layouts with rows and columns, products for
strided layouts. -/
def Accepted : Call α → Prop
  | block m _ _ => IsMajor m.layout
  | product _ _ a b _ c _ => a.layout.isStrided = true ∧ b.layout.isStrided = true ∧ c.layout.isStrided = true
  | dot _ _ a b _ => a.layout.isStrided = true ∧ b.layout.isStrided = true
  | _ => True

/-- The message is about the shape `dim` that is impossible for the layout. -/
def ShapeFault : BaseKind → Nat × Nat → Message → Prop
  | .rowVector, dim, .rowVector n => n = dim.1 ∧ n ≠ 1
  | .columnVector, dim, .columnVector n => n = dim.2 ∧ n ≠ 1
  | .upperTriangular, dim, .triangular d => d = dim ∧ d.1 ≠ d.2
  | _, _, _ => False

/-- The number of elements of a matrix of this kind. -/
def area : BaseKind → Nat × Nat → Nat
  | .upperTriangular, dim => dim.1 * (dim.1 + 1) / 2
  | .rowVector, dim => dim.2
  | .columnVector, dim => dim.1
  | _, dim => dim.1 * dim.2

/-- The message shows the numbers of the call, and what it says of them is so. Messages about overflow
appear only in builds with overflow checks. -/
def Describes [Target] (cfg : Cfg) : Call α → Message → Prop
  | _, .add => cfg.overflowChecks = true
  | _, .sub => cfg.overflowChecks = true
  | _, .mul => cfg.overflowChecks = true
  | get m _ row _, .row r d => r = row ∧ d = m.layout.dim ∧ d.1 ≤ r
  | get m _ _ col, .col c d => c = col ∧ d = m.layout.dim ∧ d.2 ≤ c
  | get _ _ row col, .below r c => r = row ∧ c = col ∧ c < r
  | get1d m _ elem, .elem e n => e = elem ∧ n = count m.layout ∧ n ≤ e
  | get1d _ _ _, .div => True
  | get1d _ _ _, .rem => True
  | get_mut m row _, .row r d => r = row ∧ d = m.layout.dim ∧ d.1 ≤ r
  | get_mut m _ col, .col c d => c = col ∧ d = m.layout.dim ∧ d.2 ≤ c
  | get_mut _ row col, .below r c => r = row ∧ c = col ∧ c < r
  | get1d_mut m elem, .elem e n => e = elem ∧ n = count m.layout ∧ n ≤ e
  | get_slice _ first last, .first f l => f = first ∧ l = last ∧ l ≤ f
  | get_slice d _ last, .lastBeyond l n => l = last ∧ n = d.len ∧ n < l
  | get_slice_mut _ first last, .first f l => f = first ∧ l = last ∧ l ≤ f
  | get_slice_mut d first _, .firstBeyond f n => f = first ∧ n = d.len ∧ n ≤ f
  | get_slice_mut d _ last, .lastBeyond l n => l = last ∧ n = d.len ∧ n < l
  | from_data _ _ d l, .data x n => x = d.len ∧ n = count l ∧ x < n
  | from_dimension k dim, m => ShapeFault k dim m
  | zeros k rows cols _, .capacity => isizeMax < area k (rows, cols) * cfg.item.size
  | zeros k rows cols _, m => ShapeFault k (rows, cols) m
  | rowZeros rows _ _, .zerosRow n => n = rows ∧ n ≠ 1
  | rowZeros _ cols _, .capacity => isizeMax < cols * cfg.item.size
  | columnZeros _ cols _, .zerosColumn n => n = cols ∧ n ≠ 1
  | columnZeros rows _ _, .capacity => isizeMax < rows * cfg.item.size
  | block m top_left dim, .corner p d => p.1 + 1 = top_left.1 + dim.1 ∧ p.2 + 1 = top_left.2 + dim.2 ∧
      d = m.layout.dim ∧ (d.1 ≤ p.1 ∨ d.2 ≤ p.2)
  | sum a b, .sum p q => p = a.layout.dim ∧ q = b.layout.dim ∧ p ≠ q
  | product _ _ a b _ c _, .product p q r => p = a.layout.dim ∧ q = b.layout.dim ∧ r = c.layout.dim ∧
      ¬ (p.2 = q.1 ∧ r.1 = p.1 ∧ r.2 = q.2)
  | dot _ _ a b _, .product p q r => p = a.layout.dim ∧ q = b.layout.dim ∧ r = (p.1, q.2) ∧ p.2 ≠ q.1
  | dot _ .rowMat a _ _, .zerosRow n => n = a.layout.dim.1 ∧ n ≠ 1
  | dot _ .matCol _ b _, .zerosColumn n => n = b.layout.dim.2 ∧ n ≠ 1
  | dot _ _ a b _, .capacity => isizeMax < a.layout.dim.1 * b.layout.dim.2 * cfg.item.size
  | eval m _, .capacity => isizeMax < area m.layout.indexKind m.layout.dim * cfg.item.size
  | eval _ _, .div => True
  | eval _ _, .rem => True
  | eval m _, x => ShapeFault m.layout.indexKind m.layout.dim x
  | _, _ => False

/-- The number of elements, or twice that number for triangular matrices, is too large for `usize`. -/
def Wraps [Target] : Layout → Prop
  | .rowVector _ | .columnVector _ | .asRowVector _ | .asColumnVector _ => False
  | .upperTriangular l => W ≤ l.dim * (l.dim + 1)
  | l => W ≤ count l

/-- The messages that mislead: "Number of columns is 1 but must be one for ColumnVector"; the corner of a block of no
rows or columns at the top or left edge; and in release builds numbers of elements and corners that wrapped
around, and what `block` says when its corner or the size of the matrix wrapped around. -/
def Misleading [Target] (cfg : Cfg) : Call α → Message → Prop
  | _, .columnVector n => n = 1
  | get1d m _ _, .elem _ _ => cfg.overflowChecks = false ∧ Wraps m.layout
  | get1d_mut m _, .elem _ _ => cfg.overflowChecks = false ∧ Wraps m.layout
  | from_data _ _ _ l, .data _ _ => cfg.overflowChecks = false ∧ Wraps l
  | block _ top_left dim, .corner _ _ => cfg.overflowChecks = false ∧
      (top_left.1 + dim.1 = 0 ∨ top_left.2 + dim.2 = 0 ∨ W < top_left.1 + dim.1 ∨ W < top_left.2 + dim.2)
  | block m top_left dim, .data _ _ => cfg.overflowChecks = false ∧
      (W ≤ top_left.1 + dim.1 ∨ W ≤ top_left.2 + dim.2 ∨ W ≤ count m.layout)
  | _, _ => False

end Call

end Householder.Spec
