import Verif.Lemmas.Says
import Verif.Lemmas.Machine
import Verif.Props.Expr

/-!
# Property C102: the messages of panics

The functions with their messages are `Verif/Model/Messages.lean`; what a message should say is
`Verif/Spec/Messages.lean`.
-/

namespace Householder.Props

open Spec

variable {α : Type}

/-- **C102, same panics.** A function has a message exactly when the model without messages panics. -/
theorem C102_same [Target] [Zero α] [One α] [Add α] [Mul α] (cfg : Cfg) (call : Call α) :
    (call.message cfg).isSome = true ↔ call.Panics cfg := by
  cases call <;> simp only [Call.message, Call.Panics, Told.message_isSome, Telling.out_get, Telling.out_get1d,
    Telling.out_get_mut, Telling.out_get1d_mut, Telling.out_get_slice, Telling.out_get_slice_mut,
    Telling.out_from_data, Telling.out_from_dimension, Telling.out_zeros_from_dim, Telling.out_row_zeros,
    Telling.out_column_zeros, Telling.out_block, Telling.out_addition, Telling.out_matmul, Telling.out_dot,
    Telling.out_eval]

/-- One call that panics and one that does not. -/
example [Target] : (Call.get (.base exRow) exMem 2 0).Panics dbg ∧ ¬ (Call.get (.base exRow) exMem 1 0).Panics dbg ∧
    (Call.get (.base exRow) exMem 2 0).message dbg = some (.row 2 (2, 3)) := by
  refine ⟨by show _ = _; decide_width, ?_, by decide_width⟩
  show ¬ _ = _
  decide_width

/-- **C102, as one would like it**: every message of a call the compiler accepts shows the numbers of the call,
and what it says of them is so. -/
def C102_statement [Target] : Prop :=
  ∀ (cfg : Cfg) (call : Call Int) (msg : Message), call.Accepted → call.message cfg = some msg →
    call.Describes cfg msg

/-- **C102 is false**: `ColumnVector::from_dimension((3, 1))` refuses a proper column shape, and says that the
number of columns is 1 but must be one. -/
theorem C102_false [Target] : ¬ C102_statement := by
  intro h
  exact (h dbg (.from_dimension .columnVector (3, 1)) (.columnVector 1) trivial rfl).2 rfl

example : (Message.columnVector 1).text = "Number of columns is 1 but must be one for ColumnVector." := by decide +kernel

/-- A block of no rows in a release build: the message shows a corner that wrapped around. -/
example [Target] : (Call.block (α := Int) exRow (0, 4) (0, 1)).message rel = some (.corner (W - 1, 4) (2, 3)) ∧
    (Call.block (α := Int) exRow (0, 4) (0, 1)).message dbg = some .sub := by
  constructor <;> decide_width

theorem arith_describes [Target] [Zero α] [One α] [Add α] [Mul α] {cfg : Cfg} (call : Call α) {m : Message}
    (h : Telling.Arith cfg m) : call.Describes cfg m := by
  obtain ⟨hc, rfl | rfl | rfl⟩ := h <;> cases call <;> exact hc

theorem shape_not_arith {k : BaseKind} {dim : Nat × Nat} {m : Message} (h : Call.ShapeFault k dim m) :
    m ≠ .add ∧ m ≠ .sub ∧ m ≠ .mul ∧ m ≠ .capacity ∧ m ≠ .div ∧ m ≠ .rem := by
  refine ⟨?_, ?_, ?_, ?_, ?_, ?_⟩ <;> rintro rfl <;> cases k <;> exact h.elim

theorem zeros_describes [Target] [Zero α] [One α] [Add α] [Mul α] {cfg : Cfg} {k : BaseKind} {rows cols : Nat}
    {mem : Mem α} {m : Message} (h : Call.ShapeFault k (rows, cols) m) :
    (Call.zeros k rows cols mem).Describes cfg m := by
  cases k <;> cases m <;> first | exact h | exact h.elim

theorem eval_describes [Target] [Zero α] [One α] [Add α] [Mul α] {cfg : Cfg} {a : Mat α} {mem : Mem α}
    {m : Message} (h : Call.ShapeFault a.layout.indexKind a.layout.dim m) : (Call.eval a mem).Describes cfg m := by
  obtain ⟨h1, h2, h3, h4, h5, h6⟩ := shape_not_arith h
  cases m <;> first | exact h | contradiction

theorem from_dimension_describes [Target] [Zero α] [One α] [Add α] [Mul α] {cfg : Cfg} {k : BaseKind}
    {dim : Nat × Nat} {m : Message} (h : Call.ShapeFault k dim m) :
    (Call.from_dimension (α := α) k dim).Describes cfg m := by
  cases k <;> cases m <;> first | exact h | exact h.elim

/-- **C102, partial.** Every message of every accepted call shows the numbers of the call and says what is so,
with exactly the exceptions of `Misleading`: "Number of columns is 1 but must be one for ColumnVector", and in
release builds the corner of a block of no rows or columns at the top or left edge, and numbers of elements and
corners that wrapped around. Missing: those (`C102_false`). -/
theorem C102_partial [Target] [Zero α] [One α] [Add α] [Mul α] (cfg : Cfg) (call : Call α) (msg : Message)
    (ha : call.Accepted) (h : call.message cfg = some msg) :
    call.Describes cfg msg ↔ ¬ call.Misleading cfg msg := by
  have main : call.Describes cfg msg ∨ call.Misleading cfg msg := by
    cases call with
    | get m mem row col =>
      rcases Told.says_message (Telling.says_get cfg m mem row col) h with ⟨rfl, he⟩ | ⟨rfl, he⟩ | he | ⟨rfl, he⟩
      · exact .inl ⟨rfl, rfl, he⟩
      · exact .inl ⟨rfl, rfl, he⟩
      · exact .inl (arith_describes _ he)
      · exact .inl ⟨rfl, rfl, he⟩
    | get1d m mem k =>
      rcases Told.says_message (Telling.says_get1d cfg m mem k) h with ⟨n, rfl, hn, he⟩ | he | rfl | rfl
      · exact (Telling.number_le hn).imp (fun g => ⟨rfl, g.1, he⟩) fun g => ⟨g.1, g.2.1⟩
      · exact .inl (arith_describes _ he)
      · exact .inl trivial
      · exact .inl trivial
    | get_mut m row col =>
      rcases Told.says_message (Telling.says_get_mut cfg m row col) h with ⟨rfl, he⟩ | ⟨rfl, he⟩ | he | ⟨rfl, he⟩
      · exact .inl ⟨rfl, rfl, he⟩
      · exact .inl ⟨rfl, rfl, he⟩
      · exact .inl (arith_describes _ he)
      · exact .inl ⟨rfl, rfl, he⟩
    | get1d_mut m k =>
      rcases Told.says_message (Telling.says_get1d_mut cfg m k) h with ⟨n, rfl, hn, he⟩ | he
      · exact (Telling.number_le hn).imp (fun g => ⟨rfl, g.1, he⟩) fun g => ⟨g.1, g.2.1⟩
      · exact .inl (arith_describes _ he)
    | get_slice d first last =>
      rcases Told.says_message (Telling.says_get_slice d first last) h with ⟨rfl, he⟩ | ⟨rfl, he⟩
      · exact .inl ⟨rfl, rfl, he⟩
      · exact .inl ⟨rfl, rfl, he⟩
    | get_slice_mut d first last =>
      rcases Told.says_message (Telling.says_get_slice_mut d first last) h with ⟨rfl, he⟩ | ⟨rfl, he⟩ | ⟨rfl, he⟩
      · exact .inl ⟨rfl, rfl, he⟩
      · exact .inl ⟨rfl, rfl, he⟩
      · exact .inl ⟨rfl, rfl, he⟩
    | from_data rs cs d l =>
      rcases Told.says_message (Telling.says_from_data cfg rs cs d l) h with he | ⟨n, rfl, hn, hlt⟩
      · exact .inl (arith_describes _ he)
      · exact (Telling.number_le hn).imp (fun g => ⟨rfl, g.1, hlt⟩) fun g => ⟨g.1, g.2.1⟩
    | from_dimension k dim =>
      rcases Told.says_message (Telling.says_from_dimension k dim) h with he | ⟨rfl, -⟩
      · exact .inl (from_dimension_describes he)
      · exact .inr rfl
    | zeros k rows cols mem =>
      rcases Told.says_message (Telling.says_zeros cfg k rows cols mem) h with he | ⟨rfl, he⟩ | he | ⟨rfl, -⟩
      · exact .inl (arith_describes _ he)
      · exact .inl he
      · exact .inl (zeros_describes he)
      · exact .inr rfl
    | rowZeros rows cols mem =>
      rcases Told.says_message (Telling.says_row_zeros cfg rows cols mem) h with ⟨rfl, he⟩ | ⟨rfl, -, he⟩
      · exact .inl ⟨rfl, he⟩
      · exact .inl he
    | columnZeros rows cols mem =>
      rcases Told.says_message (Telling.says_column_zeros cfg rows cols mem) h with ⟨rfl, he⟩ | ⟨rfl, -, he⟩
      · exact .inl ⟨rfl, he⟩
      · exact .inl he
    | block m tl dim =>
      rcases Told.says_message (Telling.says_block cfg m tl dim ha) h with he | ⟨p, rfl, he | he⟩ | ⟨x, n, rfl, he⟩
      · exact .inl (arith_describes _ he)
      · exact .inr ⟨he.1, he.2.1⟩
      · exact .inl ⟨he.2.1, he.2.2.1, rfl, he.2.2.2⟩
      · exact .inr he
    | sum a b =>
      obtain ⟨rfl, he⟩ := Told.says_message (Telling.says_addition a b) h
      exact .inl ⟨rfl, rfl, he⟩
    | product kern alpha a b beta c mem =>
      obtain ⟨rfl, he⟩ := Told.says_message (Telling.says_matmul kern alpha a b beta c mem ha.1 ha.2.1 ha.2.2) h
      exact .inl ⟨rfl, rfl, rfl, he⟩
    | dot kern i a b mem =>
      rcases Told.says_message (Telling.says_dot cfg kern i a b mem ha.1 ha.2) h with
        he | ⟨rfl, he⟩ | ⟨rfl, rfl, he⟩ | ⟨rfl, rfl, he⟩ | ⟨rfl, he⟩
      · exact .inl (arith_describes _ he)
      · exact .inl ⟨rfl, rfl, rfl, he⟩
      · exact .inl ⟨rfl, he⟩
      · exact .inl ⟨rfl, he⟩
      · cases i <;> exact .inl he
    | eval m mem =>
      rcases Told.says_message (Telling.says_eval cfg m mem) h with he | ⟨rfl, he⟩ | he | ⟨rfl, -⟩ | rfl | rfl
      · exact .inl (arith_describes _ he)
      · exact .inl he
      · exact .inl (eval_describes he)
      · exact .inr rfl
      · exact .inl trivial
      · exact .inl trivial
  refine ⟨fun hd hm => ?_, fun hm => main.resolve_right hm⟩
  cases msg with
  | columnVector n =>
    obtain rfl : n = 1 := by cases call <;> exact hm
    have shape : ∀ k dim, ¬ Call.ShapeFault k dim (.columnVector 1) := by
      intro k dim h
      cases k <;> first | exact h.elim | exact h.2 rfl
    cases call with
    | from_dimension k dim => exact shape _ _ hd
    | zeros k rows cols mem => exact shape _ _ hd
    | eval m mem => exact shape _ _ hd
    | dot kern i a b mem => cases i <;> exact hd.elim
    | _ => exact hd.elim
  | elem x n =>
    cases call with
    | get1d m mem k =>
      rcases Told.says_message (Telling.says_get1d cfg m mem k) h with ⟨n', e, hn, -⟩ | ⟨-, he⟩ | he | he
      · cases e
        rcases Telling.number_le hn with g | g
        · exact g.2 hm.2
        · exact absurd hd.2.1 g.2.2.ne
      · rcases he with he | he | he <;> cases he
      · cases he
      · cases he
    | get1d_mut m k =>
      rcases Told.says_message (Telling.says_get1d_mut cfg m k) h with ⟨n', e, hn, -⟩ | ⟨-, he⟩
      · cases e
        rcases Telling.number_le hn with g | g
        · exact g.2 hm.2
        · exact absurd hd.2.1 g.2.2.ne
      · rcases he with he | he | he <;> cases he
    | _ => exact hm.elim
  | data x n =>
    cases call with
    | from_data rs cs d l =>
      rcases Told.says_message (Telling.says_from_data cfg rs cs d l) h with ⟨-, he⟩ | ⟨n', e, hn, -⟩
      · rcases he with he | he | he <;> cases he
      · cases e
        rcases Telling.number_le hn with g | g
        · exact g.2 hm.2
        · exact absurd hd.2.1 g.2.2.ne
    | block m tl dim => exact hd.elim
    | _ => exact hm.elim
  | corner p d =>
    cases call with
    | block m tl dim =>
      rcases Told.says_message (Telling.says_block cfg m tl dim ha) h with ⟨-, he⟩ | ⟨p', e, he⟩ | ⟨x, n, e, -⟩
      · rcases he with he | he | he <;> cases he
      · cases e
        rcases he with he | he
        · exact he.2.2 ⟨hd.1, hd.2.1⟩
        · have := hm.2
          omega
      · cases e
    | _ => exact hm.elim
  | _ => cases call <;> exact hm.elim

/-- `block` beyond the last row: the message names the corner (2, 1) of the block in a matrix of 2 rows. -/
example [Target] : (Call.block (α := Int) exRow (1, 0) (2, 2)).Describes dbg (.corner (2, 1) (2, 3)) ∧
    (Message.corner (2, 1) (2, 3)).text = "Lower right corner (2, 1) out of bounds for matrix with dim (2, 3)" :=
  ⟨(C102_partial dbg (.block exRow (1, 0) (2, 2)) (.corner (2, 1) (2, 3)) trivial
    (by decide_width)).2 (fun h => absurd h.1 (by decide)), by decide +kernel⟩

/-- Adding a 2 × 3 and a 2 × 2 matrix. -/
example [Target] : (Call.sum (α := Int) (.base exRow) (.base exCol)).Describes rel (.sum (2, 3) (2, 2)) :=
  (C102_partial rel (.sum (.base exRow) (.base exCol)) (.sum (2, 3) (2, 2)) trivial (by decide_width)).2 id

/-- A release build: a matrix of W + 2 elements needs two, says the message. -/
example [Target] : (Call.from_data (α := Int) .dynamic .dynamic ⟨0, 0, 0⟩ (.rowMajor ⟨(W / 2 + 1, 2)⟩)).message rel =
      some (.data 0 2) ∧
    ¬ (Call.from_data (α := Int) .dynamic .dynamic ⟨0, 0, 0⟩ (.rowMajor ⟨(W / 2 + 1, 2)⟩)).Describes rel (.data 0 2) := by
  have hm : (Call.from_data (α := Int) .dynamic .dynamic ⟨0, 0, 0⟩ (.rowMajor ⟨(W / 2 + 1, 2)⟩)).message rel =
      some (.data 0 2) := by decide_width
  refine ⟨hm, fun hd => (C102_partial rel (.from_data _ _ _ _) _ trivial hm).1 hd ⟨rfl, ?_⟩⟩
  show W ≤ (W / 2 + 1) * 2
  omega

/-! ## Which message -/

theorem below_unchecked [Target] [Add α] [Mul α] (cfg : Cfg) {mem mem' : Mem α} {m : Mat α} (h : MatOK mem m)
    {row col : Nat} (hk : m.layout.indexKind = .upperTriangular) (hc : col < row) :
    Telling.get_unchecked cfg mem' row col m = .panic (.below row col) := by
  induction m with
  | base b =>
    have hk : b.layout.indexKind = .upperTriangular := hk
    obtain ⟨u, hu⟩ : ∃ u, b.layout = .upperTriangular u := by
      revert hk
      cases b.layout <;> intro hk <;> first | exact ⟨_, rfl⟩ | cases hk
    have : Telling.convert_2d_raw cfg b.layout row col = .panic (.below row col) := by
      rw [hu]
      show (Told.assert (col ≥ row) (.below row col) >>= _) = _
      rw [Told.assert, if_neg (by omega)]
      rfl
    show (Telling.convert_2d_raw cfg b.layout row col >>= _) = _
    rw [this]
    rfl
  | ref m ih => exact ih h hk
  | addition a b l iha ihb =>
    obtain ⟨ha, -, -, -, rfl⟩ := h
    have := iha ha (by rw [← index_layout_kind]; exact hk)
    show (Telling.get_unchecked cfg mem' row col a >>= _) = _
    rw [this]
    rfl
  | scalarMult a s ih =>
    show (Telling.get_unchecked cfg mem' row col a >>= _) = _
    rw [ih h hk]
    rfl

theorem message_ok {β : Type} {x : Told β} {v : β} (h : x.out = .ok v) : x.message = none := by
  cases x <;> first | rfl | cases h

/-- **C102, reading.** Reading an element of an expression of sound matrices: the row is checked first, then
the column, then the diagonal, and the message is about the first of them that fails, with the row or column asked
for and the shape of the expression. Reading by number: the message shows the number asked for and how
many there are. There is no other message. -/
theorem C102_read [Target] [Zero α] [One α] [Add α] [Mul α] (cfg : Cfg) (e : Ex α) (mem : Mem α) (m : Mat α)
    (ht : e.Typed) (hl : ∀ b ∈ e.leaves, Sound b mem) (hb : e.build = .ok m) :
    (∀ row col, (Call.get m mem row col).message cfg =
      if e.dim.1 ≤ row then some (.row row e.dim)
      else if e.dim.2 ≤ col then some (.col col e.dim)
      else if e.kind = .upperTriangular ∧ col < row then some (.below row col)
      else none) ∧
    (∀ k, (Call.get1d m mem k).message cfg =
      if (orderOf e.kind e.dim).length ≤ k then some (.elem k (orderOf e.kind e.dim).length) else none) := by
  obtain ⟨h1, h2⟩ := e.build_spec ht
  have hc : e.Conform := by
    by_contra h
    rw [h2 h] at hb; exact absurd hb (by simp)
  obtain ⟨m', hm, hd, hk, -, hok, -⟩ := h1 hc
  obtain rfl : m = m' := by rw [hb] at hm; simpa using hm
  have hok := hok mem hl
  have ho : orderOf e.kind e.dim = order m.layout := by rw [order_eq_orderOf, hd, hk]
  refine ⟨fun row col => ?_, fun k => ?_⟩
  · rw [← hd, ← hk]
    show (Telling.get cfg m mem row col).message = _
    split_ifs with g1 g2 g3
    · simp only [Telling.get, Telling.assert_dimension, Told.assert, if_neg (Nat.not_lt.mpr g1)]
      rfl
    · simp only [Telling.get, Telling.assert_dimension, Told.assert, if_pos (Nat.not_le.mp g1),
        if_neg (Nat.not_lt.mpr g2)]
      rfl
    · simp only [Telling.get, Telling.assert_dimension, Told.assert, if_pos (Nat.not_le.mp g1),
        if_pos (Nat.not_le.mp g2)]
      show (Telling.get_unchecked cfg mem row col m).message = _
      rw [below_unchecked cfg hok g3.1 g3.2]
      rfl
    · have hs : Stored m.layout row col := by
        refine ⟨Nat.not_le.mp g1, Nat.not_le.mp g2, fun u hu => ?_⟩
        by_contra hn
        exact g3 ⟨by rw [hu]; rfl, by omega⟩
      obtain ⟨v, v1, -⟩ := hok.unchecked cfg hs
      exact message_ok (by rw [Telling.out_get]; exact (hok.get cfg hs v1).1)
  · rw [ho, order_length]
    show (Telling.get1d cfg m mem k).message = _
    have hn : Telling.number_of_elements cfg m.layout = .ok (count m.layout) := by
      have e1 := Telling.out_number_of_elements cfg m.layout
      rw [hok.number_of_elements cfg] at e1
      revert e1
      cases Telling.number_of_elements cfg m.layout <;> intro e1 <;> cases e1
      rfl
    split_ifs with g
    · simp only [Telling.get1d, hn]
      show (Told.assert (k < count m.layout) _ >>= _).message = _
      rw [Told.assert, if_neg (Nat.not_lt.mpr g)]
      rfl
    · have hlt : k < (order m.layout).length := by rw [order_length]; omega
      obtain ⟨⟨r, c⟩, hp'⟩ : ∃ p, (order m.layout)[k]? = some p := ⟨_, List.getElem?_eq_getElem hlt⟩
      have hs : Stored m.layout r c := mem_order.1 (List.mem_of_getElem? hp')
      obtain ⟨v, v1, -⟩ := hok.unchecked cfg hs
      refine message_ok (v := v) ?_
      rw [Telling.out_get1d, ← (order_get_iff.1 hp').2]
      exact (hok.get cfg hs v1).2

example [Target] : (Call.get exSumMat exMem 1 2).message dbg = some (.col 2 (2, 2)) ∧
    (Call.get1d exSumMat exMem 4).message dbg = some (.elem 4 4) ∧
    (Message.col 2 (2, 2)).text = "col 2 out of bounds (dim: 2, 2" := by
  obtain ⟨h1, h2⟩ := C102_read dbg exSum exMem exSumMat exSum_typed exSum_leaves exSum_build
  exact ⟨h1 1 2, h2 4, by decide +kernel⟩

/-- A triangular matrix below its diagonal. -/
example [Target] : (Call.get (.base exTri) exMem 2 1).message rel = some (.below 2 1) ∧
    (Call.get (.base exTri) exMem 3 4).message rel = some (.row 3 (3, 3)) := by
  obtain ⟨h1, -⟩ := C102_read rel (.leaf exTri) exMem (.base exTri) trivial
    (by intro b hb; simp only [Ex.leaves, List.mem_singleton] at hb; subst hb; exact exTri_sound) rfl
  exact ⟨h1 2 1, h1 3 4⟩

/-- **C102, `eval`.** `eval` of an expression of sound matrices whose result can be allocated has one message
only, "Number of columns is 1 but must be one for ColumnVector", for column vectors of length other than 1. -/
theorem C102_eval [Target] [Zero α] [One α] [Add α] [Mul α] (cfg : Cfg) (e : Ex α) (mem : Mem α) (m : Mat α)
    (ht : e.Typed) (hl : ∀ b ∈ e.leaves, Sound b mem) (hb : e.build = .ok m)
    (hsz : (orderOf e.kind e.dim).length * cfg.item.size ≤ isizeMax) :
    (Call.eval m mem).message cfg =
      if e.kind = .columnVector ∧ e.dim.1 ≠ 1 then some (.columnVector 1) else none := by
  obtain ⟨h1, h2⟩ := e.build_spec ht
  have hc : e.Conform := by
    by_contra h
    rw [h2 h] at hb; exact absurd hb (by simp)
  obtain ⟨m', hm, hd, hk, -, -, -⟩ := h1 hc
  obtain rfl : m = m' := by rw [hb] at hm; simpa using hm
  show (Telling.eval cfg m mem).message = _
  split_ifs with g
  · have h2 : m.layout.dim.2 = 1 := by
      have hk' := hk.trans g.1
      revert hk'
      cases m.layout <;> intro hk' <;> first | rfl | cases hk'
    have hz : Telling.zeros_from_dim cfg m.layout.indexKind m.layout.dim.1 m.layout.dim.2 mem =
        .panic (.columnVector 1) := by
      rw [hk, g.1, h2, hd]
      show (Told.assert (e.dim.1 = 1) (.columnVector 1) >>= _) >>= _ = _
      rw [Told.assert, if_neg g.2]
      rfl
    show (Telling.zeros_from_dim cfg m.layout.indexKind m.layout.dim.1 m.layout.dim.2 mem >>= _).message = _
    rw [hz]
    rfl
  · obtain ⟨R, mem', h⟩ := (C41_partial cfg e mem m ht hl hb hsz).2 g
    exact message_ok (by rw [Telling.out_eval]; exact h)

/-- Evaluating a column vector of three elements. -/
example [Target] : (Call.eval (.base ⟨⟨0, 0, 6⟩, .columnVector ⟨3⟩, .dynamic, .fixed1⟩) exMem).message dbg =
    some (.columnVector 1) := by
  refine (C102_eval dbg (.leaf ⟨⟨0, 0, 6⟩, .columnVector ⟨3⟩, .dynamic, .fixed1⟩) exMem _ trivial ?_ rfl
    (by decide_width)).trans (if_pos ⟨rfl, by decide⟩)
  intro b hb
  simp only [Ex.leaves, List.mem_singleton] at hb
  subst hb
  exact sound_of_contiguous (by trivial) ⟨by decide_width, by decide_width⟩ (by decide_width)

/-- **C102, `block`.** The message of a block that does not fit, exactly: the lower right corner of the block and
the shape of the matrix; for a block whose last row or column would be before the first, "attempt to
subtract with overflow" in builds with overflow checks, and a corner that wrapped around in the others. -/
theorem C102_block [Target] [Zero α] [One α] [Add α] [Mul α] (cfg : Cfg) (m : BaseMatrix) (tl dim : Nat × Nat)
    (h1 : tl.1 + dim.1 < W) (h2 : tl.2 + dim.2 < W)
    (hout : ¬ (tl.1 + dim.1 ≤ m.layout.dim.1 ∧ tl.2 + dim.2 ≤ m.layout.dim.2)) :
    (Call.block (α := α) m tl dim).message cfg =
      if tl.1 + dim.1 = 0 ∨ tl.2 + dim.2 = 0 then
        if cfg.overflowChecks then some .sub
        else some (.corner ((W + (tl.1 + dim.1) - 1) % W, (W + (tl.2 + dim.2) - 1) % W) m.layout.dim)
      else some (.corner (tl.1 + dim.1 - 1, tl.2 + dim.2 - 1) m.layout.dim) := by
  have a1 : Telling.add cfg tl.1 dim.1 = .ok (tl.1 + dim.1) := by rw [Telling.add, Telling.wrap, if_pos h1]
  have a2 : Telling.add cfg tl.2 dim.2 = .ok (tl.2 + dim.2) := by rw [Telling.add, Telling.wrap, if_pos h2]
  have e : (Call.block (α := α) m tl dim).message cfg =
      (Telling.corner cfg tl dim m.layout.dim).message := by
    show (Telling.block cfg m tl dim).message = _
    obtain ⟨x, hx⟩ := Telling.corner_panics cfg tl dim m.layout.dim
    have : Telling.block cfg m tl dim = .panic x := by
      unfold Telling.block
      rw [a1, a2]
      show (if tl.1 + dim.1 ≤ m.layout.dim.1 ∧ tl.2 + dim.2 ≤ m.layout.dim.2 then _ else _ : Told BaseMatrix) = _
      rw [if_neg hout, hx]
      rfl
    rw [this, hx]
    rfl
  have wrapped : ∀ n, 1 ≤ n → n < W → (W + n - 1) % W = n - 1 := by
    intro n hn hw
    rw [show W + n - 1 = n - 1 + W by omega, Nat.add_mod_right, Nat.mod_eq_of_lt (by omega)]
  rw [e]
  unfold Telling.corner
  rw [a1, a2]
  show (Telling.sub cfg (tl.1 + dim.1) 1 >>= fun r => Telling.sub cfg (tl.2 + dim.2) 1 >>= fun c =>
    (Told.panic (.corner (r, c) m.layout.dim) : Told Unit)).message = _
  have pos : ∀ n, n ≠ 0 → Telling.sub cfg n 1 = .ok (n - 1) := fun n hn => if_pos (by omega)
  have neg : ∀ n, n = 0 → Telling.sub cfg n 1 =
      if cfg.overflowChecks then .panic .sub else .ok ((W + n - 1) % W) := fun n hn => if_neg (by omega)
  by_cases z1 : tl.1 + dim.1 = 0
  · rw [if_pos (.inl z1), neg _ z1]
    cases hc : cfg.overflowChecks
    · by_cases z2 : tl.2 + dim.2 = 0
      · rw [neg _ z2, hc]
        rfl
      · rw [pos _ z2, wrapped _ (by omega) h2]
        rfl
    · rfl
  · rw [pos _ z1]
    by_cases z2 : tl.2 + dim.2 = 0
    · rw [if_pos (.inr z2), neg _ z2]
      cases cfg.overflowChecks
      · rw [wrapped _ (by omega) h1]
        rfl
      · rfl
    · rw [if_neg (by omega), pos _ z2]
      rfl

/-- A block of no rows that starts beyond the last column. -/
example [Target] : (Call.block (α := Int) exRow (0, 4) (0, 1)).message dbg = some .sub :=
  C102_block (α := Int) dbg exRow (0, 4) (0, 1) (by decide_width) (by decide_width) (by decide)

/-- **C102, slices.** The messages of slices, exactly, with the order of the checks. -/
theorem C102_slices [Target] [Zero α] [One α] [Add α] [Mul α] (cfg : Cfg) (d : Container) (first last : Nat) :
    (Call.get_slice (α := α) d first last).message cfg =
      (if last ≤ first then some (.first first last)
      else if d.len < last then some (.lastBeyond last d.len)
      else none) ∧
    (Call.get_slice_mut (α := α) d first last).message cfg =
      (if last ≤ first then some (.first first last)
      else if d.len ≤ first then some (.firstBeyond first d.len)
      else if d.len < last then some (.lastBeyond last d.len)
      else none) := by
  have none_of : ∀ {β : Type} {x : Told β} {P : Message → Prop}, x.Says P → (∀ m, ¬ P m) → x.message = none := by
    intro β x P hx hP
    cases hm : x.message with
    | none => rfl
    | some m => exact absurd (Told.says_message hx hm) (hP m)
  constructor
  · show (Telling.get_slice d first last).message = _
    split_ifs with h1 h2
    · simp only [Telling.get_slice, Told.assert, if_neg (Nat.not_lt.mpr h1)]
      rfl
    · simp only [Telling.get_slice, Told.assert, if_pos (Nat.not_le.mp h1)]
      show ((if last ≤ d.len then _ else _ : Told Unit) >>= _).message = _
      rw [if_neg (Nat.not_le.mpr h2)]
      rfl
    · refine none_of (Telling.says_get_slice d first last) fun m h => ?_
      rcases h with ⟨-, h⟩ | ⟨-, h⟩ <;> omega
  · show (Telling.get_slice_mut d first last).message = _
    split_ifs with h1 h2 h3
    · simp only [Telling.get_slice_mut, Told.assert, if_neg (Nat.not_lt.mpr h1)]
      rfl
    · simp only [Telling.get_slice_mut, Told.assert, if_pos (Nat.not_le.mp h1)]
      show ((if first < d.len then _ else _ : Told Unit) >>= _).message = _
      rw [if_neg (Nat.not_lt.mpr h2)]
      rfl
    · simp only [Telling.get_slice_mut, Told.assert, if_pos (Nat.not_le.mp h1)]
      show ((if first < d.len then _ else _ : Told Unit) >>= _).message = _
      rw [if_pos (Nat.not_le.mp h2)]
      show ((if last ≤ d.len then _ else _ : Told Unit) >>= _).message = _
      rw [if_neg (Nat.not_le.mpr h3)]
      rfl
    · refine none_of (Telling.says_get_slice_mut d first last) fun m h => ?_
      rcases h with ⟨-, h⟩ | ⟨-, h⟩ | ⟨-, h⟩ <;> omega

/-- Both ends beyond the data: the mutable slice complains about its start, the other about its end. -/
example [Target] : (Call.get_slice (α := Int) ⟨0, 0, 6⟩ 7 9).message dbg = some (.lastBeyond 9 6) ∧
    (Call.get_slice_mut (α := Int) ⟨0, 0, 6⟩ 7 9).message dbg = some (.firstBeyond 7 6) :=
  C102_slices (α := Int) dbg ⟨0, 0, 6⟩ 7 9

end Householder.Props
