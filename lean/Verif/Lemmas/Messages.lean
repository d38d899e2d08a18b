import Verif.Model.Messages
import Verif.Lemmas.Layout

/-!
# The functions with messages are the functions of the model
-/

namespace Householder

namespace Told

variable {α β : Type}

@[simp] theorem out_ok (a : α) : (Told.ok a).out = .ok a := rfl
@[simp] theorem out_panic (m : Message) : (Told.panic m : Told α).out = .panic := rfl
@[simp] theorem out_ub : (Told.ub : Told α).out = .ub := rfl
@[simp] theorem out_pure (a : α) : (pure a : Told α).out = pure a := rfl

@[simp] theorem out_bind (x : Told α) (f : α → Told β) : (x >>= f).out = x.out >>= fun a => (f a).out := by
  cases x <;> rfl

@[simp] theorem out_quiet (x : Out α) : (quiet x).out = x := by cases x <;> rfl

@[simp] theorem out_assert (p : Prop) [Decidable p] (m : Message) : (Told.assert p m).out = Out.assert p := by
  unfold Told.assert Out.assert; split <;> rfl

end Told

namespace Telling

variable {α : Type}

@[simp] theorem out_wrap [Target] (cfg : Cfg) (m : Message) (v : Nat) : (wrap cfg m v).out = cfg.wrap v := by
  unfold wrap Cfg.wrap; split_ifs <;> rfl

@[simp] theorem out_add [Target] (cfg : Cfg) (a b : Nat) : (add cfg a b).out = cfg.add a b := out_wrap ..

@[simp] theorem out_mul [Target] (cfg : Cfg) (a b : Nat) : (mul cfg a b).out = cfg.mul a b := out_wrap ..

@[simp] theorem out_sub [Target] (cfg : Cfg) (a b : Nat) : (sub cfg a b).out = cfg.sub a b := by
  unfold sub Cfg.sub; split_ifs <;> rfl

@[simp] theorem out_udiv (a b : Nat) : (udiv a b).out = Householder.udiv a b := by
  unfold udiv Householder.udiv; split_ifs <;> rfl

@[simp] theorem out_umod (a b : Nat) : (umod a b).out = Householder.umod a b := by
  unfold umod Householder.umod; split_ifs <;> rfl

theorem out_forRange {σ : Type} (n : Nat) (body : Nat → σ → Told σ) (s : σ) :
    (forRange n body s).out = Householder.forRange n (fun i s => (body i s).out) s := by
  unfold forRange Householder.forRange
  generalize List.range n = is
  induction is generalizing s with
  | nil => rfl
  | cons i is ih =>
    simp only [List.foldlM_cons, Told.out_bind]
    congr 1
    funext s
    exact ih s

@[simp] theorem out_triangular [Target] (cfg : Cfg) (l : UpperTriangular) (row col : Nat) :
    (triangular_2d_1d cfg l row col).out = l.convert_2d_1d cfg row col := by
  simp [triangular_2d_1d, UpperTriangular.convert_2d_1d]

@[simp] theorem out_convert_2d_raw [Target] (cfg : Cfg) (l : Layout) (row col : Nat) :
    (convert_2d_raw cfg l row col).out = l.convert_2d_raw cfg row col := by
  cases l <;> simp [convert_2d_raw, Layout.convert_2d_raw, strided_2d_raw, RowMajor.convert_2d_raw,
    RowMajor.convert_2d_1d, ColumnMajor.convert_2d_raw, ColumnMajor.convert_2d_1d, RowVector.convert_2d_raw,
    ColumnVector.convert_2d_raw, ArbitraryStrideRowMajor.convert_2d_raw,
    ArbitraryStrideColumnMajor.convert_2d_raw, ArbitraryStrideRowVector.convert_2d_raw,
    ArbitraryStrideColumnVector.convert_2d_raw, UpperTriangular.convert_2d_raw, UpperTriangular.convert_1d_raw]

@[simp] theorem out_convert_1d_raw [Target] (cfg : Cfg) (l : Layout) (index : Nat) :
    (convert_1d_raw cfg l index).out = l.convert_1d_raw cfg index := by
  cases l <;> simp [convert_1d_raw, Layout.convert_1d_raw, strided_2d_raw, RowMajor.convert_1d_raw,
    ColumnMajor.convert_1d_raw, RowVector.convert_1d_raw, ColumnVector.convert_1d_raw,
    ArbitraryStrideRowMajor.convert_1d_raw, ArbitraryStrideRowMajor.convert_1d_2d,
    ArbitraryStrideRowMajor.convert_2d_raw, ArbitraryStrideColumnMajor.convert_1d_raw,
    ArbitraryStrideColumnMajor.convert_1d_2d, ArbitraryStrideColumnMajor.convert_2d_raw,
    ArbitraryStrideRowVector.convert_1d_raw, ArbitraryStrideColumnVector.convert_1d_raw,
    UpperTriangular.convert_1d_raw]

@[simp] theorem out_number_of_elements [Target] (cfg : Cfg) (l : Layout) :
    (number_of_elements cfg l).out = l.number_of_elements cfg := by
  cases l <;> simp [number_of_elements, Layout.number_of_elements, RowMajor.number_of_elements,
    ColumnMajor.number_of_elements, RowVector.number_of_elements, ColumnVector.number_of_elements,
    ArbitraryStrideRowMajor.number_of_elements, ArbitraryStrideColumnMajor.number_of_elements,
    ArbitraryStrideRowVector.number_of_elements, ArbitraryStrideColumnVector.number_of_elements,
    UpperTriangular.number_of_elements]

@[simp] theorem out_stride (l : Layout) : (stride l).out = l.stride := by
  cases l <;> rfl

@[simp] theorem out_from_dimension (k : BaseKind) (dim : Nat × Nat) :
    (from_dimension k dim).out = k.from_dimension dim := by
  cases k <;> simp [from_dimension, BaseKind.from_dimension, RowMajor.from_dimension, ColumnMajor.from_dimension,
    RowVector.from_dimension, ColumnVector.from_dimension, UpperTriangular.from_dimension]

@[simp] theorem out_newVector [Target] [Zero α] (cfg : Cfg) (mem : Mem α) (n : Nat) :
    (newVector cfg mem n).out = Container.newVector cfg mem n := by
  unfold newVector
  split
  · simp
  · simp [Container.newVector, *]

theorem out_get_slice (d : Container) (first last : Nat) :
    (get_slice d first last).out = d.get_slice first last := by
  simp [get_slice, Container.get_slice]

theorem out_get_slice_mut (d : Container) (first last : Nat) :
    (get_slice_mut d first last).out = d.get_slice_mut first last := by
  simp [get_slice_mut, Container.get_slice_mut]

@[simp] theorem out_from_data [Target] (cfg : Cfg) (rs cs : SizeId) (d : Container) (l : Layout) :
    (from_data cfg rs cs d l).out = Householder.from_data cfg rs cs d l := by
  simp [from_data, Householder.from_data, BaseMatrix.new]

@[simp] theorem out_zeros_from_dim [Target] [Zero α] (cfg : Cfg) (k : BaseKind) (rows cols : Nat) (mem : Mem α) :
    (zeros_from_dim cfg k rows cols mem).out = Householder.zeros_from_dim cfg k rows cols mem := by
  simp [zeros_from_dim, Householder.zeros_from_dim]

@[simp] theorem out_row_zeros [Target] [Zero α] (cfg : Cfg) (rows cols : Nat) (mem : Mem α) :
    (row_zeros_from_dim cfg rows cols mem).out = RowVectorD.zeros_from_dim cfg rows cols mem := by
  simp [row_zeros_from_dim, RowVectorD.zeros_from_dim]

@[simp] theorem out_column_zeros [Target] [Zero α] (cfg : Cfg) (rows cols : Nat) (mem : Mem α) :
    (column_zeros_from_dim cfg rows cols mem).out = ColumnVectorD.zeros_from_dim cfg rows cols mem := by
  simp [column_zeros_from_dim, ColumnVectorD.zeros_from_dim]

@[simp] theorem out_assert_dimension (row col : Nat) (dim : Nat × Nat) :
    (assert_dimension row col dim).out = Householder.assert_dimension row col dim := by
  simp [assert_dimension, Householder.assert_dimension]

@[simp] theorem out_get_unchecked [Target] [Add α] [Mul α] (cfg : Cfg) (mem : Mem α) (row col : Nat) (m : Mat α) :
    (get_unchecked cfg mem row col m).out = m.get_unchecked cfg mem row col := by
  induction m with
  | base b => simp [get_unchecked, Mat.get_unchecked, BaseMatrix.get_unchecked]
  | ref m ih => simpa [get_unchecked, Mat.get_unchecked] using ih
  | addition a b l ih1 ih2 => simp [get_unchecked, Mat.get_unchecked, ih1, ih2]
  | scalarMult a s ih => simp [get_unchecked, Mat.get_unchecked, ih]

@[simp] theorem out_get1d_unchecked [Target] [Add α] [Mul α] (cfg : Cfg) (mem : Mem α) (i : Nat) (m : Mat α) :
    (get1d_unchecked cfg mem i m).out = m.get1d_unchecked cfg mem i := by
  induction m with
  | base b => simp [get1d_unchecked, Mat.get1d_unchecked, BaseMatrix.get1d_unchecked]
  | ref m ih => simpa [get1d_unchecked, Mat.get1d_unchecked] using ih
  | addition a b l ih1 ih2 => simp [get1d_unchecked, Mat.get1d_unchecked, ih1, ih2]
  | scalarMult a s ih => simp [get1d_unchecked, Mat.get1d_unchecked, ih]

theorem out_get [Target] [Add α] [Mul α] (cfg : Cfg) (m : Mat α) (mem : Mem α) (row col : Nat) :
    (get cfg m mem row col).out = m.get cfg mem row col := by
  simp [get, Mat.get]

theorem out_get1d [Target] [Add α] [Mul α] (cfg : Cfg) (m : Mat α) (mem : Mem α) (elem : Nat) :
    (get1d cfg m mem elem).out = m.get1d cfg mem elem := by
  simp [get1d, Mat.get1d, assert_dimension1d]

theorem out_get_mut [Target] (cfg : Cfg) (m : BaseMatrix) (row col : Nat) :
    (get_mut cfg m row col).out = m.get_mut cfg row col := by
  simp [get_mut, BaseMatrix.get_mut, BaseMatrix.get_unchecked_mut]

theorem out_get1d_mut [Target] (cfg : Cfg) (m : BaseMatrix) (elem : Nat) :
    (get1d_mut cfg m elem).out = m.get1d_mut cfg elem := by
  simp [get1d_mut, BaseMatrix.get1d_mut, BaseMatrix.get1d_unchecked_mut, assert_dimension1d]

@[simp] theorem out_from_pointer [Target] (cfg : Cfg) (p : Ptr) (dim : Nat × Nat) (l : Layout) :
    (from_pointer_strided cfg p dim l).out = Householder.from_pointer_strided cfg p dim l := by
  simp [from_pointer_strided, Householder.from_pointer_strided]

theorem add_cases [Target] (cfg : Cfg) (a b : Nat) :
    (∃ v, add cfg a b = .ok v ∧ cfg.add a b = .ok v) ∨ add cfg a b = .panic .add ∧ cfg.overflowChecks = true := by
  unfold add Cfg.add wrap Cfg.wrap
  split_ifs with h1 h2
  · exact .inl ⟨_, rfl, rfl⟩
  · exact .inr ⟨rfl, h2⟩
  · exact .inl ⟨_, rfl, rfl⟩

theorem sub_cases [Target] (cfg : Cfg) (a b : Nat) :
    (∃ v, sub cfg a b = .ok v ∧ cfg.sub a b = .ok v) ∨ sub cfg a b = .panic .sub ∧ cfg.overflowChecks = true := by
  unfold sub Cfg.sub
  split_ifs with h1 h2
  · exact .inl ⟨_, rfl, rfl⟩
  · exact .inr ⟨rfl, h2⟩
  · exact .inl ⟨_, rfl, rfl⟩

theorem corner_panics [Target] (cfg : Cfg) (tl dim whole : Nat × Nat) :
    ∃ m, corner cfg tl dim whole = .panic m := by
  unfold corner
  rcases add_cases cfg tl.1 dim.1 with ⟨a, ha, -⟩ | ⟨ha, -⟩ <;> rw [ha]
  · show ∃ m, (sub cfg a 1 >>= _) = _
    rcases sub_cases cfg a 1 with ⟨r, hr, -⟩ | ⟨hr, -⟩ <;> rw [hr]
    · show ∃ m, (add cfg tl.2 dim.2 >>= _) = _
      rcases add_cases cfg tl.2 dim.2 with ⟨b, hb, -⟩ | ⟨hb, -⟩ <;> rw [hb]
      · show ∃ m, (sub cfg b 1 >>= _) = _
        rcases sub_cases cfg b 1 with ⟨c, hc, -⟩ | ⟨hc, -⟩ <;> rw [hc]
        · exact ⟨_, rfl⟩
        · exact ⟨_, rfl⟩
      · exact ⟨_, rfl⟩
    · exact ⟨_, rfl⟩
  · exact ⟨_, rfl⟩

theorem out_block [Target] (cfg : Cfg) (m : BaseMatrix) (tl dim : Nat × Nat) :
    (block cfg m tl dim).out = m.block cfg tl dim := by
  unfold block BaseMatrix.block
  simp only [Told.out_bind, out_add]
  congr 1; funext a
  congr 1; funext b
  by_cases h : a ≤ m.layout.dim.1 ∧ b ≤ m.layout.dim.2
  · rw [if_pos h]
    simp only [Told.out_bind, Told.out_ok, out_convert_2d_raw, Told.out_quiet, out_stride, Out.assert, if_pos h]
    congr 1; funext _
    congr 1; funext _
    congr 1; funext _
    congr 1; funext _
    split <;> simp [*]
  · rw [if_neg h]
    obtain ⟨e, he⟩ := corner_panics cfg tl dim m.layout.dim
    rw [he]
    simp only [Out.assert, if_neg h]
    rfl

theorem out_addition (m1 m2 : Mat α) : (addition_new m1 m2).out = Mat.addition_new m1 m2 := by
  simp [addition_new, Mat.addition_new]

@[simp] theorem out_matmul [Target] (kern : Kern α) (alpha : α) (a b : BaseMatrix) (beta : α) (c : BaseMatrix) (mem : Mem α) :
    (matmul kern alpha a b beta c mem).out = Householder.matmul kern alpha a b beta c mem := by
  simp [matmul, Householder.matmul]

theorem out_dot [Target] [Zero α] [One α] (cfg : Cfg) (kern : Kern α) (i : DotImpl) (a b : BaseMatrix) (mem : Mem α) :
    (dot cfg kern i a b mem).out = Householder.dot cfg kern i a b mem := by
  cases i <;> simp [dot, Householder.dot, dot_mm, dot_vm, dot_mv]

theorem out_eval [Target] [Zero α] [Add α] [Mul α] (cfg : Cfg) (m : Mat α) (mem : Mem α) :
    (eval cfg m mem).out = m.eval cfg mem := by
  simp [eval, Mat.eval, out_forRange, BaseMatrix.get1d_unchecked_mut]

end Telling

end Householder
