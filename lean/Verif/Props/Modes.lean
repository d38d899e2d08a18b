import Verif.Props.Histories

/-!
# Debug and release builds (C58)

The same program compiled with and without overflow checks.
-/

namespace Householder.Props

open Householder.Spec

variable {α : Type}

/-- The build with overflow checks. -/
def checked (i : ItemTy) : Cfg := ⟨true, i⟩

/-- The build without overflow checks. -/
def unchecked (i : ItemTy) : Cfg := ⟨false, i⟩

/-- Specification: the outcome `x` of the checked build is a panic, or the unchecked build has
the same outcome `y` (a value, or undefined behaviour). -/
def Agree {A : Type u} (x y : Out A) : Prop := x = .panic ∨ x = y

namespace Agree

theorem refl {A : Type u} (x : Out A) : Agree x x := .inr rfl

theorem panic {A : Type u} (y : Out A) : Agree .panic y := .inl rfl

theorem bind {A B : Type u} {x y : Out A} {f g : A → Out B} (h : Agree x y)
    (hf : ∀ a, Agree (f a) (g a)) : Agree (x >>= f) (y >>= g) := by
  rcases h with rfl | rfl
  · exact .inl rfl
  · cases x with
    | ok a => exact hf a
    | panic => exact .inl rfl
    | ub => exact .inr rfl

theorem wrap [Target] (i : ItemTy) (v : Nat) : Agree ((checked i).wrap v) ((unchecked i).wrap v) := by
  unfold Cfg.wrap checked unchecked
  split
  · exact .inr rfl
  · exact .inl rfl

theorem add [Target] (i : ItemTy) (a b : Nat) : Agree ((checked i).add a b) ((unchecked i).add a b) :=
  wrap i _

theorem mul [Target] (i : ItemTy) (a b : Nat) : Agree ((checked i).mul a b) ((unchecked i).mul a b) :=
  wrap i _

theorem sub [Target] (i : ItemTy) (a b : Nat) : Agree ((checked i).sub a b) ((unchecked i).sub a b) := by
  unfold Cfg.sub checked unchecked
  split
  · exact .inr rfl
  · exact .inl rfl

theorem foldlM {A : Type} {σ : Type} {f g : σ → A → Out σ} (h : ∀ s a, Agree (f s a) (g s a)) (l : List A)
    (s : σ) : Agree (l.foldlM f s) (l.foldlM g s) := by
  induction l generalizing s with
  | nil => exact refl _
  | cons a l ih =>
    rw [List.foldlM_cons, List.foldlM_cons]
    exact bind (h s a) ih

theorem forRange {σ : Type} {f g : Nat → σ → Out σ} (h : ∀ k s, Agree (f k s) (g k s)) (n : Nat)
    (s : σ) : Agree (Householder.forRange n f s) (Householder.forRange n g s) :=
  foldlM (fun s k => h k s) _ s

theorem withSome {A B : Type} {f g : A → Out B} (o : Option A) (h : ∀ a, Agree (f a) (g a)) :
    Agree (Spec.withSome o f) (Spec.withSome o g) := by
  cases o with
  | none => exact refl _
  | some a => exact h a

end Agree

/-- Walks through a function body: arithmetic by the lemmas above, everything that does not depend
on the build by reflexivity. -/
macro "agree" : tactic => `(tactic| repeat (first
  | with_reducible exact Agree.refl _
  | with_reducible exact Agree.add _ _ _
  | with_reducible exact Agree.mul _ _ _
  | with_reducible exact Agree.sub _ _ _
  | assumption
  | with_reducible apply Agree.bind
  | with_reducible apply Agree.forRange
  | with_reducible apply Agree.withSome
  | intro _
  | solve_by_elim only [*]))

section Layouts

variable (i : ItemTy)

theorem agree_2d_1d [Target] (l : Layout) (r c : Nat) :
    Agree (l.convert_2d_1d (checked i) r c) (l.convert_2d_1d (unchecked i) r c) := by
  cases l <;>
    simp only [Layout.convert_2d_1d, RowMajor.convert_2d_1d, ColumnMajor.convert_2d_1d,
      ArbitraryStrideRowMajor.convert_2d_1d, ArbitraryStrideColumnMajor.convert_2d_1d,
      UpperTriangular.convert_2d_1d] <;> agree

theorem agree_2d_raw [Target] (l : Layout) (r c : Nat) :
    Agree (l.convert_2d_raw (checked i) r c) (l.convert_2d_raw (unchecked i) r c) := by
  cases l <;>
    simp only [Layout.convert_2d_raw, RowMajor.convert_2d_raw, ColumnMajor.convert_2d_raw,
      RowMajor.convert_2d_1d, ColumnMajor.convert_2d_1d,
      ArbitraryStrideRowMajor.convert_2d_raw, ArbitraryStrideColumnMajor.convert_2d_raw,
      ArbitraryStrideRowVector.convert_2d_raw, ArbitraryStrideColumnVector.convert_2d_raw,
      UpperTriangular.convert_2d_raw, UpperTriangular.convert_2d_1d] <;> agree

theorem agree_1d_2d [Target] (l : Layout) (k : Nat) :
    Agree (l.convert_1d_2d (checked i) k) (l.convert_1d_2d (unchecked i) k) := by
  cases l <;>
    simp only [Layout.convert_1d_2d, UpperTriangular.convert_1d_2d] <;> agree

theorem agree_1d_raw [Target] (l : Layout) (k : Nat) :
    Agree (l.convert_1d_raw (checked i) k) (l.convert_1d_raw (unchecked i) k) := by
  cases l with
  | asRowMajor l => exact .bind (.refl _) fun p => agree_2d_raw i (.asRowMajor l) p.1 p.2
  | asColumnMajor l => exact .bind (.refl _) fun p => agree_2d_raw i (.asColumnMajor l) p.1 p.2
  | _ =>
    simp only [Layout.convert_1d_raw, ArbitraryStrideRowVector.convert_1d_raw,
      ArbitraryStrideColumnVector.convert_1d_raw]
    agree

theorem agree_number [Target] (l : Layout) :
    Agree (l.number_of_elements (checked i)) (l.number_of_elements (unchecked i)) := by
  cases l <;>
    simp only [Layout.number_of_elements, RowMajor.number_of_elements,
      ColumnMajor.number_of_elements, ArbitraryStrideRowMajor.number_of_elements,
      ArbitraryStrideColumnMajor.number_of_elements, UpperTriangular.number_of_elements] <;> agree

end Layouts

section Matrices

variable (i : ItemTy)

theorem agree_from_data [Target] (rs cs : SizeId) (d : Container) (l : Layout) :
    Agree (from_data (checked i) rs cs d l) (from_data (unchecked i) rs cs d l) :=
  .bind (agree_number i l) fun _ => .refl _

theorem agree_newVector [Target] [Zero α] (mem : Mem α) (n : Nat) :
    Agree (Container.newVector (checked i) mem n) (Container.newVector (unchecked i) mem n) :=
  .refl _

theorem agree_newSlice [Target] (mem : Mem α) (xs : List α) :
    Agree (Container.newSlice (checked i) mem xs) (Container.newSlice (unchecked i) mem xs) :=
  .refl _

theorem agree_get_unchecked [Target] (b : BaseMatrix) (mem : Mem α) (r c : Nat) :
    Agree (b.get_unchecked (checked i) mem r c) (b.get_unchecked (unchecked i) mem r c) :=
  .bind (agree_2d_raw i _ r c) fun _ => .refl _

theorem agree_get1d_unchecked [Target] (b : BaseMatrix) (mem : Mem α) (k : Nat) :
    Agree (b.get1d_unchecked (checked i) mem k) (b.get1d_unchecked (unchecked i) mem k) :=
  .bind (agree_1d_raw i _ k) fun _ => .refl _

theorem agree_get_unchecked_mut [Target] (b : BaseMatrix) (r c : Nat) :
    Agree (b.get_unchecked_mut (checked i) r c) (b.get_unchecked_mut (unchecked i) r c) :=
  .bind (agree_2d_raw i _ r c) fun _ => .refl _

theorem agree_get1d_unchecked_mut [Target] (b : BaseMatrix) (k : Nat) :
    Agree (b.get1d_unchecked_mut (checked i) k) (b.get1d_unchecked_mut (unchecked i) k) :=
  .bind (agree_1d_raw i _ k) fun _ => .refl _

theorem agree_get_mut [Target] (b : BaseMatrix) (r c : Nat) :
    Agree (b.get_mut (checked i) r c) (b.get_mut (unchecked i) r c) :=
  .bind (.refl _) fun _ => agree_get_unchecked_mut i b r c

theorem agree_get1d_mut [Target] (b : BaseMatrix) (k : Nat) :
    Agree (b.get1d_mut (checked i) k) (b.get1d_mut (unchecked i) k) :=
  .bind (agree_number i _) fun _ => .bind (.refl _) fun _ => agree_get1d_unchecked_mut i b k

theorem agree_base_get [Target] (b : BaseMatrix) (mem : Mem α) (r c : Nat) :
    Agree (b.get (checked i) mem r c) (b.get (unchecked i) mem r c) :=
  .bind (.refl _) fun _ => agree_get_unchecked i b mem r c

theorem agree_base_get1d [Target] (b : BaseMatrix) (mem : Mem α) (k : Nat) :
    Agree (b.get1d (checked i) mem k) (b.get1d (unchecked i) mem k) :=
  .bind (agree_number i _) fun _ => .bind (.refl _) fun _ => agree_get1d_unchecked i b mem k

theorem agree_mat_unchecked [Target] [Add α] [Mul α] (m : Mat α) (mem : Mem α) (r c : Nat) :
    Agree (m.get_unchecked (checked i) mem r c) (m.get_unchecked (unchecked i) mem r c) := by
  induction m with
  | base b => exact agree_get_unchecked i b mem r c
  | ref m ih => exact ih
  | addition m1 m2 l ih1 ih2 => exact .bind ih1 fun _ => .bind ih2 fun _ => .refl _
  | scalarMult m s ih => exact .bind ih fun _ => .refl _

theorem agree_mat_unchecked1d [Target] [Add α] [Mul α] (m : Mat α) (mem : Mem α) (k : Nat) :
    Agree (m.get1d_unchecked (checked i) mem k) (m.get1d_unchecked (unchecked i) mem k) := by
  induction m with
  | base b => exact agree_get1d_unchecked i b mem k
  | ref m ih => exact ih
  | addition m1 m2 l ih1 ih2 => exact .bind ih1 fun _ => .bind ih2 fun _ => .refl _
  | scalarMult m s ih => exact .bind ih fun _ => .refl _

theorem agree_mat_get [Target] [Add α] [Mul α] (m : Mat α) (mem : Mem α) (r c : Nat) :
    Agree (m.get (checked i) mem r c) (m.get (unchecked i) mem r c) :=
  .bind (.refl _) fun _ => agree_mat_unchecked i m mem r c

theorem agree_mat_get1d [Target] [Add α] [Mul α] (m : Mat α) (mem : Mem α) (k : Nat) :
    Agree (m.get1d (checked i) mem k) (m.get1d (unchecked i) mem k) :=
  .bind (agree_number i _) fun _ => .bind (.refl _) fun _ => agree_mat_unchecked1d i m mem k

theorem agree_for_each [Target] {σ : Type} (b : BaseMatrix) (f : σ → α → σ × α) (s : σ) (mem : Mem α) :
    Agree (b.for_each (checked i) f s mem) (b.for_each (unchecked i) f s mem) :=
  .bind (agree_number i _) fun _ => .forRange (fun k _ =>
    .bind (agree_get1d_unchecked_mut i b k) fun _ => .refl _) _ _

theorem agree_zeros [Target] [Zero α] (k : BaseKind) (rows cols : Nat) (mem : Mem α) :
    Agree (zeros_from_dim (checked i) k rows cols mem) (zeros_from_dim (unchecked i) k rows cols mem) :=
  .bind (.refl _) fun l => .bind (agree_number i l) fun _ => .bind (agree_newVector i mem _) fun _ =>
    .bind (.refl _) fun _ => .bind (agree_from_data i _ _ _ _) fun _ => .refl _

theorem agree_rowZeros [Target] [Zero α] (n : Nat) (mem : Mem α) :
    Agree (RowVectorD.zeros_from_length (checked i) n mem)
      (RowVectorD.zeros_from_length (unchecked i) n mem) :=
  .bind (agree_newVector i mem _) fun _ => .bind (agree_from_data i _ _ _ _) fun _ => .refl _

theorem agree_colZeros [Target] [Zero α] (n : Nat) (mem : Mem α) :
    Agree (ColumnVectorD.zeros_from_length (checked i) n mem)
      (ColumnVectorD.zeros_from_length (unchecked i) n mem) :=
  .bind (agree_newVector i mem _) fun _ => .bind (agree_from_data i _ _ _ _) fun _ => .refl _

theorem agree_rowZerosDim [Target] [Zero α] (r c : Nat) (mem : Mem α) :
    Agree (RowVectorD.zeros_from_dim (checked i) r c mem)
      (RowVectorD.zeros_from_dim (unchecked i) r c mem) :=
  .bind (.refl _) fun _ => .bind (agree_newVector i mem _) fun _ =>
    .bind (agree_from_data i _ _ _ _) fun _ => .refl _

theorem agree_colZerosDim [Target] [Zero α] (r c : Nat) (mem : Mem α) :
    Agree (ColumnVectorD.zeros_from_dim (checked i) r c mem)
      (ColumnVectorD.zeros_from_dim (unchecked i) r c mem) :=
  .bind (.refl _) fun _ => .bind (agree_newVector i mem _) fun _ =>
    .bind (agree_from_data i _ _ _ _) fun _ => .refl _

theorem agree_fixedZeros [Target] [Zero α] (rs cs : SizeId) (k : BaseKind) (mem : Mem α) :
    Agree (fixed_zeros_from_dim (checked i) rs cs k mem)
      (fixed_zeros_from_dim (unchecked i) rs cs k mem) :=
  .bind (.refl _) fun _ => .bind (agree_from_data i _ _ _ _) fun _ => .refl _

theorem agree_fixedVector [Target] [Zero α] (rs cs : SizeId) (l : Layout) (n : Nat) (mem : Mem α) :
    Agree (fixed_zeros_from_length (checked i) rs cs l n mem)
      (fixed_zeros_from_length (unchecked i) rs cs l n mem) :=
  .bind (agree_from_data i _ _ _ _) fun _ => .refl _

theorem agree_from_pointer_strided [Target] (p : Ptr) (d : Nat × Nat) (l : Layout) :
    Agree (from_pointer_strided (checked i) p d l) (from_pointer_strided (unchecked i) p d l) :=
  .bind (.sub i _ _) fun _ => .bind (.sub i _ _) fun _ => .bind (agree_2d_raw i _ _ _) fun _ =>
    .bind (.add i _ _) fun _ => .bind (.refl _) fun _ => agree_from_data i _ _ _ _

theorem agree_from_pointer [Target] (p : Ptr) (d : Nat × Nat) (l : Layout) :
    Agree (from_pointer (checked i) p d l) (from_pointer (unchecked i) p d l) :=
  .bind (.mul i _ _) fun _ => .bind (.refl _) fun _ => agree_from_data i _ _ _ _

theorem agree_block [Target] (b : BaseMatrix) (tl d : Nat × Nat) :
    Agree (b.block (checked i) tl d) (b.block (unchecked i) tl d) := by
  refine .bind (.add i _ _) fun _ => .bind (.add i _ _) fun _ => .bind (.refl _) fun _ =>
    .bind (agree_2d_raw i _ _ _) fun _ => .bind (.refl _) fun _ => .bind (.refl _) fun s => ?_
  cases BaseMatrix.strideLayout b.layout d s with
  | none => exact .refl _
  | some l => exact agree_from_pointer_strided i _ _ _

theorem agree_split [Target] (b : BaseMatrix) (s : Nat × Nat) :
    Agree (b.split_in_four_mut (checked i) s) (b.split_in_four_mut (unchecked i) s) := by
  unfold BaseMatrix.split_in_four_mut
  cases h : b.layout with
  | rowMajor l =>
    refine .bind (.refl _) fun _ => .bind (.sub i _ _) fun _ => .bind (.sub i _ _) fun _ =>
      .bind (.sub i _ _) fun _ => .bind (.sub i _ _) fun _ => .bind (agree_2d_raw i _ _ _) fun _ =>
      .bind (agree_2d_raw i _ _ _) fun _ => .bind (agree_2d_raw i _ _ _) fun _ =>
      .bind (agree_2d_raw i _ _ _) fun _ => .bind (.refl _) fun _ =>
      .bind (agree_from_pointer_strided i _ _ _) fun _ => .bind (.refl _) fun _ =>
      .bind (agree_from_pointer_strided i _ _ _) fun _ => .bind (.refl _) fun _ =>
      .bind (agree_from_pointer_strided i _ _ _) fun _ => .bind (.refl _) fun _ =>
      .bind (agree_from_pointer_strided i _ _ _) fun _ => .refl _
  | _ => exact .refl _

theorem agree_eval [Target] [Zero α] [Add α] [Mul α] (m : Mat α) (mem : Mem α) :
    Agree (m.eval (checked i) mem) (m.eval (unchecked i) mem) :=
  .bind (agree_zeros i _ _ _ mem) fun x => .bind (agree_number i _) fun _ =>
    .bind (.forRange (fun k _ => .bind (agree_mat_unchecked1d i m _ k) fun _ =>
      .bind (agree_get1d_unchecked_mut i x.1 k) fun _ => .refl _) _ _) fun _ => .refl _

theorem agree_dot [Target] [Zero α] [One α] (kern : Kern α) (j : DotImpl) (a b : BaseMatrix) (mem : Mem α) :
    Agree (dot (checked i) kern j a b mem) (dot (unchecked i) kern j a b mem) := by
  cases j with
  | matMat => exact .bind (agree_zeros i _ _ _ mem) fun _ => .refl _
  | rowMat => exact .bind (agree_rowZerosDim i _ _ mem) fun _ => .refl _
  | matCol => exact .bind (agree_colZerosDim i _ _ mem) fun _ => .refl _

theorem agree_element [Target] (b : BaseMatrix) (mem : Mem α) (op : ArrOp α) :
    Agree (Spec.exec (checked i) b mem op) (Spec.exec (unchecked i) b mem op) := by
  cases op with
  | get r c => exact .bind (agree_base_get i b mem r c) fun _ => .refl _
  | get1d k => exact .bind (agree_base_get1d i b mem k) fun _ => .refl _
  | set r c v => exact .bind (.bind (agree_get_mut i b r c) fun _ => .refl _) fun _ => .refl _
  | set1d k v => exact .bind (.bind (agree_get1d_mut i b k) fun _ => .refl _) fun _ => .refl _
  | update r c f => exact .bind (agree_get_mut i b r c) fun _ => .refl _
  | update1d k f => exact .bind (agree_get1d_mut i b k) fun _ => .refl _

theorem agree_op [Target] [Zero α] [One α] [Add α] [Mul α] (kern : Kern α) (s : St α) (op : Op α) :
    Agree (op.exec (checked i) kern s) (op.exec (unchecked i) kern s) := by
  cases op with
  | zeros k r c => exact .bind (agree_zeros i k r c s.mem) fun _ => .refl _
  | rowZeros n => exact .bind (agree_rowZeros i n s.mem) fun _ => .refl _
  | rowZerosDim r c => exact .bind (agree_rowZerosDim i r c s.mem) fun _ => .refl _
  | colZeros n => exact .bind (agree_colZeros i n s.mem) fun _ => .refl _
  | colZerosDim r c => exact .bind (agree_colZerosDim i r c s.mem) fun _ => .refl _
  | fixedZeros rs cs k =>
    simp only [Op.exec]
    split
    · exact .bind (agree_fixedZeros i rs cs k s.mem) fun _ => .refl _
    · exact .refl _
  | fixedVector rs cs k n =>
    simp only [Op.exec]
    split
    · exact .withSome _ fun l => .bind (agree_fixedVector i rs cs l n s.mem) fun _ => .refl _
    · exact .refl _
  | fromSlice rs cs xs l =>
    exact .bind (agree_newSlice i s.mem xs) fun _ => .bind (agree_from_data i _ _ _ _) fun _ => .refl _
  | fromVector rs cs n l =>
    exact .bind (agree_newVector i s.mem n) fun _ => .bind (agree_from_data i _ _ _ _) fun _ => .refl _
  | element h op => exact .withSome _ fun b => .bind (agree_element i b s.mem op) fun _ => .refl _
  | get h r c => exact .withSome _ fun m => .bind (agree_mat_get i m s.mem r c) fun _ => .refl _
  | get1d h k => exact .withSome _ fun m => .bind (agree_mat_get1d i m s.mem k) fun _ => .refl _
  | forEach h f =>
    exact .withSome _ fun b => .bind (agree_for_each i b _ _ s.mem) fun _ => .refl _
  | fillRand h f =>
    exact .withSome _ fun b => .bind (agree_for_each i b _ _ s.mem) fun _ => .refl _
  | block h tl d =>
    refine .withSome _ fun b => ?_
    split
    · exact .bind (agree_block i b tl d) fun _ => .refl _
    · exact .refl _
  | split h p =>
    refine .withSome _ fun b => ?_
    split
    · exact .bind (agree_split i b p) fun _ => .refl _
    · exact .refl _
  | eval h =>
    refine .withSome _ fun m => ?_
    split
    · exact .bind (agree_eval i m s.mem) fun _ => .refl _
    · exact .refl _
  | dot a b =>
    exact .withSome _ fun ma => .withSome _ fun mb => .withSome _ fun j =>
      .bind (agree_dot i kern j ma mb s.mem) fun _ => .refl _
  | _ => exact .refl _

end Matrices

/-- The operation does not panic. -/
def NoPanic [Target] [Zero α] [One α] [Add α] [Mul α] (cfg : Cfg) (kern : Kern α) (s : St α) (op : Op α) :
    Prop := op.exec cfg kern s ≠ .panic

/-- **C58.** A program of which no operation panics in the build with overflow checks does the same
in the build without: the same observations, the same memory and matrices at the end, and undefined
behaviour in the one exactly if in the other. It may use any operation, including those with
undefined behaviour, and start in any state. -/
theorem C58_programs [Target] [Zero α] [One α] [Add α] [Mul α] (i : ItemTy) (kern : Kern α) (ops : List (Op α))
    (s : St α) (h : Along (checked i) kern (NoPanic (checked i) kern) s ops) :
    runProgram (unchecked i) kern s ops = runProgram (checked i) kern s ops := by
  induction ops generalizing s with
  | nil => rfl
  | cons op ops ih =>
    obtain ⟨h1, h2⟩ := h
    have hs : op.step (unchecked i) kern s = op.step (checked i) kern s := by
      unfold Op.step
      rcases agree_op i kern s op with hp | he
      · exact absurd hp h1
      · rw [he]
    unfold runProgram
    rw [hs]
    cases e : op.step (checked i) kern s with
    | none => rfl
    | some x =>
      have := ih x.2 (h2 x.1 x.2 e)
      simp only [Option.bind_eq_bind, Option.bind_some, this]

/-- **C58** for single operations: with overflow checks an operation panics, or it does what it
does without them. -/
theorem C58_operations [Target] [Zero α] [One α] [Add α] [Mul α] (i : ItemTy) (kern : Kern α) (s : St α)
    (op : Op α) :
    op.exec (checked i) kern s = .panic ∨ op.exec (unchecked i) kern s = op.exec (checked i) kern s := by
  rcases agree_op i kern s op with h | h
  · exact .inl h
  · exact .inr h.symm

/-- **C58** for the layout functions and `from_pointer`, which programs call through matrices. -/
theorem C58_layouts [Target] (i : ItemTy) (l : Layout) (r c k : Nat) (p : Ptr) (d : Nat × Nat) :
    Agree (l.convert_2d_1d (checked i) r c) (l.convert_2d_1d (unchecked i) r c) ∧
    Agree (l.convert_2d_raw (checked i) r c) (l.convert_2d_raw (unchecked i) r c) ∧
    Agree (l.convert_1d_2d (checked i) k) (l.convert_1d_2d (unchecked i) k) ∧
    Agree (l.convert_1d_raw (checked i) k) (l.convert_1d_raw (unchecked i) k) ∧
    Agree (l.number_of_elements (checked i)) (l.number_of_elements (unchecked i)) ∧
    Agree (from_pointer (checked i) p d l) (from_pointer (unchecked i) p d l) ∧
    Agree (from_pointer_strided (checked i) p d l) (from_pointer_strided (unchecked i) p d l) :=
  ⟨agree_2d_1d i l r c, agree_2d_raw i l r c, agree_1d_2d i l k, agree_1d_raw i l k,
    agree_number i l, agree_from_pointer i p d l, agree_from_pointer_strided i p d l⟩

/-- A program that satisfies the condition: an element is written through a block. -/
def modesProgram : List (Op Int) :=
  [.zeros .rowMajor 2 3, .block 0 (1, 1) (1, 2), .element 1 (.set 0 1 7), .get 0 1 2]

example : Along (checked .f64) exactKern (NoPanic (checked .f64) exactKern) St.init modesProgram := by
  have key : ∀ (s s' : St Int) (op : Op Int) (ops : List (Op Int)) (o : Obs Int),
      op.exec (checked .f64) exactKern s = .ok (o, s') →
      Along (checked .f64) exactKern (NoPanic (checked .f64) exactKern) s' ops →
      Along (checked .f64) exactKern (NoPanic (checked .f64) exactKern) s (op :: ops) :=
    fun s s' op ops o e h => Along.step (o := o) (s' := s') (by rw [Op.step, e])
      (by rw [NoPanic, e]; nofun) h
  refine key _ _ _ _ _ rfl (key _ _ _ _ _ rfl (key _ _ _ _ _ rfl (key _ _ _ _ _ rfl ?_)))
  trivial

example : (runProgram (unchecked .f64) exactKern St.init modesProgram).map (·.1) =
    some [.done, .done, .done, .value 7] := by decide

/-- Without the condition the builds differ: a matrix of `2^32` by `2^32` elements. -/
example : (Op.zeros .rowMajor (2 ^ 32) (2 ^ 32)).exec (checked .f64) exactKern (St.init (α := Int))
      = .panic ∧
    (Op.zeros .rowMajor (2 ^ 32) (2 ^ 32)).exec (unchecked .f64) exactKern (St.init (α := Int))
      ≠ .panic := by
  refine ⟨rfl, fun h => ?_⟩
  have e : (Op.zeros .rowMajor (2 ^ 32) (2 ^ 32)).exec (unchecked .f64) exactKern
      (St.init (α := Int)) = .ok (.done, ⟨⟨[[]]⟩, [.base ⟨⟨0, 0, 0⟩, .rowMajor ⟨(2 ^ 32, 2 ^ 32)⟩,
        .dynamic, .dynamic⟩]⟩) := rfl
  rw [e] at h
  cases h

end Householder.Props
