import Verif.Spec.Mirror
import Verif.Props.Access
import Verif.Lemmas.MatMul

/-!
# Property C72: row-major and column-major code mirror each other
-/

namespace Householder.Props

open Spec

variable {α : Type}

/-! ### Layouts -/

theorem mirror_mirror (l : Layout) : mirror (mirror l) = l := by
  cases l <;> simp [mirror]

theorem mirror_notTriangular {l : Layout} (h : NotTriangular l) : NotTriangular (mirror l) := by
  cases l <;> simp_all [mirror, NotTriangular]

theorem mul_comm' [Target] (cfg : Cfg) (a b : Nat) : cfg.mul a b = cfg.mul b a := by
  simp [Cfg.mul, Nat.mul_comm]

theorem add_comm' [Target] (cfg : Cfg) (a b : Nat) : cfg.add a b = cfg.add b a := by
  simp [Cfg.add, Nat.add_comm]

/-- Two computations that cannot be undefined can be exchanged. -/
theorem bind_swap {β γ δ : Type} {x : Out β} {y : Out γ} (hx : x ≠ .ub) (hy : y ≠ .ub)
    (f : β → γ → Out δ) : (x >>= fun a => y >>= fun b => f a b) =
      (y >>= fun b => x >>= fun a => f a b) := by
  cases x <;> cases y <;> first | rfl | exact absurd rfl hx | exact absurd rfl hy

theorem wrap_ne_ub [Target] (cfg : Cfg) (v : Nat) : cfg.wrap v ≠ .ub := by
  unfold Cfg.wrap; split_ifs <;> simp

theorem mul_ne_ub [Target] (cfg : Cfg) (a b : Nat) : cfg.mul a b ≠ .ub := wrap_ne_ub cfg _

theorem add_ne_ub [Target] (cfg : Cfg) (a b : Nat) : cfg.add a b ≠ .ub := wrap_ne_ub cfg _

theorem sub_ne_ub [Target] (cfg : Cfg) (a b : Nat) : cfg.sub a b ≠ .ub := by
  unfold Cfg.sub; split_ifs <;> simp

/-- **C72** for layouts: mirroring exchanges rows and columns in everything a layout computes,
for all arguments, also out of range and wrapping, in both build modes. -/
theorem C72_layouts [Target] (cfg : Cfg) (l : Layout) (h : NotTriangular l) :
    (mirror l).dim = l.dim.swap ∧
    (mirror l).stride = Out.on Prod.swap l.stride ∧
    (mirror l).number_of_elements cfg = l.number_of_elements cfg ∧
    (∀ k, (mirror l).convert_1d_2d cfg k = Out.on Prod.swap (l.convert_1d_2d cfg k)) ∧
    (∀ r c, (mirror l).convert_2d_1d cfg c r = l.convert_2d_1d cfg r c) ∧
    (∀ k, (mirror l).convert_1d_raw cfg k = l.convert_1d_raw cfg k) ∧
    (∀ r c, (mirror l).convert_2d_raw cfg c r = l.convert_2d_raw cfg r c) ∧
    (mirror l).index_layout = mirror l.index_layout ∧
    (mirror l).indexKind = mirrorKind l.indexKind := by
  have key : ∀ (s t : Nat × Nat) (r c : Nat), s = t.swap →
      (do let a ← cfg.mul s.1 c; let b ← cfg.mul s.2 r; cfg.add a b) =
      (do let a ← cfg.mul t.1 r; let b ← cfg.mul t.2 c; cfg.add a b) := by
    rintro s t r c rfl
    simp only [Prod.fst_swap, Prod.snd_swap]
    rw [bind_swap (mul_ne_ub cfg _ _) (mul_ne_ub cfg _ _)]
    congr 1; funext a; congr 1; funext b; exact add_comm' ..
  have two : ∀ k d, (do let r ← umod k d; let c ← udiv k d; return (r, c) : Out (Nat × Nat)) =
      Out.on Prod.swap (do let r ← udiv k d; let c ← umod k d; return (r, c)) := by
    intro k d
    by_cases hd : d = 0 <;> simp [umod, udiv, hd, Out.on]
  have two' : ∀ k d, (do let r ← udiv k d; let c ← umod k d; return (r, c) : Out (Nat × Nat)) =
      Out.on Prod.swap (do let r ← umod k d; let c ← udiv k d; return (r, c)) := by
    intro k d
    by_cases hd : d = 0 <;> simp [umod, udiv, hd, Out.on]
  have raw1 : ∀ (s t : Nat × Nat) (k d : Nat), s = t.swap →
      (do let (r, c) ← (do let r ← umod k d; let c ← udiv k d; return (r, c) : Out (Nat × Nat))
          let a ← cfg.mul s.1 r; let b ← cfg.mul s.2 c; cfg.add a b) =
      (do let (r, c) ← (do let r ← udiv k d; let c ← umod k d; return (r, c) : Out (Nat × Nat))
          let a ← cfg.mul t.1 r; let b ← cfg.mul t.2 c; cfg.add a b) := by
    intro s t k d e
    by_cases hd : d = 0
    · simp [umod, udiv, hd]
    · simpa [umod, udiv, hd] using key s t (k / d) (k % d) e
  cases l with
  | upperTriangular u => exact absurd rfl (h u)
  | rowMajor l =>
    exact ⟨rfl, rfl, mul_comm' .., fun k => two k _, fun _ _ => rfl, fun _ => rfl,
      fun _ _ => rfl, rfl, rfl⟩
  | columnMajor l =>
    exact ⟨rfl, rfl, mul_comm' .., fun k => two' k _, fun _ _ => rfl, fun _ => rfl,
      fun _ _ => rfl, rfl, rfl⟩
  | rowVector l | columnVector l | asRowVector l | asColumnVector l =>
    exact ⟨rfl, rfl, rfl, fun _ => rfl, fun _ _ => rfl, fun _ => rfl, fun _ _ => rfl, rfl, rfl⟩
  | asRowMajor l =>
    exact ⟨rfl, rfl, mul_comm' .., fun k => two k _, fun _ _ => rfl,
      fun k => raw1 _ _ k _ rfl, fun r c => key _ _ r c rfl, rfl, rfl⟩
  | asColumnMajor l =>
    exact ⟨rfl, rfl, mul_comm' .., fun k => two' k _, fun _ _ => rfl,
      fun k => (raw1 _ _ k _ (by simp)).symm, fun r c => key _ _ r c rfl, rfl, rfl⟩

/-- Mirror images with actual numbers, one of them wrapping. -/
example : mirror (.asRowMajor ⟨(2, 3), (7, 2)⟩) = .asColumnMajor ⟨(3, 2), (2, 7)⟩ ∧
    (Layout.asRowMajor ⟨(2, 3), (7, 2)⟩).convert_2d_raw dbg 1 2 = .ok 11 ∧
    (Layout.asColumnMajor ⟨(3, 2), (2, 7)⟩).convert_2d_raw dbg 2 1 = .ok 11 ∧
    (Layout.rowMajor ⟨(2, 3)⟩).convert_1d_2d dbg 5 = .ok (1, 2) ∧
    (Layout.columnMajor ⟨(3, 2)⟩).convert_1d_2d dbg 5 = .ok (2, 1) ∧
    (Layout.rowMajor ⟨(2, 2 ^ 63)⟩).convert_2d_raw rel 2 1 = .ok 1 ∧
    (Layout.columnMajor ⟨(2 ^ 63, 2)⟩).convert_2d_raw rel 1 2 = .ok 1 := by
  decide +kernel

/-! ### Element access -/

theorem assert_dimension_swap (r c : Nat) (d : Nat × Nat) :
    assert_dimension c r d.swap = assert_dimension r c d := by
  by_cases h1 : r < d.1 <;> by_cases h2 : c < d.2 <;> simp [assert_dimension, Out.assert, h1, h2]

theorem mirror_exec [Target] (cfg : Cfg) (m : BaseMatrix) (h : NotTriangular m.layout) (mem : Mem α)
    (op : ArrOp α) : exec cfg (mirrorMat m) mem (mirrorOp op) = exec cfg m mem op := by
  obtain ⟨e1, -, e3, -, -, e6, e7, -, -⟩ := C72_layouts cfg m.layout h
  cases op <;>
    simp [exec, mirrorOp, mirrorMat, BaseMatrix.get, BaseMatrix.get1d, BaseMatrix.set,
      BaseMatrix.set1d, BaseMatrix.get_mut, BaseMatrix.get1d_mut, BaseMatrix.get_unchecked,
      BaseMatrix.get1d_unchecked, BaseMatrix.get_unchecked_mut, BaseMatrix.get1d_unchecked_mut,
      e1, e3, e6, e7, assert_dimension_swap]

/-- **C72** for element access: any history of element operations on a matrix, and the history
with rows and columns exchanged on its mirror image, give the same responses (values, panics,
undefined behaviour) and the same memory, whatever the matrix and the memory. -/
theorem C72_histories [Target] (cfg : Cfg) (m : BaseMatrix) (h : NotTriangular m.layout) (mem : Mem α)
    (ops : List (ArrOp α)) :
    run cfg (mirrorMat m) mem (ops.map mirrorOp) = run cfg m mem ops := by
  induction ops generalizing mem with
  | nil => rfl
  | cons op ops ih =>
    simp only [List.map_cons, run, step, mirror_exec cfg m h]
    congr 1; funext x; rw [ih]

/-- A 2 × 3 row-major block and its mirror image: write, read by position and by 1D index, an
out-of-range access. -/
example :
    (run dbg ⟨⟨0, 1, 6⟩, .asRowMajor ⟨(2, 2), (4, 1)⟩, .dynamic, .dynamic⟩
      (⟨[[0, 1, 2, 3, 4, 5, 6, 7]]⟩ : Mem Int) [.set 1 0 50, .get1d 2, .get 0 1, .get 2 0]).map
        (·.1) = some [.done, .value 50, .value 2, .panicked] ∧
    (run dbg ⟨⟨0, 1, 6⟩, .asColumnMajor ⟨(2, 2), (1, 4)⟩, .dynamic, .dynamic⟩
      (⟨[[0, 1, 2, 3, 4, 5, 6, 7]]⟩ : Mem Int) [.set 0 1 50, .get1d 2, .get 1 0, .get 0 2]).map
        (·.1) = some [.done, .value 50, .value 2, .panicked] := by
  decide

/-! ### Blocks -/

theorem mirror_from_pointer_strided [Target] (cfg : Cfg) (p : Ptr) (d : Nat × Nat) (l : Layout)
    (h : NotTriangular l) : from_pointer_strided cfg p d.swap (mirror l) =
      Out.on mirrorMat (from_pointer_strided cfg p d l) := by
  obtain ⟨-, -, e3, -, -, -, e7, -, -⟩ := C72_layouts cfg l h
  unfold from_pointer_strided
  simp only [Prod.fst_swap, Prod.snd_swap]
  rw [bind_swap (sub_ne_ub cfg _ _) (sub_ne_ub cfg _ _)]
  cases cfg.sub d.1 1 with
  | panic => rfl
  | ub => rfl
  | ok r =>
    cases cfg.sub d.2 1 with
    | panic => rfl
    | ub => rfl
    | ok c =>
      simp only [Out.bind_ok, e7]
      cases l.convert_2d_raw cfg r c with
      | panic => rfl
      | ub => rfl
      | ok k =>
        simp only [Out.bind_ok]
        cases cfg.add k 1 with
        | panic => rfl
        | ub => rfl
        | ok n =>
          simp only [Out.bind_ok]
          cases p.from_raw_parts n with
          | panic => rfl
          | ub => rfl
          | ok data =>
            simp only [Out.bind_ok, from_data, BaseMatrix.new, e3]
            cases l.number_of_elements cfg with
            | panic => rfl
            | ub => rfl
            | ok n =>
              simp only [Out.bind_ok, Out.assert]
              split <;> rfl

/-- **C72** for views: the block of the mirror image is the mirror image of the block, for all
corners and sizes, also where `block` panics or its behaviour is undefined. -/
theorem C72_blocks [Target] (cfg : Cfg) (m : BaseMatrix) (h : NotTriangular m.layout) (tl d : Nat × Nat) :
    (mirrorMat m).block cfg tl.swap d.swap = Out.on mirrorMat (m.block cfg tl d) := by
  obtain ⟨e1, e2, -, -, -, -, e7, -, -⟩ := C72_layouts cfg m.layout h
  unfold BaseMatrix.block
  simp only [Prod.fst_swap, Prod.snd_swap]
  rw [bind_swap (add_ne_ub cfg _ _) (add_ne_ub cfg _ _)]
  cases cfg.add tl.1 d.1 with
  | panic => rfl
  | ub => rfl
  | ok a =>
    cases cfg.add tl.2 d.2 with
    | panic => rfl
    | ub => rfl
    | ok b =>
      simp only [Out.bind_ok, mirrorMat, e1, e2, e7, Prod.fst_swap, Prod.snd_swap]
      by_cases ha : a ≤ m.layout.dim.1 ∧ b ≤ m.layout.dim.2
      · rw [Out.assert_pos ha, Out.assert_pos ha.symm]
        simp only [Out.bind_ok]
        cases m.layout.convert_2d_raw cfg tl.1 tl.2 with
        | panic => rfl
        | ub => rfl
        | ok k =>
          simp only [Out.bind_ok, BaseMatrix.get_pointer]
          cases m.data.get_pointer.add k with
          | panic => rfl
          | ub => rfl
          | ok p =>
            simp only [Out.bind_ok]
            cases hs : m.layout.stride with
            | panic => rfl
            | ub => rfl
            | ok s =>
              simp only [Out.on, Out.bind_ok]
              have n1 : NotTriangular (.asRowMajor ⟨d, s⟩) := by simp [NotTriangular]
              have n2 : NotTriangular (.asColumnMajor ⟨d, s⟩) := by simp [NotTriangular]
              cases hl : m.layout with
              | rowMajor l => exact mirror_from_pointer_strided cfg p d _ n1
              | columnMajor l => exact mirror_from_pointer_strided cfg p d _ n2
              | asRowMajor l => exact mirror_from_pointer_strided cfg p d _ n1
              | asColumnMajor l => exact mirror_from_pointer_strided cfg p d _ n2
              | upperTriangular u => exact absurd hl (h u)
              | rowVector l => rfl
              | columnVector l => rfl
              | asRowVector l => rfl
              | asColumnVector l => rfl
      · rw [Out.assert_neg ha, Out.assert_neg (fun x => ha x.symm)]
        rfl

/-- A block and its mirror image. -/
example : BaseMatrix.block dbg ⟨⟨0, 0, 12⟩, .rowMajor ⟨(3, 4)⟩, .dynamic, .dynamic⟩ (1, 2) (2, 1) =
      .ok ⟨⟨0, 6, 5⟩, .asRowMajor ⟨(2, 1), (4, 1)⟩, .dynamic, .dynamic⟩ ∧
    BaseMatrix.block dbg ⟨⟨0, 0, 12⟩, .columnMajor ⟨(4, 3)⟩, .dynamic, .dynamic⟩ (2, 1) (1, 2) =
      .ok ⟨⟨0, 6, 5⟩, .asColumnMajor ⟨(1, 2), (1, 4)⟩, .dynamic, .dynamic⟩ := by
  decide

/-! ### Expressions and their evaluation -/

theorem mirrorExpr_layout (e : Mat α) : (mirrorExpr e).layout = mirror e.layout := by
  induction e <;> simp_all [mirrorExpr, Mat.layout, mirrorMat]

theorem noTriangle_layout {e : Mat α} (h : NoTriangle e) : NotTriangular e.layout := by
  induction e with
  | base b => exact h
  | ref m ih => exact ih h
  | addition m1 m2 l _ _ => exact h.2.2
  | scalarMult m s ih => exact ih h

theorem mirror_get_unchecked [Target] [Add α] [Mul α] (cfg : Cfg) (mem : Mem α) (r c : Nat) (e : Mat α)
    (h : NoTriangle e) :
    (mirrorExpr e).get_unchecked cfg mem c r = e.get_unchecked cfg mem r c := by
  induction e with
  | base b =>
    obtain ⟨-, -, -, -, -, -, e7, -, -⟩ := C72_layouts cfg b.layout h
    simp [mirrorExpr, Mat.get_unchecked, BaseMatrix.get_unchecked, mirrorMat, e7]
  | ref m ih => exact ih h
  | addition m1 m2 l ih1 ih2 =>
    simp [mirrorExpr, Mat.get_unchecked, ih1 h.1, ih2 h.2.1]
  | scalarMult m s ih => simp [mirrorExpr, Mat.get_unchecked, ih h]

theorem mirror_get1d_unchecked [Target] [Add α] [Mul α] (cfg : Cfg) (mem : Mem α) (k : Nat) (e : Mat α)
    (h : NoTriangle e) :
    (mirrorExpr e).get1d_unchecked cfg mem k = e.get1d_unchecked cfg mem k := by
  induction e with
  | base b =>
    obtain ⟨-, -, -, -, -, e6, -, -, -⟩ := C72_layouts cfg b.layout h
    simp [mirrorExpr, Mat.get1d_unchecked, BaseMatrix.get1d_unchecked, mirrorMat, e6]
  | ref m ih => exact ih h
  | addition m1 m2 l ih1 ih2 =>
    simp [mirrorExpr, Mat.get1d_unchecked, ih1 h.1, ih2 h.2.1]
  | scalarMult m s ih => simp [mirrorExpr, Mat.get1d_unchecked, ih h]

theorem mirror_zeros [Target] [Zero α] (cfg : Cfg) (k : BaseKind) (hk : k = .rowMajor ∨ k = .columnMajor)
    (r c : Nat) (mem : Mem α) : zeros_from_dim cfg (mirrorKind k) c r mem =
      Out.on (fun x => (mirrorMat x.1, x.2)) (zeros_from_dim cfg k r c mem) := by
  rcases hk with rfl | rfl <;>
  · simp only [zeros_from_dim, mirrorKind, BaseKind.from_dimension, RowMajor.from_dimension,
      ColumnMajor.from_dimension, Out.bind_ok, Out.pure_eq, Layout.number_of_elements,
      RowMajor.number_of_elements, ColumnMajor.number_of_elements, mul_comm' cfg c r]
    cases cfg.mul r c with
    | panic => rfl
    | ub => rfl
    | ok n =>
      simp only [Out.bind_ok]
      cases Container.newVector cfg mem n with
      | panic => rfl
      | ub => rfl
      | ok x =>
        simp only [Out.bind_ok, from_data, BaseMatrix.new, Layout.number_of_elements,
          RowMajor.number_of_elements, ColumnMajor.number_of_elements, mul_comm' cfg c r]
        cases cfg.mul r c with
        | panic => rfl
        | ub => rfl
        | ok n =>
          simp only [Out.bind_ok, Out.assert]
          split <;> rfl

/-- **C72** for expressions: building a sum, reading an element by position or by 1D index and
evaluating commute with mirroring. Evaluation is for the four matrix layouts; for vectors
`ColumnVector::from_dimension` is not the mirror image of `RowVector::from_dimension` (C41). -/
theorem C72_expressions [Target] [Zero α] [Add α] [Mul α] (cfg : Cfg) (mem : Mem α) (e e' : Mat α)
    (h : NoTriangle e) (h' : NoTriangle e') :
    Mat.addition_new (mirrorExpr e) (mirrorExpr e') =
      Out.on mirrorExpr (Mat.addition_new e e') ∧
    (∀ r c, (mirrorExpr e).get cfg mem c r = e.get cfg mem r c) ∧
    (∀ k, (mirrorExpr e).get1d cfg mem k = e.get1d cfg mem k) ∧
    (IsMajor e.layout → (mirrorExpr e).eval cfg mem =
      Out.on (fun x => (mirrorMat x.1, x.2)) (e.eval cfg mem)) := by
  obtain ⟨e1, -, e3, -, -, -, -, e8, e9⟩ := C72_layouts cfg e.layout (noTriangle_layout h)
  obtain ⟨e1', -⟩ := C72_layouts cfg e'.layout (noTriangle_layout h')
  refine ⟨?_, fun r c => ?_, fun k => ?_, fun hm => ?_⟩
  · unfold Mat.addition_new
    simp only [mirrorExpr_layout, e1, e1', Prod.swap_inj, e8]
    by_cases hd : e.layout.dim = e'.layout.dim
    · simp [Out.assert, hd, Out.on, mirrorExpr]
    · simp [Out.assert, hd, Out.on]
  · simp [Mat.get, mirrorExpr_layout, e1, assert_dimension_swap, mirror_get_unchecked cfg mem r c e h]
  · simp [Mat.get1d, mirrorExpr_layout, e3, mirror_get1d_unchecked cfg mem k e h]
  · unfold Mat.eval
    simp only [mirrorExpr_layout, e1, e3, e9, Prod.fst_swap, Prod.snd_swap]
    have hk : e.layout.indexKind = .rowMajor ∨ e.layout.indexKind = .columnMajor := by
      cases hl : e.layout <;> simp_all [IsMajor, Layout.indexKind]
    rw [mirror_zeros cfg _ hk]
    cases hz : zeros_from_dim cfg e.layout.indexKind e.layout.dim.1 e.layout.dim.2 mem with
    | panic => rfl
    | ub => rfl
    | ok x =>
      simp only [Out.on, Out.bind_ok]
      have hx : NotTriangular x.1.layout := by
        obtain ⟨R, mem'⟩ := x
        rcases hk with hk | hk <;> rw [hk] at hz <;>
          simp only [zeros_from_dim, BaseKind.from_dimension, RowMajor.from_dimension,
            ColumnMajor.from_dimension, from_data, BaseMatrix.new, Out.bind_ok, Out.pure_eq,
            Out.bind_eq_ok] at hz <;>
          obtain ⟨n, -, y, -, m, ⟨k, -, u, -, hm⟩, hr⟩ := hz <;> cases hm <;> cases hr <;>
          simp [NotTriangular]
      obtain ⟨-, -, -, -, -, e6, -, -, -⟩ := C72_layouts cfg x.1.layout hx
      cases e.layout.number_of_elements cfg with
      | panic => rfl
      | ub => rfl
      | ok n =>
        simp only [Out.bind_ok, BaseMatrix.get1d_unchecked_mut, mirrorMat, e6,
          mirror_get1d_unchecked cfg _ _ e h]
        cases forRange n _ x.2 <;> rfl

/-- A sum with a scalar multiple, evaluated, and its mirror image. -/
example :
    let m : Mat Int := .addition (.base ⟨⟨0, 0, 6⟩, .rowMajor ⟨(2, 3)⟩, .dynamic, .dynamic⟩)
      (.scalarMult (.base ⟨⟨0, 0, 6⟩, .rowMajor ⟨(2, 3)⟩, .dynamic, .dynamic⟩) 10)
      (.rowMajor ⟨(2, 3)⟩)
    m.eval dbg ⟨[[0, 1, 2, 3, 4, 5]]⟩ = .ok (⟨⟨1, 0, 6⟩, .rowMajor ⟨(2, 3)⟩, .dynamic, .dynamic⟩,
      ⟨[[0, 1, 2, 3, 4, 5], [0, 11, 22, 33, 44, 55]]⟩) ∧
    (mirrorExpr m).eval dbg ⟨[[0, 1, 2, 3, 4, 5]]⟩ =
      .ok (⟨⟨1, 0, 6⟩, .columnMajor ⟨(3, 2)⟩, .dynamic, .dynamic⟩,
        ⟨[[0, 1, 2, 3, 4, 5], [0, 11, 22, 33, 44, 55]]⟩) := by
  decide

/-! ### Products -/

theorem gemmAddr_swap (p : Ptr) (rs cs : Int) (i j : Nat) :
    gemmAddr p cs rs j i = gemmAddr p rs cs i j := by
  unfold gemmAddr; ring

theorem gemmLoc_swap (p : Ptr) (rs cs : Int) (i j : Nat) :
    gemmLoc p cs rs j i = gemmLoc p rs cs i j := by
  unfold gemmLoc; rw [gemmAddr_swap]

theorem gemmValid_swap (p : Ptr) (rs cs : Int) (i j : Nat) :
    gemmValid p cs rs j i ↔ gemmValid p rs cs i j := by
  unfold gemmValid; rw [gemmAddr_swap]

theorem gemmPre_swap {m k n : Nat} {a b c : Ptr} {rsa csa rsb csb rsc csc : Int}
    (h : gemmPre m k n a rsa csa b rsb csb c rsc csc) :
    gemmPre n k m b csb rsb a csa rsa c csc rsc := by
  obtain ⟨h1, h2, h3, h4, h5, h6⟩ := h
  refine ⟨fun i hi j hj => ?_, fun i hi j hj => ?_, fun i hi j hj => ?_,
    fun i hi j hj i' hi' j' hj' e => ?_, fun i hi j hj i' hi' j' hj' => ?_,
    fun i hi j hj i' hi' j' hj' => ?_⟩
  · rw [gemmValid_swap]; exact h2 j hj i hi
  · rw [gemmValid_swap]; exact h1 j hj i hi
  · rw [gemmValid_swap]; exact h3 j hj i hi
  · rw [gemmLoc_swap c rsc csc j i, gemmLoc_swap c rsc csc j' i'] at e
    exact (h4 j hj i hi j' hj' i' hi' e).symm
  · rw [gemmLoc_swap c rsc csc j i, gemmLoc_swap b rsb csb j' i']; exact h6 j hj i hi j' hj' i' hi'
  · rw [gemmLoc_swap c rsc csc j i, gemmLoc_swap a rsa csa j' i']; exact h5 j hj i hi j' hj' i' hi'

/-- A valid address of a container that lies in memory exists. -/
theorem gemm_exists {d : Container} {mem : Mem α} (hd : d.off + d.len ≤ mem.size d.buf)
    {rs cs : Int} {i j : Nat} (h : gemmValid d.get_pointer rs cs i j) :
    ∃ v, mem.get? (gemmLoc d.get_pointer rs cs i j) = some v := by
  rw [Mem.get?_isSome_iff]
  obtain ⟨h1, h2⟩ := h
  simp only [gemmLoc, Container.get_pointer] at *
  omega

theorem mirror_gemm {kern : Kern α} (hk : FactorsAlike kern) {m k n : Nat} (alpha beta : α)
    {a b c : Container} {rsa csa rsb csb rsc csc : Int} {mem : Mem α}
    (ha : a.off + a.len ≤ mem.size a.buf) (hb : b.off + b.len ≤ mem.size b.buf)
    (hc : c.off + c.len ≤ mem.size c.buf) :
    gemm kern n k m alpha b.get_pointer csb rsb a.get_pointer csa rsa beta c.get_pointer csc rsc
      mem =
    gemm kern m k n alpha a.get_pointer rsa csa b.get_pointer rsb csb beta c.get_pointer rsc csc
      mem := by
  by_cases hp : gemmPre m k n a.get_pointer rsa csa b.get_pointer rsb csb c.get_pointer rsc csc
  · have fill : ∀ (d : Container) (rs cs : Int) (p q : Nat),
        d.off + d.len ≤ mem.size d.buf → gemmAllValid p q d.get_pointer rs cs →
        ∃ A : Nat → Nat → α, ∀ i j, i < p → j < q →
          mem.get? (gemmLoc d.get_pointer rs cs i j) = some (A i j) := by
      intro d rs cs p q hd hv
      refine ⟨fun i j => (mem.get? (gemmLoc d.get_pointer rs cs i j)).getD alpha,
        fun i j hi hj => ?_⟩
      obtain ⟨v, hv⟩ := gemm_exists hd (hv i hi j hj)
      simp [hv]
    obtain ⟨A, hA⟩ := fill a rsa csa m k ha hp.1
    obtain ⟨B, hB⟩ := fill b rsb csb k n hb hp.2.1
    obtain ⟨C, hC⟩ := fill c rsc csc m n hc hp.2.2.1
    obtain ⟨x, e1, s1, n1, g1, o1⟩ := gemm_ok (kern := kern) (alpha := alpha) (beta := beta) hp
      hA hB hC
    obtain ⟨y, e2, s2, n2, g2, o2⟩ := gemm_ok (kern := kern) (alpha := alpha) (beta := beta)
      (gemmPre_swap hp) (mem := mem) (A := fun j l => B l j) (B := fun l i => A i l)
      (C := fun j i => C i j)
      (fun j l hj hl => by rw [gemmLoc_swap]; exact hB l j hl hj)
      (fun l i hl hi => by rw [gemmLoc_swap]; exact hA i l hi hl)
      (fun j i hj hi => by rw [gemmLoc_swap]; exact hC i j hi hj)
    rw [e1, e2]
    congr 1
    refine Mem.ext_get (by rw [n1, n2]) fun q => ?_
    by_cases hq : ∃ i j, i < m ∧ j < n ∧ q = gemmLoc c.get_pointer rsc csc i j
    · obtain ⟨i, j, hi, hj, rfl⟩ := hq
      rw [g1 i j hi hj]
      have := g2 j i hj hi
      rw [gemmLoc_swap] at this
      rw [this, ← hk m n i j alpha ((List.range k).map fun l => (A i l, B l j))]
      simp [List.map_map, Function.comp_def]
    · push Not at hq
      rw [o1 q hq, o2 q fun j i hj hi => by rw [gemmLoc_swap]; exact hq i j hi hj]
  · have hp' : ¬ gemmPre n k m b.get_pointer csb rsb a.get_pointer csa rsa c.get_pointer csc rsc :=
      fun h => hp (gemmPre_swap h)
    simp [gemm, hp, hp']

/-- **C72** for products: `(AB)ᵀ = BᵀAᵀ` holds of the code, bit for bit, when the kernel treats its
two factors alike: multiplying the mirror images in the opposite order into the mirror image of the
result does to memory exactly what the original product does, including panics for shapes that
do not fit and undefined behaviour. -/
theorem C72_products [Target] (kern : Kern α) (hk : FactorsAlike kern) (alpha beta : α) (a b c : BaseMatrix)
    (mem : Mem α) (ha : ContainerOK a.data mem) (hb : ContainerOK b.data mem)
    (hc : ContainerOK c.data mem) (na : NotTriangular a.layout) (nb : NotTriangular b.layout)
    (nc : NotTriangular c.layout) :
    matmul kern alpha (mirrorMat b) (mirrorMat a) beta (mirrorMat c) mem =
      matmul kern alpha a b beta c mem := by
  obtain ⟨a1, a2, -⟩ := C72_layouts dbg a.layout na
  obtain ⟨b1, b2, -⟩ := C72_layouts dbg b.layout nb
  obtain ⟨c1, c2, -⟩ := C72_layouts dbg c.layout nc
  have hs : ∀ l, NotTriangular l → ∃ s, l.stride = .ok s := by
    intro l hl
    cases l with
    | upperTriangular u => exact absurd rfl (hl u)
    | _ => exact ⟨_, rfl⟩
  obtain ⟨sa, ea⟩ := hs _ na
  obtain ⟨sb, eb⟩ := hs _ nb
  obtain ⟨sc, ec⟩ := hs _ nc
  unfold matmul
  simp only [mirrorMat, a1, b1, c1, a2, b2, c2, ea, eb, ec, Out.on, Out.bind_ok, Prod.fst_swap,
    Prod.snd_swap, BaseMatrix.get_pointer]
  by_cases hd : a.layout.dim.2 = b.layout.dim.1 ∧ c.layout.dim.1 = a.layout.dim.1 ∧
      c.layout.dim.2 = b.layout.dim.2
  · have hd' : b.layout.dim.1 = a.layout.dim.2 ∧ c.layout.dim.2 = b.layout.dim.2 ∧
        c.layout.dim.1 = a.layout.dim.1 := ⟨hd.1.symm, hd.2.2, hd.2.1⟩
    rw [Out.assert_pos hd, Out.assert_pos hd']
    simp only [Out.bind_ok, ← hd.1]
    exact mirror_gemm hk alpha beta ha.window hb.window hc.window
  · have hd' : ¬ (b.layout.dim.1 = a.layout.dim.2 ∧ c.layout.dim.2 = b.layout.dim.2 ∧
        c.layout.dim.1 = a.layout.dim.1) := fun h => hd ⟨h.1.symm, h.2.2, h.2.1⟩
    simp only [Out.assert_neg hd, Out.assert_neg hd', Out.bind_panic]

/-- The documented formula treats its factors alike. -/
theorem exactKern_alike [CommSemiring α] : FactorsAlike (exactKern (α := α)) := by
  intro m n i j alpha ps beta c
  simp only [exactKern, List.map_map]
  congr 3
  exact List.map_congr_left fun p _ => by simp [mul_comm]

/-- A product and its mirror image. -/
example :
    let a : BaseMatrix := ⟨⟨0, 0, 6⟩, .rowMajor ⟨(2, 3)⟩, .dynamic, .dynamic⟩
    let b : BaseMatrix := ⟨⟨1, 0, 3⟩, .columnVector ⟨3⟩, .dynamic, .fixed1⟩
    let c : BaseMatrix := ⟨⟨2, 0, 2⟩, .columnMajor ⟨(2, 1)⟩, .dynamic, .dynamic⟩
    let mem : Mem Int := ⟨[[0, 1, 2, 3, 4, 5], [1, 10, 100], [7, 8]]⟩
    matmul exactKern 1 a b 1 c mem =
      .ok ⟨[[0, 1, 2, 3, 4, 5], [1, 10, 100], [217, 551]]⟩ ∧
    matmul exactKern 1 (mirrorMat b) (mirrorMat a) 1 (mirrorMat c) mem =
      .ok ⟨[[0, 1, 2, 3, 4, 5], [1, 10, 100], [217, 551]]⟩ := by
  decide

end Householder.Props
