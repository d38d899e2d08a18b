import Verif.Spec.RefMut
import Verif.Props.MatMul

/-!
# Properties C60–C62: mutable references, unchecked access, the reference product
-/

namespace Householder.Props

open Spec

variable {α : Type}

/-! ## C60 -/

/-- The wrapper adds nothing. -/
theorem nest_layout (n : Nat) (b : BaseMatrix) : (behindRefs (α := α) n b).layout = b.layout := by
  induction n with
  | zero => rfl
  | succ n ih => exact ih

theorem nest_get_unchecked [Target] [Add α] [Mul α] (cfg : Cfg) (n : Nat) (b : BaseMatrix) (mem : Mem α)
    (r c : Nat) : (behindRefs n b).get_unchecked cfg mem r c = b.get_unchecked cfg mem r c := by
  induction n with
  | zero => rfl
  | succ n ih => exact ih

theorem nest_get1d_unchecked [Target] [Add α] [Mul α] (cfg : Cfg) (n : Nat) (b : BaseMatrix) (mem : Mem α)
    (k : Nat) : (behindRefs n b).get1d_unchecked cfg mem k = b.get1d_unchecked cfg mem k := by
  induction n with
  | zero => rfl
  | succ n ih => exact ih

theorem nest_get_unchecked_mut [Target] (cfg : Cfg) (n : Nat) (b : BaseMatrix) (r c : Nat) :
    (behindRefs (α := α) n b).get_unchecked_mut cfg r c = b.get_unchecked_mut cfg r c := by
  induction n with
  | zero => rfl
  | succ n ih => exact ih

theorem nest_get1d_unchecked_mut [Target] (cfg : Cfg) (n : Nat) (b : BaseMatrix) (k : Nat) :
    (behindRefs (α := α) n b).get1d_unchecked_mut cfg k = b.get1d_unchecked_mut cfg k := by
  induction n with
  | zero => rfl
  | succ n ih => exact ih

theorem execRef_eq [Target] [Add α] [Mul α] (cfg : Cfg) (n : Nat) (b : BaseMatrix) (mem : Mem α)
    (op : ArrOp α) : execRef cfg (behindRefs n b) mem op = exec cfg b mem op := by
  cases op <;>
  simp [execRef, exec, Mat.get, Mat.get1d, Mat.get_mut, Mat.get1d_mut, nest_layout,
    nest_get_unchecked, nest_get1d_unchecked, nest_get_unchecked_mut, nest_get1d_unchecked_mut,
    BaseMatrix.get, BaseMatrix.get1d, BaseMatrix.get_mut, BaseMatrix.get1d_mut, BaseMatrix.set,
    BaseMatrix.set1d]

theorem stepRef_eq [Target] [Add α] [Mul α] (cfg : Cfg) (n : Nat) (b : BaseMatrix) (mem : Mem α)
    (op : ArrOp α) : stepRef cfg (behindRefs n b) mem op = step cfg b mem op := by
  simp only [stepRef, step, execRef_eq]
  rfl

/-- **C60.** Reads, writes and in-place updates of a matrix through mutable references, of any
depth and in any mixture, by position or by 1D index, inside or outside the bounds, give the same
responses as on an abstract array, leave the matrix holding the resulting array, and touch nothing
else: a `MatrixRefMut` is transparent. -/
theorem C60_mutable_references [Target] [Add α] [Mul α] (cfg : Cfg) (b : BaseMatrix) (mem : Mem α)
    (A : Arr α) (h : Sound b mem) (hn : NonOverlapping b.layout) (hA : Represents b mem A)
    (ops : List (Nat × ArrOp α)) :
    ∃ mem', runRefs cfg b mem ops = some ((A.run (order b.layout) (ops.map (·.2))).1, mem') ∧
      Represents b mem' (A.run (order b.layout) (ops.map (·.2))).2 ∧
      ∀ q, (∀ r c, Stored b.layout r c → q ≠ cell b r c) → mem'.get? q = mem.get? q := by
  have e : ∀ (ops : List (Nat × ArrOp α)) (mem : Mem α),
      runRefs cfg b mem ops = run cfg b mem (ops.map (·.2)) := by
    intro ops
    induction ops with
    | nil => intro mem; rfl
    | cons o ops ih =>
      intro mem
      simp only [runRefs, run, List.map_cons, stepRef_eq, ih]
  rw [e]
  exact C20_abstract_array cfg b mem A h hn hA _

/-- Writing through one and two references and reading directly; a panic in the middle. -/
example : runRefs dbg exTri exMem [(1, .set 0 1 7), (0, .get1d 4), (2, .get 1 0),
      (2, .update1d 4 (· + 1)), (0, .get 0 1)] =
    (run dbg exTri exMem [.set 0 1 7, .update1d 4 (· + 1)]).map
      fun x => ([.done, .value 7, .panicked, .done, .value 8], x.2) := by decide

/-- **C60**, the shape: a matrix behind references has its layout, shape and size types. -/
theorem C60_shape (n : Nat) (b : BaseMatrix) :
    (behindRefs (α := α) n b).layout = b.layout ∧ (behindRefs (α := α) n b).dim = b.layout.dim ∧
    (behindRefs (α := α) n b).sizes = (b.rs, b.cs) ∧
    (behindRefs (α := α) n b).length = (Mat.base (α := α) b).length := by
  have hs : (behindRefs (α := α) n b).sizes = (b.rs, b.cs) := by
    induction n with
    | zero => rfl
    | succ n ih => exact ih
  refine ⟨nest_layout n b, by rw [Mat.dim, nest_layout], hs, ?_⟩
  simp only [Mat.length, hs, nest_layout]
  rfl

example : (behindRefs (α := Int) 3 exV).length = some 3 ∧ (behindRefs (α := Int) 2 exA).dim = (2, 3) := by decide

/-! ## C61 -/

/-- **C61.** On a sound matrix, inside the bounds, the unchecked accessors are the checked ones: the
same values and the same places, two- and one-dimensional. -/
theorem C61_unchecked_inside [Target] (cfg : Cfg) (m : BaseMatrix) (mem : Mem α) (h : Sound m mem) (r c k : Nat)
    (hk : (order m.layout)[k]? = some (r, c)) :
    (∃ v, m.get_unchecked cfg mem r c = .ok v ∧ m.get cfg mem r c = .ok v ∧
      m.get1d_unchecked cfg mem k = .ok v ∧ m.get1d cfg mem k = .ok v) ∧
    (∃ p, m.get_unchecked_mut cfg r c = .ok p ∧ m.get_mut cfg r c = .ok p ∧
      m.get1d_unchecked_mut cfg k = .ok p ∧ m.get1d_mut cfg k = .ok p) := by
  obtain ⟨hs, rfl⟩ := order_get_iff.1 hk
  obtain ⟨v, hv⟩ := h.elem_some hs
  exact ⟨⟨v, h.get_unchecked cfg hs hv, h.get cfg hs hv, h.get1d_unchecked cfg hs hv,
    h.get1d cfg hs hv⟩, ⟨_, h.get_unchecked_mut cfg hs, h.get_mut cfg hs,
    h.get1d_unchecked_mut cfg hs, h.get1d_mut cfg hs⟩⟩

example : (order exTri.layout)[2]? = some (1, 2) ∧ exTri.get_unchecked dbg exMem 1 2 = .ok 3 ∧
    exTri.get1d_unchecked dbg exMem 2 = .ok 3 := by decide

/-- The offset computed for any position of a layout that is not triangular. -/
theorem convert_2d_raw_any [Target] (cfg : Cfg) {l : Layout} (hl : NotTriangular l) {r c : Nat}
    (h : raw l r c < W) : l.convert_2d_raw cfg r c = .ok (raw l r c) := by
  cases l <;> simp only [Layout.convert_2d_raw, raw] at *
  case rowMajor l =>
    simp [RowMajor.convert_2d_raw, RowMajor.convert_2d_1d,
      Cfg.mul_ok _ (show r * l.dim.2 < W by omega), Cfg.add_ok _ h]
  case columnMajor l =>
    simp [ColumnMajor.convert_2d_raw, ColumnMajor.convert_2d_1d,
      Cfg.mul_ok _ (show c * l.dim.1 < W by omega), Cfg.add_ok _ h]
  case rowVector l => simp [RowVector.convert_2d_raw]
  case columnVector l => simp [ColumnVector.convert_2d_raw]
  case asRowMajor l =>
    simp [ArbitraryStrideRowMajor.convert_2d_raw, Cfg.mul_ok _ (show l.stride.1 * r < W by omega),
      Cfg.mul_ok _ (show l.stride.2 * c < W by omega), Cfg.add_ok _ h]
  case asColumnMajor l =>
    simp [ArbitraryStrideColumnMajor.convert_2d_raw,
      Cfg.mul_ok _ (show l.stride.1 * r < W by omega),
      Cfg.mul_ok _ (show l.stride.2 * c < W by omega), Cfg.add_ok _ h]
  case asRowVector l =>
    simp [ArbitraryStrideRowVector.convert_2d_raw, Cfg.mul_ok _ h]
  case asColumnVector l =>
    simp [ArbitraryStrideColumnVector.convert_2d_raw, Cfg.mul_ok _ h]
  case upperTriangular u => exact absurd rfl (hl u)

/-- **C61, outside the bounds.** For every layout that is not triangular and every position, inside
or outside the shape, whose offset is representable: the unchecked accessors read and point to the
cell at that offset if the container reaches that far, and are undefined behaviour otherwise. -/
theorem C61_unchecked_anywhere [Target] (cfg : Cfg) (m : BaseMatrix) (mem : Mem α)
    (hc : ContainerOK m.data mem) (hl : NotTriangular m.layout) (r c : Nat)
    (hw : raw m.layout r c < W) :
    (raw m.layout r c < m.data.len →
      (∃ v, mem.get? (cell m r c) = some v ∧ m.get_unchecked cfg mem r c = .ok v) ∧
      m.get_unchecked_mut cfg r c = .ok (cell m r c)) ∧
    (m.data.len ≤ raw m.layout r c →
      m.get_unchecked cfg mem r c = .ub ∧ m.get_unchecked_mut cfg r c = .ub) := by
  refine ⟨fun h => ⟨?_, ?_⟩, fun h => ⟨?_, ?_⟩⟩
  · obtain ⟨v, h1, h2⟩ := Container.get_unchecked_ok hc.window h
    exact ⟨v, h2, by simp [BaseMatrix.get_unchecked, convert_2d_raw_any cfg hl hw, h1]⟩
  · simp [BaseMatrix.get_unchecked_mut, convert_2d_raw_any cfg hl hw,
      Container.get_unchecked_mut_ok h, cell]
  · simp [BaseMatrix.get_unchecked, convert_2d_raw_any cfg hl hw, Container.get_unchecked,
      Nat.not_lt.2 h]
  · simp [BaseMatrix.get_unchecked_mut, convert_2d_raw_any cfg hl hw, Container.get_unchecked_mut,
      Nat.not_lt.2 h]

/-- Column 4 of row 0 of a matrix with 3 columns is defined (and is another row's element), row 2 of
a matrix with 2 rows is undefined. -/
example : exA.get_unchecked dbg exMemP 0 4 = .ok 5 ∧ exA.get_unchecked dbg exMemP 1 1 = .ok 5 ∧
    exA.get_unchecked dbg exMemP 2 0 = .ub ∧ exA.get dbg exMemP 0 4 = .panic := by decide

/-- **C61, wrapping around.** Without the check, a column index beyond the end of a row of a
row-major matrix continues in the following rows: it is the element that many columns further in
row-major order, as long as there is one. (Column-major: a row index beyond the end of a column.) -/
theorem C61_wraps_around [Target] (cfg : Cfg) (m : BaseMatrix) (mem : Mem α) (h : Sound m mem) (r c : Nat) :
    (∀ l, m.layout = .rowMajor l → 0 < l.dim.2 → r + c / l.dim.2 < l.dim.1 →
      m.get_unchecked cfg mem r c = m.get cfg mem (r + c / l.dim.2) (c % l.dim.2) ∧
      m.get_unchecked_mut cfg r c = m.get_mut cfg (r + c / l.dim.2) (c % l.dim.2)) ∧
    (∀ l, m.layout = .columnMajor l → 0 < l.dim.1 → c + r / l.dim.1 < l.dim.2 →
      m.get_unchecked cfg mem r c = m.get cfg mem (r % l.dim.1) (c + r / l.dim.1) ∧
      m.get_unchecked_mut cfg r c = m.get_mut cfg (r % l.dim.1) (c + r / l.dim.1)) := by
  have key : ∀ r' c', Stored m.layout r' c' → NotTriangular m.layout →
      raw m.layout r c = raw m.layout r' c' →
      m.get_unchecked cfg mem r c = m.get cfg mem r' c' ∧
      m.get_unchecked_mut cfg r c = m.get_mut cfg r' c' := by
    intro r' c' hs ht e
    obtain ⟨v, hv⟩ := h.elem_some hs
    have hin := h.inside r' c' hs
    have hW := small_W h.container.small
    obtain ⟨⟨w, h1, h2⟩, h3⟩ := (C61_unchecked_anywhere cfg m mem h.container ht r c (by omega)).1
      (by omega)
    have hce : cell m r c = cell m r' c' := by simp [cell, e]
    rw [h.get cfg hs hv, h.get_mut cfg hs, h2, h3, hce]
    rw [hce] at h1
    rw [elem, h1] at hv
    exact ⟨by simpa using hv, rfl⟩
  refine ⟨fun l hl hpos hlt => ?_, fun l hl hpos hlt => ?_⟩
  · refine key _ _ ?_ (by simp [NotTriangular, hl]) ?_
    · rw [hl]
      exact ⟨hlt, Nat.mod_lt _ hpos, by simp⟩
    · simp only [hl, raw]
      have := Nat.div_add_mod c l.dim.2
      rw [Nat.add_mul, Nat.mul_comm (c / l.dim.2)]
      omega
  · refine key _ _ ?_ (by simp [NotTriangular, hl]) ?_
    · rw [hl]
      exact ⟨Nat.mod_lt _ hpos, hlt, by simp⟩
    · simp only [hl, raw]
      have := Nat.div_add_mod r l.dim.1
      rw [Nat.add_mul, Nat.mul_comm (r / l.dim.1)]
      omega

example : exA.layout = .rowMajor ⟨(2, 3)⟩ ∧ exA.get_unchecked dbg exMemP 0 5 = .ok 6 ∧
    exA.get dbg exMemP (0 + 5 / 3) (5 % 3) = .ok 6 ∧
    exB.get_unchecked dbg exMemP 4 0 = exB.get dbg exMemP 1 1 := by decide

/-- **C61, triangles.** Even the unchecked accessors of an upper triangular matrix refuse a position
below the diagonal: they panic, they do not cause undefined behaviour. -/
theorem C61_triangular [Target] (cfg : Cfg) (m : BaseMatrix) (mem : Mem α) (u : UpperTriangular)
    (hl : m.layout = .upperTriangular u) (r c : Nat) (h : c < r) :
    m.get_unchecked cfg mem r c = .panic ∧ m.get_unchecked_mut cfg r c = .panic := by
  simp [BaseMatrix.get_unchecked, BaseMatrix.get_unchecked_mut, hl, Layout.convert_2d_raw,
    (tri_convert_panic cfg u h).2]

example : exTri.get_unchecked rel exMem 2 0 = .panic := by decide

/-- **C61, one-dimensional.** For contiguous layouts the unchecked 1D accessors address the cell
with that number in the container, also beyond the last element, and are undefined behaviour past
the end of the container. For strided matrices they are the unchecked 2D accessors at the row and
column of that number (and panic, dividing by zero, if rows, resp. columns, are empty). -/
theorem C61_unchecked_1d [Target] (cfg : Cfg) (m : BaseMatrix) (mem : Mem α) (hc : ContainerOK m.data mem)
    (k : Nat) :
    (Contiguous m.layout → k < m.data.len →
      (∃ v, mem.get? ⟨m.data.buf, m.data.off + k⟩ = some v ∧ m.get1d_unchecked cfg mem k = .ok v) ∧
      m.get1d_unchecked_mut cfg k = .ok ⟨m.data.buf, m.data.off + k⟩) ∧
    (Contiguous m.layout → m.data.len ≤ k →
      m.get1d_unchecked cfg mem k = .ub ∧ m.get1d_unchecked_mut cfg k = .ub) ∧
    (∀ l, m.layout = .asRowMajor l ∧ l.dim.2 ≠ 0 → 
      m.get1d_unchecked cfg mem k = m.get_unchecked cfg mem (k / l.dim.2) (k % l.dim.2) ∧
      m.get1d_unchecked_mut cfg k = m.get_unchecked_mut cfg (k / l.dim.2) (k % l.dim.2)) ∧
    (∀ l, m.layout = .asColumnMajor l ∧ l.dim.1 ≠ 0 →
      m.get1d_unchecked cfg mem k = m.get_unchecked cfg mem (k % l.dim.1) (k / l.dim.1) ∧
      m.get1d_unchecked_mut cfg k = m.get_unchecked_mut cfg (k % l.dim.1) (k / l.dim.1)) ∧
    ((∃ l, m.layout = .asRowMajor l ∧ l.dim.2 = 0) ∨ (∃ l, m.layout = .asColumnMajor l ∧ l.dim.1 = 0) →
      m.get1d_unchecked cfg mem k = .panic ∧ m.get1d_unchecked_mut cfg k = .panic) := by
  have hraw : Contiguous m.layout → m.layout.convert_1d_raw cfg k = .ok k := by
    intro h
    cases hm : m.layout <;> rw [hm] at h <;> simp only [Contiguous] at h <;> rfl
  refine ⟨fun h hk => ⟨?_, ?_⟩, fun h hk => ⟨?_, ?_⟩, fun l ⟨hl, h0⟩ => ?_, fun l ⟨hl, h0⟩ => ?_, ?_⟩
  · obtain ⟨v, h1, h2⟩ := Container.get_unchecked_ok hc.window hk
    exact ⟨v, h2, by simp [BaseMatrix.get1d_unchecked, hraw h, h1]⟩
  · simp [BaseMatrix.get1d_unchecked_mut, hraw h, Container.get_unchecked_mut_ok hk]
  · simp [BaseMatrix.get1d_unchecked, hraw h, Container.get_unchecked, Nat.not_lt.2 hk]
  · simp [BaseMatrix.get1d_unchecked_mut, hraw h, Container.get_unchecked_mut, Nat.not_lt.2 hk]
  · simp [BaseMatrix.get1d_unchecked, BaseMatrix.get1d_unchecked_mut, BaseMatrix.get_unchecked,
      BaseMatrix.get_unchecked_mut, hl, Layout.convert_1d_raw, Layout.convert_2d_raw,
      ArbitraryStrideRowMajor.convert_1d_raw, ArbitraryStrideRowMajor.convert_1d_2d, udiv_ok h0,
      umod_ok h0]
  · simp [BaseMatrix.get1d_unchecked, BaseMatrix.get1d_unchecked_mut, BaseMatrix.get_unchecked,
      BaseMatrix.get_unchecked_mut, hl, Layout.convert_1d_raw, Layout.convert_2d_raw,
      ArbitraryStrideColumnMajor.convert_1d_raw, ArbitraryStrideColumnMajor.convert_1d_2d, udiv_ok h0,
      umod_ok h0]
  · rintro (⟨l, hl, h0⟩ | ⟨l, hl, h0⟩) <;>
    simp [BaseMatrix.get1d_unchecked, BaseMatrix.get1d_unchecked_mut, hl, Layout.convert_1d_raw,
      ArbitraryStrideRowMajor.convert_1d_raw, ArbitraryStrideRowMajor.convert_1d_2d, 
      ArbitraryStrideColumnMajor.convert_1d_raw, ArbitraryStrideColumnMajor.convert_1d_2d, udiv, umod,
      h0]

/-- Cell 4 of `exC`'s container lies behind its four elements. -/
example : exC.get1d_unchecked dbg exMemP 4 = .ok 9 ∧ exC.get1d dbg exMemP 4 = .panic ∧
    exC.get1d_unchecked dbg exMemP 5 = .ub := by decide

/-! ## C62 -/

/-- The reference product of one element after `k` steps, in the order the triple loop takes. -/
def accumulate [Add α] [Mul α] (alpha : α) (A B : Arr α) (beta : α) (C : Arr α) (i j : Nat) : Nat → α
  | 0 => C i j * beta
  | k + 1 => accumulate alpha A B beta C i j k + alpha * A i k * B k j

theorem matmul_expect_any [Target] [Add α] [Mul α] (cfg : Cfg) (alpha beta : α) {a b c : BaseMatrix} {mem : Mem α}
    (ha : Sound a mem) (hb : Sound b mem) (hc : Sound c mem)
    (hta : NotTriangular a.layout) (htb : NotTriangular b.layout) (htc : NotTriangular c.layout)
    (hn : NonOverlapping c.layout) (hd : Compatible a.layout b.layout c.layout)
    (hca : Separate c a) (hcb : Separate c b) {A B C : Arr α}
    (hA : Represents a mem A) (hB : Represents b mem B) (hC : Represents c mem C) :
    ∃ mem', matmul_expect cfg alpha a b beta c mem = .ok mem' ∧ FrameOf c mem mem' ∧
      Represents c mem' (fun i j => accumulate alpha A B beta C i j a.layout.dim.2) := by
  obtain ⟨hd1, hd2, hd3⟩ := hd
  have hkeep : ∀ {x : BaseMatrix} {X : Arr α} {mem' : Mem α}, Separate c x → FrameOf c mem mem' →
      Represents x mem X → Represents x mem' X := by
    intro x X mem' hs hf hX r s hst
    rw [elem, hf.other _ fun i j hs' e => hs i j r s hs' hst e.symm]
    exact hX r s hst
  let F : Arr α := fun i j => accumulate alpha A B beta C i j a.layout.dim.2
  -- the state after `i` rows and `j` further elements
  let X : Nat → Nat → Arr α := fun i j i' j' => if i' < i ∨ (i' = i ∧ j' < j) then F i' j' else C i' j'
  obtain ⟨mem', e, hf, hr⟩ := forRange_inv (n := a.layout.dim.1)
    (body := fun m_index mem =>
      forRange b.layout.dim.2 (fun n_index mem => do
        let p ← c.get_mut cfg m_index n_index
        let old ← mem.read p
        let mem ← mem.write p (old * beta)
        forRange a.layout.dim.2 (fun k_index mem =>
          matmul_expect_add cfg alpha a b c m_index n_index k_index mem) mem) mem) (s := mem)
    (fun i mem' => FrameOf c mem mem' ∧ Represents c mem' (X i 0))
    ⟨FrameOf.refl _ _, by simpa [X] using hC⟩ (by
      intro i mem1 hi ⟨hf1, hr1⟩
      obtain ⟨mem2, e2, hf2, hr2⟩ := forRange_inv (n := b.layout.dim.2)
        (body := fun n_index mem => do
          let p ← c.get_mut cfg i n_index
          let old ← mem.read p
          let mem ← mem.write p (old * beta)
          forRange a.layout.dim.2 (fun k_index mem =>
            matmul_expect_add cfg alpha a b c i n_index k_index mem) mem) (s := mem1)
        (fun j mem' => FrameOf c mem mem' ∧ Represents c mem' (X i j)) ⟨hf1, hr1⟩ (by
          intro j mem2 hj ⟨hf2, hr2⟩
          have hs : Stored c.layout i j := (stored_of_notTri htc).2 ⟨by omega, by omega⟩
          have hs2 : Sound c mem2 := hc.mono (by rw [hf2.size])
          obtain ⟨mem3, e3, hu3⟩ := Mem.write_upd (v := X i j i j * beta) (hs2.cell_lt hs)
          have hXij : X i j i j = C i j := by simp [X]
          obtain ⟨mem4, e4, hf4, hr4⟩ := forRange_inv (n := a.layout.dim.2)
            (body := fun k_index mem => matmul_expect_add cfg alpha a b c i j k_index mem) (s := mem3)
            (fun k mem' => FrameOf c mem mem' ∧ Represents c mem' ((X i j).put i j
              (accumulate alpha A B beta C i j k)))
            ⟨hf2.trans (FrameOf.of_upd hs hu3), by
              simpa [hXij, accumulate] using hr2.put hn hs hu3⟩ (by
              intro k mem4 hk ⟨hf4, hr4⟩
              have hs4 : Sound c mem4 := hc.mono (by rw [hf4.size])
              have hsa : Stored a.layout i k := (stored_of_notTri hta).2 ⟨hi, hk⟩
              have hsb : Stored b.layout k j := (stored_of_notTri htb).2 ⟨by omega, hj⟩
              have ga := (ha.mono (by rw [hf4.size])).get cfg hsa (hkeep hca hf4 hA i k hsa)
              have gb := (hb.mono (by rw [hf4.size])).get cfg hsb (hkeep hcb hf4 hB k j hsb)
              have hold := hr4 i j hs
              simp only [Arr.put, and_self, if_true] at hold
              obtain ⟨mem5, e5, hu5⟩ := Mem.write_upd
                (v := accumulate alpha A B beta C i j (k + 1)) (hs4.cell_lt hs)
              refine ⟨mem5, ?_, hf4.trans (FrameOf.of_upd hs hu5), ?_⟩
              · simp [matmul_expect_add, hs4.get_mut cfg hs, ga, gb, Mem.read_ok_iff.2 hold, ← e5, accumulate]
              · have := hr4.put hn hs hu5
                intro r s hrs
                rw [this r s hrs]
                by_cases he : r = i ∧ s = j <;> simp [Arr.put, he])
          refine ⟨mem4, ?_, hf4, ?_⟩
          · have hold := hr2 i j hs
            simp [hs2.get_mut cfg hs, Mem.read_ok_iff.2 hold, e3, e4]
          · intro r s hrs
            rw [hr4 r s hrs]
            by_cases he : r = i ∧ s = j
            · obtain ⟨rfl, rfl⟩ := he
              simp [Arr.put, X, F]
            · simp only [Arr.put, he, if_false, X]
              have : (r < i ∨ r = i ∧ s < j + 1) ↔ (r < i ∨ r = i ∧ s < j) := by omega
              simp [this])
      refine ⟨mem2, e2, hf2, ?_⟩
      intro r s hrs
      rw [hr2 r s hrs]
      have hs2 : s < b.layout.dim.2 := by have := hrs.2.1; omega
      have : (r < i ∨ r = i ∧ s < b.layout.dim.2) ↔ (r < i + 1 ∨ r = i + 1 ∧ s < 0) := by omega
      simp only [X, this])
  refine ⟨mem', e, hf, ?_⟩
  intro r s hrs
  rw [hr r s hrs]
  have : r < a.layout.dim.1 := by have := hrs.1; omega
  simp [X, F, this]

/-- The reference product, on abstract arrays. -/
def product [Semiring α] (alpha : α) (A B : Arr α) (beta : α) (C : Arr α) (k : Nat) : Arr α :=
  fun i j => C i j * beta + ∑ l ∈ Finset.range k, alpha * A i l * B l j

theorem accumulate_eq [Semiring α] (alpha : α) (A B : Arr α) (beta : α) (C : Arr α) (i j k : Nat) :
    accumulate alpha A B beta C i j k = product alpha A B beta C k i j := by
  induction k with
  | zero => simp [accumulate, product]
  | succ k ih => simp [accumulate, ih, product, Finset.sum_range_succ, add_assoc]

theorem matmul_expect_ok [Target] [Semiring α] (cfg : Cfg) (alpha beta : α) {a b c : BaseMatrix} {mem : Mem α}
    (ha : Sound a mem) (hb : Sound b mem) (hc : Sound c mem)
    (hta : NotTriangular a.layout) (htb : NotTriangular b.layout) (htc : NotTriangular c.layout)
    (hn : NonOverlapping c.layout) (hd : Compatible a.layout b.layout c.layout)
    (hca : Separate c a) (hcb : Separate c b) {A B C : Arr α}
    (hA : Represents a mem A) (hB : Represents b mem B) (hC : Represents c mem C) :
    ∃ mem', matmul_expect cfg alpha a b beta c mem = .ok mem' ∧ FrameOf c mem mem' ∧
      Represents c mem' (product alpha A B beta C a.layout.dim.2) := by
  have := matmul_expect_any cfg alpha beta ha hb hc hta htb htc hn hd hca hcb hA hB hC
  simpa only [accumulate_eq] using this

/-- **C62.** The product that the unit tests compare `matmul` with computes
`alpha * a * b + beta * c` in exact arithmetic over any commutative semiring, for all non-triangular
layouts (also the blocks for which `matmul` is wrong, C45), and changes nothing but the elements of
`c`. -/
theorem C62_reference_product [Target] [CommSemiring α] (cfg : Cfg) (alpha beta : α) (a b c : BaseMatrix)
    (mem : Mem α) (ha : Sound a mem) (hb : Sound b mem) (hc : Sound c mem)
    (hta : NotTriangular a.layout) (htb : NotTriangular b.layout) (htc : NotTriangular c.layout)
    (hn : NonOverlapping c.layout) (hd : Compatible a.layout b.layout c.layout)
    (hca : Separate c a) (hcb : Separate c b) (A B C : Arr α)
    (hA : ∀ i l, i < a.layout.dim.1 → l < a.layout.dim.2 → a.get cfg mem i l = .ok (A i l))
    (hB : ∀ l j, l < b.layout.dim.1 → j < b.layout.dim.2 → b.get cfg mem l j = .ok (B l j))
    (hC : ∀ i j, i < c.layout.dim.1 → j < c.layout.dim.2 → c.get cfg mem i j = .ok (C i j)) :
    ∃ mem', matmul_expect cfg alpha a b beta c mem = .ok mem' ∧
      (∀ i j, i < c.layout.dim.1 → j < c.layout.dim.2 → c.get cfg mem' i j =
        .ok (alpha * (∑ l ∈ Finset.range a.layout.dim.2, A i l * B l j) + beta * C i j)) ∧
      ∀ q, (∀ i j, i < c.layout.dim.1 → j < c.layout.dim.2 → q ≠ cell c i j) →
        mem'.get? q = mem.get? q := by
  obtain ⟨mem', e, hf, hr⟩ := matmul_expect_ok cfg alpha beta ha hb hc hta htb htc hn hd hca hcb
    ((represents_get ha cfg).2 fun i j hs => hA i j hs.1 hs.2.1)
    ((represents_get hb cfg).2 fun i j hs => hB i j hs.1 hs.2.1)
    ((represents_get hc cfg).2 fun i j hs => hC i j hs.1 hs.2.1)
  refine ⟨mem', e, fun i j hi hj => ?_, fun q hq => hf.other q fun i j hs => hq i j hs.1 hs.2.1⟩
  have hs : Stored c.layout i j := (stored_of_notTri htc).2 ⟨hi, hj⟩
  rw [(hc.mono (by rw [hf.size])).get cfg hs (hr i j hs)]
  simp only [product, Finset.mul_sum, mul_assoc, mul_comm (C i j) beta]
  rw [add_comm]

/-- **C62, agreement.** The comparison the unit tests make, for all shapes, layouts, scalars and
contents: in exact arithmetic `matmul` and the reference product leave the same memory, whenever the
operands' `stride()` is right. -/
theorem C62_agreement [Target] [CommSemiring α] (cfg : Cfg) (alpha beta : α) (a b c : BaseMatrix) (mem : Mem α)
    (ha : Sound a mem) (hb : Sound b mem) (hc : Sound c mem)
    (hoa : Honest a.layout) (hob : Honest b.layout) (hoc : Honest c.layout)
    (hn : NonOverlapping c.layout) (hd : Compatible a.layout b.layout c.layout)
    (hca : Separate c a) (hcb : Separate c b) :
    ∃ mem', matmul exactKern alpha a b beta c mem = .ok mem' ∧
      matmul_expect cfg alpha a b beta c mem = .ok mem' := by
  have hrep : ∀ m : BaseMatrix, Sound m mem → ∃ A : Arr α, Represents m mem A :=
    fun m hm => @represents_some _ _ m mem hm ⟨alpha⟩
  obtain ⟨A, hA⟩ := hrep a ha
  obtain ⟨B, hB⟩ := hrep b hb
  obtain ⟨C, hC⟩ := hrep c hc
  obtain ⟨mem1, e1, hf1, hr1⟩ := matmul_honest (kern := exactKern) (alpha := alpha) (beta := beta)
    ha hb hc hoa hob hoc hn hd hca hcb hA hB hC
  obtain ⟨mem2, e2, hf2, hr2⟩ := matmul_expect_ok cfg alpha beta ha hb hc hoa.notTri hob.notTri
    hoc.notTri hn hd hca hcb hA hB hC
  refine ⟨mem1, e1, ?_⟩
  rw [e2]
  congr 1
  refine Mem.ext_get (by rw [hf1.nbufs, hf2.nbufs]) fun p => ?_
  by_cases hp : ∃ i j, Stored c.layout i j ∧ p = cell c i j
  · obtain ⟨i, j, hs, rfl⟩ := hp
    have h1 := hr1 i j hs
    have h2 := hr2 i j hs
    simp only [elem] at h1 h2
    rw [h1, h2, exactKern_eq]
    simp only [product, Finset.mul_sum, mul_assoc, mul_comm (C i j) beta]
    rw [add_comm]
  · have hne : ∀ i j, Stored c.layout i j → p ≠ cell c i j := fun i j hs e => hp ⟨i, j, hs, e⟩
    rw [hf1.other p hne, hf2.other p hne]

example : matmul_expect dbg 2 exA exB 3 exC exMemP = matmul exactKern 2 exA exB 3 exC exMemP := by
  decide
example : matmul_expect dbg 1 exA exV 0 exW exMemP = matmul exactKern 1 exA exV 0 exW exMemP := by
  decide

end Householder.Props
