import Verif.Lemmas.Construct
import Verif.Props.Access

/-!
# Properties C21–C23, C51, C52: constructors
-/

namespace Householder.Props

open Spec

variable {α : Type}

/-! ## What "a new zero matrix" means -/

/-- `m` in `mem'` is a zero matrix of shape `(rows, cols)` in storage that did not exist in
`mem`, and every matrix of `mem` reads as before. -/
def IsNewZero [Target] [Zero α] (cfg : Cfg) (m : BaseMatrix) (rows cols : Nat) (mem mem' : Mem α) : Prop :=
  m.layout.dim = (rows, cols) ∧
  (∀ r c, Stored m.layout r c → m.get cfg mem' r c = .ok 0) ∧
  (∀ k, k < count m.layout → m.get1d cfg mem' k = .ok 0) ∧
  (∀ m' r c, Sound m' mem → Stored m'.layout r c → (cell m' r c).buf ≠ m.data.buf ∧
    m'.get cfg mem' r c = m'.get cfg mem r c) ∧
  Extends mem mem' ∧ Sound m mem'

theorem isNewZero_of [Target] [Zero α] {m : BaseMatrix} {mem mem' : Mem α}
    (h : ZeroMatrix m mem mem') (cfg : Cfg) : IsNewZero cfg m m.layout.dim.1 m.layout.dim.2 mem mem' := by
  refine ⟨rfl, fun r c hs => h.sound.get cfg hs (h.zero r c hs), ?_, ?_, h.ext, h.sound⟩
  · intro k hk
    obtain ⟨r, c, hs, rfl⟩ := exists_index hk
    exact h.sound.get1d cfg hs (h.zero r c hs)
  · intro m' r c hm' hs
    refine ⟨?_, h.ext.get hm' cfg hs⟩
    obtain ⟨v, hv⟩ := hm'.elem_some hs
    have hb : (cell m' r c).buf < mem.bufs.length := Mem.buf_lt_of_get hv
    have := h.fresh
    unfold Fresh at this
    omega

/-! ## C21 -/

/-- **C21.** `zeros_from_dim(rows, cols)` with a row-major, column-major or (for square shapes)
triangular layout returns a new zero matrix of the requested shape, whenever it can be
allocated. -/
theorem C21_zeros_from_dim [Target] [Zero α] (cfg : Cfg) (rows cols : Nat) (mem : Mem α) :
    (rows * cols * cfg.item.size ≤ isizeMax →
      ∃ m mem', zeros_from_dim cfg .rowMajor rows cols mem = .ok (m, mem') ∧
        IsNewZero cfg m rows cols mem mem' ∧ m.layout = .rowMajor ⟨(rows, cols)⟩) ∧
    (rows * cols * cfg.item.size ≤ isizeMax →
      ∃ m mem', zeros_from_dim cfg .columnMajor rows cols mem = .ok (m, mem') ∧
        IsNewZero cfg m rows cols mem mem' ∧ m.layout = .columnMajor ⟨(rows, cols)⟩) ∧
    (rows = cols → rows * (rows + 1) / 2 * cfg.item.size ≤ isizeMax →
      ∃ m mem', zeros_from_dim cfg .upperTriangular rows cols mem = .ok (m, mem') ∧
        IsNewZero cfg m rows cols mem mem' ∧ m.layout = .upperTriangular ⟨rows⟩) ∧
    (rows ≠ cols → zeros_from_dim cfg .upperTriangular rows cols mem = .panic) := by
  refine ⟨fun h => ?_, fun h => ?_, ?_, ?_⟩
  · obtain ⟨h1, h2⟩ := zeros_from_dim_ok cfg (k := .rowMajor) (rows := rows) (cols := cols)
      (l := .rowMajor ⟨(rows, cols)⟩) rfl trivial h mem
    exact ⟨_, _, h1, isNewZero_of h2 cfg, rfl⟩
  · obtain ⟨h1, h2⟩ := zeros_from_dim_ok cfg (k := .columnMajor) (rows := rows) (cols := cols)
      (l := .columnMajor ⟨(rows, cols)⟩) rfl trivial h mem
    exact ⟨_, _, h1, isNewZero_of h2 cfg, rfl⟩
  · rintro rfl h
    obtain ⟨h1, h2⟩ := zeros_from_dim_ok cfg (k := .upperTriangular) (rows := rows) (cols := rows)
      (l := .upperTriangular ⟨rows⟩) (by
        simp [BaseKind.from_dimension, UpperTriangular.from_dimension, Out.assert]) trivial h mem
    exact ⟨_, _, h1, isNewZero_of h2 cfg, rfl⟩
  · intro h
    simp [zeros_from_dim, BaseKind.from_dimension, UpperTriangular.from_dimension, Out.assert, h]

example : 2 * 3 * dbg.item.size ≤ isizeMax ∧ zeros_from_dim dbg .columnMajor 2 3 exMem =
    .ok (⟨⟨2, 0, 6⟩, .columnMajor ⟨(2, 3)⟩, .dynamic, .dynamic⟩,
      ⟨exMem.bufs ++ [[0, 0, 0, 0, 0, 0]]⟩) := by decide

/-! ## C22 -/

/-- **C22.** The vector constructors: shape, length, zeros; `zeros_from_dim` is
`zeros_from_length` when the unit dimension is 1, and panics otherwise; lengths that cannot be
allocated panic. -/
theorem C22_vectors [Target] [Zero α] (cfg : Cfg) (mem : Mem α) :
    (∀ n, n * cfg.item.size ≤ isizeMax →
      (∃ m mem', RowVectorD.zeros_from_length cfg n mem = .ok (m, mem') ∧
        IsNewZero cfg m 1 n mem mem' ∧ (Mat.base m : Mat α).length = some n ∧ m.length = n) ∧
      (∃ m mem', ColumnVectorD.zeros_from_length cfg n mem = .ok (m, mem') ∧
        IsNewZero cfg m n 1 mem mem' ∧ (Mat.base m : Mat α).length = some n ∧ m.length = n)) ∧
    (∀ n, isizeMax < n * cfg.item.size → RowVectorD.zeros_from_length cfg n mem = .panic ∧
      ColumnVectorD.zeros_from_length cfg n mem = .panic) ∧
    (∀ rows cols, RowVectorD.zeros_from_dim cfg rows cols mem =
      if rows = 1 then RowVectorD.zeros_from_length cfg cols mem else .panic) ∧
    (∀ rows cols, ColumnVectorD.zeros_from_dim cfg rows cols mem =
      if cols = 1 then ColumnVectorD.zeros_from_length cfg rows mem else .panic) := by
  refine ⟨fun n h => ⟨?_, ?_⟩, fun n h => ⟨?_, ?_⟩, fun _ _ => row_zeros_from_dim_eq _ _ _ _,
    fun _ _ => col_zeros_from_dim_eq _ _ _ _⟩
  · obtain ⟨h1, h2⟩ := zeros_row_ok cfg h mem
    exact ⟨_, _, h1, isNewZero_of h2 cfg, rfl, rfl⟩
  · obtain ⟨h1, h2⟩ := zeros_col_ok cfg h mem
    exact ⟨_, _, h1, isNewZero_of h2 cfg, rfl, rfl⟩
  · simp [RowVectorD.zeros_from_length, Container.newVector, show ¬ n * cfg.item.size ≤ isizeMax by omega]
  · simp [ColumnVectorD.zeros_from_length, Container.newVector,
      show ¬ n * cfg.item.size ≤ isizeMax by omega]

example : ColumnVectorD.zeros_from_dim dbg 3 1 exMem =
      .ok (⟨⟨2, 0, 3⟩, .columnVector ⟨3⟩, .dynamic, .fixed1⟩, ⟨exMem.bufs ++ [[0, 0, 0]]⟩) ∧
    ColumnVectorD.zeros_from_dim dbg 3 2 exMem = .panic := by decide

/-! ## C23 -/

/-- **C23.** Every fixed-size constructor succeeds in every memory state, has the static shape
of its size types, and is a new zero matrix. -/
theorem C23_fixed_size [Target] [Zero α] (cfg : Cfg) (mem : Mem α) :
    (∀ rs cs k, (rs, cs, k) ∈ fixedMatrixTypes →
      ∃ m mem', fixed_zeros_from_dim cfg rs cs k mem = .ok (m, mem') ∧
        IsNewZero cfg m rs.N cs.N mem mem' ∧ m.rs = rs ∧ m.cs = cs ∧
        ∀ r c, r < rs.N → c < cs.N → m.get cfg mem' r c = .ok 0) ∧
    (∀ rs cs k n, (rs, cs, k, n) ∈ fixedVectorTypes →
      ∃ l m mem', k.from_length n = some l ∧ fixed_zeros_from_length cfg rs cs l n mem = .ok (m, mem') ∧
        IsNewZero cfg m rs.N cs.N mem mem' ∧ m.rs = rs ∧ m.cs = cs ∧
        ∀ r c, r < rs.N → c < cs.N → m.get cfg mem' r c = .ok 0) := by
  have key : ∀ (rs cs : SizeId) (l : Layout), Contiguous l → NotTriangular l →
      l.dim = (rs.N, cs.N) → count l * 4 ≤ isizeMax →
      ∃ m mem', (do
          let (data, mem') := Container.newArray mem (count l)
          let m ← from_data cfg rs cs data l
          return (m, mem')) = (Out.ok (m, mem') : Out (BaseMatrix × Mem α)) ∧
        IsNewZero cfg m rs.N cs.N mem mem' ∧ m.rs = rs ∧ m.cs = cs ∧
        ∀ r c, r < rs.N → c < cs.N → m.get cfg mem' r c = .ok 0 := by
    intro rs cs l hl hnt hdim h4
    have h2 := zero_matrix_alloc mem l hl rs cs h4
    refine ⟨⟨⟨mem.bufs.length, 0, count l⟩, l, rs, cs⟩,
      (mem.alloc (List.replicate (count l) 0)).2, ?_, ?_, rfl, rfl, ?_⟩
    · simp only [Container.newArray, Mem.alloc_fst]
      rw [from_data_small cfg _ _ (d := ⟨mem.bufs.length, 0, count l⟩) h4 le_rfl]
      rfl
    · have := isNewZero_of h2 cfg
      rw [hdim] at this
      exact this
    · intro r c hr hc
      have hs : Stored l r c := (stored_of_notTri hnt).2 (by rw [hdim]; exact ⟨hr, hc⟩)
      exact h2.sound.get cfg hs (h2.zero r c hs)
  constructor
  · intro rs cs k hmem
    have hk : k = .rowMajor ∨ k = .columnMajor := by
      simp [fixedMatrixTypes] at hmem; rcases hmem with h | h | h | h | h | h | h | h | h | h | h | h <;>
        simp [h]
    have hsmall : rs.N * cs.N * 4 ≤ isizeMax := by
      have := isizeMax_ge
      cases rs <;> cases cs <;> simp only [SizeId.N] <;> omega
    rcases hk with rfl | rfl
    · exact key rs cs (.rowMajor ⟨(rs.N, cs.N)⟩) trivial (by simp [NotTriangular]) rfl hsmall
    · exact key rs cs (.columnMajor ⟨(rs.N, cs.N)⟩) trivial (by simp [NotTriangular]) rfl hsmall
  · intro rs cs k n hmem
    have hk : (k = .rowVector ∧ rs.N = 1 ∧ cs.N = n ∧ n ≤ 3) ∨
        (k = .columnVector ∧ cs.N = 1 ∧ rs.N = n ∧ n ≤ 3) := by
      simp [fixedVectorTypes] at hmem
      rcases hmem with h | h | h | h <;> obtain ⟨rfl, rfl, rfl, rfl⟩ := h <;> simp [SizeId.N]
    rcases hk with ⟨rfl, h1, h2, h3⟩ | ⟨rfl, h1, h2, h3⟩
    · obtain ⟨m, mem', h⟩ := key rs cs (.rowVector ⟨n⟩) trivial (by simp [NotTriangular])
        (by simp [Layout.dim, h1, h2]) (by have := isizeMax_ge; simp only [count]; omega)
      exact ⟨_, m, mem', rfl, h⟩
    · obtain ⟨m, mem', h⟩ := key rs cs (.columnVector ⟨n⟩) trivial (by simp [NotTriangular])
        (by simp [Layout.dim, h1, h2]) (by have := isizeMax_ge; simp only [count]; omega)
      exact ⟨_, m, mem', rfl, h⟩

example : (SizeId.fixed3, SizeId.fixed2, BaseKind.columnMajor) ∈ fixedMatrixTypes ∧
    fixed_zeros_from_dim dbg .fixed3 .fixed2 .columnMajor exMem =
      .ok (⟨⟨2, 0, 6⟩, .columnMajor ⟨(3, 2)⟩, .fixed3, .fixed2⟩,
        ⟨exMem.bufs ++ [[0, 0, 0, 0, 0, 0]]⟩) := by decide

/-! ## C51 -/

/-- The full statement of C51. -/
def C51_statement [Target] : Prop :=
  ∀ (cfg : Cfg) (rows cols : Nat) (mem : Mem Int), rows < W → cols < W → W ≤ rows * cols →
    zeros_from_dim cfg .rowMajor rows cols mem = .panic

/-- **C51 is false of the code** without overflow checks: `zeros_from_dim(W/2, 2)` computes
an element count of 0, succeeds, and the safe `get(0, 0)` of the result is out of bounds. -/
theorem C51_false_witness [Target] : ∃ m mem',
    zeros_from_dim rel .rowMajor (W / 2) 2 exMem = .ok (m, mem') ∧
      m.get rel mem' 0 0 = .ub :=
  ⟨⟨⟨2, 0, 0⟩, .rowMajor ⟨(W / 2, 2)⟩, .dynamic, .dynamic⟩, ⟨exMem.bufs ++ [[]]⟩, by decide_width,
    by decide_width⟩

theorem C51_false [Target] : ¬ C51_statement := by
  intro h
  have h1 := h rel (W / 2) 2 exMem (by decide_width) (by decide_width) (by decide_width)
  obtain ⟨m, mem', h2, _⟩ := C51_false_witness
  rw [h1] at h2
  simp at h2

/-- **C51, partial.** With overflow checks (or when the element count is representable), every
shape that needs more than `isize::MAX` bytes is rejected by a panic; together with
`C21_zeros_from_dim` this decides the call for every shape. Missing: builds without overflow
checks whose element count wraps. -/
theorem C51_partial [Target] [Zero α] (cfg : Cfg) (k : BaseKind) (rows cols : Nat) (mem : Mem α) (l : Layout)
    (hk : k.from_dimension (rows, cols) = .ok l)
    (hmode : cfg.overflowChecks = true ∨ (count l < W ∧ TriFits l))
    (hbig : isizeMax < count l * cfg.item.size) :
    zeros_from_dim cfg k rows cols mem = .panic := by
  unfold zeros_from_dim
  simp only [hk, Out.bind_ok]
  cases hn : l.number_of_elements cfg with
  | ub => exact absurd hn (number_of_elements_ne_ub cfg l)
  | panic => rfl
  | ok n =>
    have : n = count l := by
      rcases hmode with hc | ⟨h1, h2⟩
      · exact (number_of_elements_exact hc hn).1
      · rw [number_of_elements_ok cfg h1 h2] at hn; simpa using hn.symm
    subst this
    simp [Container.newVector, show ¬ count l * cfg.item.size ≤ isizeMax by omega]

/-- The bytes of one scalar: 4 and 8 for `f32` and `f64`, and two of these for complex numbers
(src/types.rs:10-15). -/
def scalarBytes : ItemTy → Nat
  | .f32 => 4
  | .f64 => 8
  | .c32 => 4 + 4
  | .c64 => 8 + 8

/-- **C51, with overflow checks, exactly**: a matrix of zeros is made if and only if its elements
take at most `isize::MAX` bytes, counted for each scalar type. -/
theorem C51_bytes [Target] [Zero α] (item : ItemTy) (rows cols : Nat) (mem : Mem α) :
    (∃ x, zeros_from_dim ⟨true, item⟩ .rowMajor rows cols mem = .ok x) ↔
      rows * cols * scalarBytes item ≤ isizeMax := by
  have hb : scalarBytes item = item.size := by cases item <;> rfl
  rw [hb]
  constructor
  · rintro ⟨x, hx⟩
    by_contra hn
    have := C51_partial ⟨true, item⟩ .rowMajor rows cols mem (.rowMajor ⟨(rows, cols)⟩) rfl (.inl rfl)
      (by simpa [count] using hn)
    rw [this] at hx
    cases hx
  · intro h
    obtain ⟨m, mem', e, -⟩ := (C21_zeros_from_dim ⟨true, item⟩ rows cols mem).1 h
    exact ⟨_, e⟩

/-- On a 16-bit target 50 × 50 complex numbers of double precision are too many, 45 × 45 are not. -/
example : let _ : Target := ⟨.bits16⟩
    ¬ 50 * 50 * scalarBytes .c64 ≤ isizeMax ∧ 45 * 45 * scalarBytes .c64 ≤ isizeMax := by
  refine ⟨?_, ?_⟩ <;> decide

example : zeros_from_dim dbg .rowMajor (2 ^ 32) (2 ^ 32) exMem = .panic ∧
    isizeMax < count (.rowMajor ⟨(2 ^ 32, 2 ^ 32)⟩) * dbg.item.size := by decide

/-! ## C52 -/

/-- **C52.** `mat!` and `vector!` build new zero matrices of the requested shape and layout; the
layout argument defaults to row-major resp. column vector. -/
theorem C52_macros [Target] [Zero α] (cfg : Cfg) (mem : Mem α) :
    (∀ dim : Nat × Nat, dim.1 * dim.2 * cfg.item.size ≤ isizeMax →
      (∃ m mem', mat_macro cfg dim mem = .ok (m, mem') ∧
        mat_macro_layout cfg dim .RowMajor mem = .ok (m, mem') ∧
        IsNewZero cfg m dim.1 dim.2 mem mem' ∧ m.layout = .rowMajor ⟨dim⟩) ∧
      (∃ m mem', mat_macro_layout cfg dim .ColumnMajor mem = .ok (m, mem') ∧
        IsNewZero cfg m dim.1 dim.2 mem mem' ∧ m.layout = .columnMajor ⟨dim⟩)) ∧
    (∀ n, n * cfg.item.size ≤ isizeMax →
      (∃ m mem', vector_macro cfg n mem = .ok (m, mem') ∧
        vector_macro_layout cfg n .ColumnVector mem = .ok (m, mem') ∧
        IsNewZero cfg m n 1 mem mem' ∧ m.layout = .columnVector ⟨n⟩) ∧
      (∃ m mem', vector_macro_layout cfg n .RowVector mem = .ok (m, mem') ∧
        IsNewZero cfg m 1 n mem mem' ∧ m.layout = .rowVector ⟨n⟩)) := by
  refine ⟨fun dim h => ⟨?_, ?_⟩, fun n h => ⟨?_, ?_⟩⟩
  · obtain ⟨m, mem', h1, h2, h3⟩ := (C21_zeros_from_dim cfg dim.1 dim.2 mem).1 h
    exact ⟨m, mem', h1, h1, h2, h3⟩
  · obtain ⟨m, mem', h1, h2, h3⟩ := (C21_zeros_from_dim cfg dim.1 dim.2 mem).2.1 h
    exact ⟨m, mem', h1, h2, h3⟩
  · obtain ⟨h1, h2⟩ := zeros_col_ok cfg h mem
    exact ⟨_, _, h1, h1, isNewZero_of h2 cfg, rfl⟩
  · obtain ⟨h1, h2⟩ := zeros_row_ok cfg h mem
    exact ⟨_, _, h1, isNewZero_of h2 cfg, rfl⟩

/-- The outcome of a random constructor: a new matrix of the given layout, holding the samples
in 1D order; existing memory is unchanged. -/
def IsNewRandom [Target] {ρ : Type} (cfg : Cfg) (m : BaseMatrix) (l : Layout) (d : Sampler ρ α) (rng : ρ)
    (mem mem' : Mem α) : Prop :=
  m.layout = l ∧ (∀ k, k < count l → m.get1d cfg mem' k = .ok (draw d rng k)) ∧
  Extends mem mem' ∧ Fresh m mem ∧ Sound m mem'

theorem random_of_zero [Target] {ρ : Type} [Zero α] (cfg : Cfg) (m : BaseMatrix) (mem mem1 : Mem α)
    (hz : ZeroMatrix m mem mem1) (hn : NonOverlapping m.layout) (d : Sampler ρ α) (rng : ρ) :
    ∃ mem2, m.fill_from_rand cfg (random_scalar_real d) rng mem1 =
        .ok (genAfter d rng (count m.layout), mem2) ∧
      IsNewRandom cfg m m.layout d rng mem mem2 := by
  obtain ⟨mem2, st, h1, -, h3, h4⟩ := hz.sound.for_each hn cfg
    (fun rng _ => let r := random_scalar_real d rng; (r.2, r.1)) rng
  obtain ⟨mem2', g1, g2, -⟩ := C25_fill_real cfg m mem1 hz.sound hn d rng
  have e : mem2' = mem2 := by
    unfold BaseMatrix.fill_from_rand at g1
    rw [h1] at g1
    simp at g1
    exact g1.2.symm
  subst e
  rw [order_length] at g1
  have hS : Sound m mem2' := hz.sound.mono (by rw [h4.size])
  refine ⟨mem2', g1, rfl, ?_, ⟨?_, ?_⟩, hz.fresh, hS⟩
  · intro k hk
    obtain ⟨r, c, hs, rfl⟩ := exists_index hk
    obtain ⟨v, hv⟩ := hS.elem_some hs
    rw [hS.get1d cfg hs hv, ← hS.get cfg hs hv]
    exact g2 _ r c (order_index hs)
  · rw [h4.nbufs]; exact hz.ext.1
  · intro q hq
    rw [h4.other q, hz.ext.2 q hq]
    intro r c _ e
    have := hz.fresh
    unfold Fresh at this
    rw [e] at hq
    simp only [cell] at hq
    omega

/-- **C52**, random forms: `rand_mat!` and `rand_vector!` have the same shapes and hold the
samples of the generator in 1D order. -/
theorem C52_random_macros [Target] {ρ : Type} [Zero α] (cfg : Cfg) (mem : Mem α) (d : Sampler ρ α) (rng : ρ) :
    (∀ dim : Nat × Nat, dim.1 * dim.2 * cfg.item.size ≤ isizeMax →
      (∃ m mem', rand_mat_macro cfg dim (random_scalar_real d) rng mem =
          .ok (m, genAfter d rng (dim.1 * dim.2), mem') ∧
        rand_mat_macro_layout cfg dim .RowMajor (random_scalar_real d) rng mem =
          .ok (m, genAfter d rng (dim.1 * dim.2), mem') ∧
        IsNewRandom cfg m (.rowMajor ⟨dim⟩) d rng mem mem') ∧
      (∃ m mem', rand_mat_macro_layout cfg dim .ColumnMajor (random_scalar_real d) rng mem =
          .ok (m, genAfter d rng (dim.1 * dim.2), mem') ∧
        IsNewRandom cfg m (.columnMajor ⟨dim⟩) d rng mem mem')) ∧
    (∀ n, n * cfg.item.size ≤ isizeMax →
      (∃ m mem', rand_vector_macro cfg n (random_scalar_real d) rng mem =
          .ok (m, genAfter d rng n, mem') ∧
        rand_vector_macro_layout cfg n .ColumnVector (random_scalar_real d) rng mem =
          .ok (m, genAfter d rng n, mem') ∧
        IsNewRandom cfg m (.columnVector ⟨n⟩) d rng mem mem') ∧
      (∃ m mem', rand_vector_macro_layout cfg n .RowVector (random_scalar_real d) rng mem =
          .ok (m, genAfter d rng n, mem') ∧
        IsNewRandom cfg m (.rowVector ⟨n⟩) d rng mem mem')) := by
  refine ⟨fun dim h => ⟨?_, ?_⟩, fun n h => ⟨?_, ?_⟩⟩
  · obtain ⟨h1, h2⟩ := zeros_from_dim_ok cfg (k := .rowMajor) (rows := dim.1) (cols := dim.2)
      (l := .rowMajor ⟨dim⟩) rfl trivial h mem
    obtain ⟨mem2, h3, h4⟩ := random_of_zero cfg _ mem _ h2 trivial d rng
    have : rand_mat_macro_layout cfg dim .RowMajor (random_scalar_real d) rng mem =
        .ok (⟨⟨mem.bufs.length, 0, dim.1 * dim.2⟩, .rowMajor ⟨dim⟩, .dynamic, .dynamic⟩,
          genAfter d rng (dim.1 * dim.2), mem2) := by
      simp only [rand_mat_macro_layout, mat_macro_layout, h1, Out.bind_ok]
      rw [h3]; rfl
    exact ⟨_, mem2, this, this, h4⟩
  · obtain ⟨h1, h2⟩ := zeros_from_dim_ok cfg (k := .columnMajor) (rows := dim.1) (cols := dim.2)
      (l := .columnMajor ⟨dim⟩) rfl trivial h mem
    obtain ⟨mem2, h3, h4⟩ := random_of_zero cfg _ mem _ h2 trivial d rng
    refine ⟨_, mem2, ?_, h4⟩
    simp only [rand_mat_macro_layout, mat_macro_layout, h1, Out.bind_ok]
    rw [h3]; rfl
  · obtain ⟨h1, h2⟩ := zeros_col_ok cfg h mem
    obtain ⟨mem2, h3, h4⟩ := random_of_zero cfg _ mem _ h2 trivial d rng
    have : rand_vector_macro_layout cfg n .ColumnVector (random_scalar_real d) rng mem =
        .ok (⟨⟨mem.bufs.length, 0, n⟩, .columnVector ⟨n⟩, .dynamic, .fixed1⟩,
          genAfter d rng n, mem2) := by
      simp only [rand_vector_macro_layout, vector_macro_layout, h1, Out.bind_ok]
      rw [h3]; rfl
    exact ⟨_, mem2, this, this, h4⟩
  · obtain ⟨h1, h2⟩ := zeros_row_ok cfg h mem
    obtain ⟨mem2, h3, h4⟩ := random_of_zero cfg _ mem _ h2 trivial d rng
    refine ⟨_, mem2, ?_, h4⟩
    simp only [rand_vector_macro_layout, vector_macro_layout, h1, Out.bind_ok]
    rw [h3]; rfl

example : rand_mat_macro dbg (2, 2) (random_scalar_real ⟨fun n : Int => (n * n, n + 1)⟩) 1 exMem =
    .ok (⟨⟨2, 0, 4⟩, .rowMajor ⟨(2, 2)⟩, .dynamic, .dynamic⟩, 5, ⟨exMem.bufs ++ [[1, 4, 9, 16]]⟩) := by
  decide

end Householder.Props
