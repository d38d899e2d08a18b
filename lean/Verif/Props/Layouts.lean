import Verif.Lemmas.Tri

/-!
# Properties C01–C09, C11–C13, C53: layouts

The specification (`Spec.count`, `Spec.order`, `Spec.Stored`, `Spec.index`, `Spec.raw`) is in
`Verif/Spec/Layout.lean`.
-/

namespace Householder.Props

open Spec

/-- Debug build on `f64`. -/
abbrev dbg : Cfg := ⟨true, .f64⟩
/-- Release build on `f64`. -/
abbrev rel : Cfg := ⟨false, .f64⟩

/-! ## C01 -/

/-- **C01.** On every row- or column-major layout, contiguous or strided, 1D and 2D indices are
inverse bijections. -/
theorem C01_bijection [Target] (cfg : Cfg) (l : Layout) (hm : IsMajor l) (hfit : l.dim.1 * l.dim.2 < W) :
    l.number_of_elements cfg = .ok (l.dim.1 * l.dim.2) ∧
    (∀ i, i < l.dim.1 * l.dim.2 → ∃ r c, l.convert_1d_2d cfg i = .ok (r, c) ∧
      r < l.dim.1 ∧ c < l.dim.2 ∧ l.convert_2d_1d cfg r c = .ok i) ∧
    (∀ r c, r < l.dim.1 → c < l.dim.2 → ∃ i, l.convert_2d_1d cfg r c = .ok i ∧
      i < l.dim.1 * l.dim.2 ∧ l.convert_1d_2d cfg i = .ok (r, c)) := by
  rw [← hm.count] at hfit ⊢
  refine ⟨number_of_elements_ok cfg hfit hm.triFits, ?_, ?_⟩
  · intro i hi
    obtain ⟨r, c, hs, rfl⟩ := exists_index hi
    exact ⟨r, c, convert_1d_2d_major cfg hm hs, hs.1, hs.2.1,
      convert_2d_1d_ok cfg hs hfit hm.triFits⟩
  · intro r c hr hc
    have hs : Stored l r c := (stored_of_notTri hm.notTri).2 ⟨hr, hc⟩
    exact ⟨_, convert_2d_1d_ok cfg hs hfit hm.triFits, index_lt hs, convert_1d_2d_major cfg hm hs⟩

/-- A 3 × 4 block of a bigger row-major matrix meets the hypotheses of C01. -/
example : IsMajor (.asRowMajor ⟨(3, 4), (10, 1)⟩) ∧
    (Layout.asRowMajor ⟨(3, 4), (10, 1)⟩).dim.1 * (Layout.asRowMajor ⟨(3, 4), (10, 1)⟩).dim.2 < W ∧
    (Layout.asRowMajor ⟨(3, 4), (10, 1)⟩).convert_1d_2d dbg 7 = .ok (1, 3) :=
  ⟨trivial, by decide, by decide⟩

/-! ## C02 -/

theorem mapM_ok {α β : Type} {f : α → Out β} {xs : List α} {ys : List β}
    (hlen : xs.length = ys.length)
    (h : ∀ (i : Nat) (a : α) (b : β), xs[i]? = some a → ys[i]? = some b → f a = .ok b) :
    xs.mapM f = .ok ys := by
  induction xs generalizing ys with
  | nil => cases ys with
    | nil => rfl
    | cons y ys => simp at hlen
  | cons x xs ih => cases ys with
    | nil => simp at hlen
    | cons y ys =>
      have h0 := h 0 x y rfl rfl
      have ht := ih (ys := ys) (by simpa using hlen) (fun i a b ha hb => h (i + 1) a b ha hb)
      simp [List.mapM_cons, h0, ht]

/-- **C02.** Converting the indices `0..number_of_elements` one after the other lists the
positions in the documented order, every stored position exactly once: row by row, column by
column, or the upper triangle from its last row upwards. (Upper triangular: up to the size at
which the `f64` computation of the row breaks down, which is beyond `2^53`.) -/
theorem C02_order [Target] (cfg : Cfg) (l : Layout)
    (hl : IsMajor l ∨ ∃ u, l = .upperTriangular u ∧ count l ≤ 2 ^ 53 + 2 ^ 26 - 1)
    (hfit : count l < W) (htri : TriFits l) :
    ∃ n, l.number_of_elements cfg = .ok n ∧
      (List.range n).mapM (l.convert_1d_2d cfg) = .ok (order l) ∧
      (order l).Nodup ∧ ∀ r c, (r, c) ∈ order l ↔ Stored l r c := by
  refine ⟨count l, number_of_elements_ok cfg hfit htri, ?_, order_nodup l, fun r c => mem_order⟩
  apply mapM_ok (by simp [order_length])
  intro i a b ha hb
  have : a = i := by
    rw [List.getElem?_range (by
      obtain ⟨h', _⟩ := List.getElem?_eq_some_iff.1 hb; rwa [order_length] at h')] at ha
    simpa using ha.symm
  subst this
  obtain ⟨r, c⟩ := b
  obtain ⟨hs, rfl⟩ := order_get_iff.1 hb
  rcases hl with hm | ⟨u, rfl, hc⟩
  · exact convert_1d_2d_major cfg hm hs
  · exact tri_convert_1d_2d_ok cfg hs htri (lt_of_lt_of_le (index_lt hs) hc)

/-- The orders of C02, spelled out. -/
example : order (.asRowMajor ⟨(2, 3), (9, 2)⟩) =
    [(0, 0), (0, 1), (0, 2), (1, 0), (1, 1), (1, 2)] := by decide
example : order (.columnMajor ⟨(2, 3)⟩) =
    [(0, 0), (1, 0), (0, 1), (1, 1), (0, 2), (1, 2)] := by decide
example : order (.upperTriangular ⟨3⟩) =
    [(2, 2), (1, 1), (1, 2), (0, 0), (0, 1), (0, 2)] := by decide
/-- A 3 × 3 triangle meets the hypotheses of C02. -/
example : count (.upperTriangular ⟨3⟩) ≤ 2 ^ 53 + 2 ^ 26 - 1 ∧ count (.upperTriangular ⟨3⟩) < W := by
  decide

/-! ## C03 -/

/-- The full statement of C03. -/
def C03_statement [Target] : Prop :=
  ∀ (cfg : Cfg) (l : Layout), IsVector l → ∀ i, i < count l →
    ∃ r c, l.convert_1d_2d cfg i = .ok (r, c) ∧ r < l.dim.1 ∧ c < l.dim.2 ∧
      l.convert_2d_1d cfg r c = .ok i

/-- **C03 is false of the code**, for every vector layout and every index: the unit coordinate
is reported as 1 (counting from 1) instead of 0, so the position is outside the vector. -/
theorem C03_false_everywhere [Target] (cfg : Cfg) (l : Layout) (hv : IsVector l) (i : Nat) :
    ∃ r c, l.convert_1d_2d cfg i = .ok (r, c) ∧ ¬ (r < l.dim.1 ∧ c < l.dim.2) := by
  cases l <;> simp only [IsVector] at hv
  case rowVector l => exact ⟨1, i, rfl, by simp [Layout.dim]⟩
  case columnVector l => exact ⟨i, 1, rfl, by simp [Layout.dim]⟩
  case asRowVector l => exact ⟨1, i, rfl, by simp [Layout.dim]⟩
  case asColumnVector l => exact ⟨i, 1, rfl, by simp [Layout.dim]⟩

theorem C03_false [Target] : ¬ C03_statement := by
  intro h
  obtain ⟨r, c, h1, h2, h3, _⟩ := h dbg (.rowVector ⟨5⟩) trivial 3 (by decide_width)
  obtain ⟨r', c', h1', h2'⟩ := C03_false_everywhere dbg (.rowVector ⟨5⟩) trivial 3
  rw [h1] at h1'
  simp at h1'
  obtain ⟨rfl, rfl⟩ := h1'
  exact h2' ⟨h2, h3⟩

/-- **C03, partial.** What does hold: the free coordinate is the index, and the conversion is
undone by `convert_2d_1d`. Missing: the unit coordinate (see `C03_false_everywhere`). -/
theorem C03_partial [Target] (cfg : Cfg) (l : Layout) (hv : IsVector l) (i : Nat) (hi : i < count l) :
    ∃ r c, l.convert_1d_2d cfg i = .ok (r, c) ∧ l.convert_2d_1d cfg r c = .ok i ∧
      ((r = i ∧ i < l.dim.1 ∧ l.dim.2 = 1) ∨ (c = i ∧ i < l.dim.2 ∧ l.dim.1 = 1)) := by
  cases l <;> simp only [IsVector] at hv
  case rowVector l => exact ⟨1, i, rfl, rfl, .inr ⟨rfl, hi, rfl⟩⟩
  case columnVector l => exact ⟨i, 1, rfl, rfl, .inl ⟨rfl, hi, rfl⟩⟩
  case asRowVector l => exact ⟨1, i, rfl, rfl, .inr ⟨rfl, hi, rfl⟩⟩
  case asColumnVector l => exact ⟨i, 1, rfl, rfl, .inl ⟨rfl, hi, rfl⟩⟩

example : IsVector (.asColumnVector ⟨5, 3⟩) ∧ 4 < count (.asColumnVector ⟨5, 3⟩) := by
  simp [IsVector, count]

/-! ## C04 -/

/-- **C04** (layout part; `C04_access` lifts it to matrices). For all nine layouts, 2D access
to a stored position and 1D access to its logical index reach the same cell (or fail in the
same way), and converting a 1D index to a position and addressing that position reaches the
same cell as addressing the index. -/
theorem C04_same_cell [Target] (cfg : Cfg) (l : Layout) (hfit : count l < W) (htri : TriFits l) :
    (∀ r c, Stored l r c → ∃ i, l.convert_2d_1d cfg r c = .ok i ∧ i < count l ∧
      l.convert_1d_raw cfg i = l.convert_2d_raw cfg r c) ∧
    (∀ i, i < count l → (∀ u, l = .upperTriangular u → i < 2 ^ 53 + 2 ^ 26 - 1) →
      ∃ r c, l.convert_1d_2d cfg i = .ok (r, c) ∧
        l.convert_2d_raw cfg r c = l.convert_1d_raw cfg i) := by
  constructor
  · intro r c hs
    exact ⟨_, convert_2d_1d_ok cfg hs hfit htri, index_lt hs, convert_1d_raw_eq cfg hs hfit htri⟩
  · intro i hi hu
    by_cases hm : IsMajor l
    · obtain ⟨r, c, hs, rfl⟩ := exists_index hi
      exact ⟨r, c, convert_1d_2d_major cfg hm hs, (convert_1d_raw_eq cfg hs hfit htri).symm⟩
    · cases l <;> simp only [IsMajor, not_true_eq_false] at hm
      case rowVector l => exact ⟨1, i, rfl, rfl⟩
      case columnVector l => exact ⟨i, 1, rfl, rfl⟩
      case asRowVector l => exact ⟨1, i, rfl, rfl⟩
      case asColumnVector l => exact ⟨i, 1, rfl, rfl⟩
      case upperTriangular u =>
        obtain ⟨r, c, hs, rfl⟩ := exists_index hi
        exact ⟨r, c, tri_convert_1d_2d_ok cfg hs htri (hu u rfl),
          (convert_1d_raw_eq cfg hs hfit htri).symm⟩

/-- A strided layout meets the hypotheses of C04, and the common cell is 12. -/
example : count (.asRowMajor ⟨(3, 4), (10, 2)⟩) < W ∧ TriFits (.asRowMajor ⟨(3, 4), (10, 2)⟩) ∧
    (Layout.asRowMajor ⟨(3, 4), (10, 2)⟩).convert_1d_raw dbg 5 = .ok 12 ∧
    (Layout.asRowMajor ⟨(3, 4), (10, 2)⟩).convert_2d_raw dbg 1 1 = .ok 12 := by
  refine ⟨by decide, trivial, by decide, by decide⟩

/-! ## C05 -/

/-- **C05.** Different stored positions have different raw indices: contiguous layouts always,
arbitrary-stride layouts when rows (columns, elements) do not overlap. -/
theorem C05_no_sharing [Target] (cfg : Cfg) (l : Layout) (hn : NonOverlapping l) (r c r' c' k : Nat)
    (hs : Stored l r c) (hs' : Stored l r' c')
    (hfit : cfg.overflowChecks = true ∨ (raw l r c < W ∧ raw l r' c' < W ∧ TriFits l))
    (h : l.convert_2d_raw cfg r c = .ok k) (h' : l.convert_2d_raw cfg r' c' = .ok k) :
    r = r' ∧ c = c' := by
  apply raw_inj hn hs hs'
  rcases hfit with hc | ⟨h1, h2, ht⟩
  · rw [← (convert_2d_raw_exact hc h).1, ← (convert_2d_raw_exact hc h').1]
  · rw [convert_2d_raw_ok cfg hs h1 ht] at h
    rw [convert_2d_raw_ok cfg hs' h2 ht] at h'
    simp at h h'
    omega

/-- The condition on strides is needed: with overlapping rows two positions share a cell. -/
example : (Layout.asRowMajor ⟨(2, 2), (1, 1)⟩).convert_2d_raw dbg 0 1 =
    (Layout.asRowMajor ⟨(2, 2), (1, 1)⟩).convert_2d_raw dbg 1 0 := by decide
example : NonOverlapping (.asRowMajor ⟨(2, 3), (7, 2)⟩) ∧ Stored (.asRowMajor ⟨(2, 3), (7, 2)⟩) 1 2 ∧
    (Layout.asRowMajor ⟨(2, 3), (7, 2)⟩).convert_2d_raw dbg 1 2 = .ok 11 := by
  refine ⟨by simp [NonOverlapping], ⟨by decide, by decide, by simp⟩, by decide⟩

/-! ## C06 -/

/-- **C06.** The raw indices of the stored positions of a contiguous layout are exactly
`0..number_of_elements`. -/
theorem C06_packed [Target] (cfg : Cfg) (l : Layout) (hl : Contiguous l) (hfit : count l < W)
    (htri : TriFits l) :
    l.number_of_elements cfg = .ok (count l) ∧
    ∀ k, (∃ r c, Stored l r c ∧ l.convert_2d_raw cfg r c = .ok k) ↔ k < count l := by
  refine ⟨number_of_elements_ok cfg hfit htri, fun k => ⟨?_, ?_⟩⟩
  · rintro ⟨r, c, hs, h⟩
    have hi := index_lt hs
    rw [convert_2d_raw_ok cfg hs (by rw [raw_eq_index hl]; omega) htri, raw_eq_index hl] at h
    simp at h
    omega
  · intro hk
    obtain ⟨r, c, hs, rfl⟩ := exists_index hk
    refine ⟨r, c, hs, ?_⟩
    rw [convert_2d_raw_ok cfg hs (by rw [raw_eq_index hl]; omega) htri, raw_eq_index hl]

example : Contiguous (.upperTriangular ⟨4⟩) ∧ count (.upperTriangular ⟨4⟩) = 10 ∧
    TriFits (.upperTriangular ⟨4⟩) := by
  refine ⟨trivial, by decide, by simp [TriFits, W_64]⟩

/-! ## C07 -/

/-- What a reported stride `s` promises about the cells of neighbouring positions. -/
def StrideContract [Target] (cfg : Cfg) (l : Layout) : Prop :=
  ∀ s, l.stride = .ok s → ∀ r c, r < l.dim.1 → c < l.dim.2 →
    ∃ k, l.convert_2d_raw cfg r c = .ok k ∧
      (r + 1 < l.dim.1 → l.convert_2d_raw cfg (r + 1) c = .ok (k + s.1)) ∧
      (c + 1 < l.dim.2 → l.convert_2d_raw cfg r (c + 1) = .ok (k + s.2))

/-- The full statement of C07: every layout with a stride, as long as its cells fit in
`usize`. -/
def C07_statement [Target] : Prop :=
  ∀ (cfg : Cfg) (l : Layout), (∀ r c, Stored l r c → raw l r c < W) → StrideContract cfg l

/-- **C07 is false of the code**: a 2 × 2 view with row stride 3 reports stride (2, 1). -/
theorem C07_false [Target] : ¬ C07_statement := by
  intro h
  have hb : ∀ r c, Stored (.asRowMajor ⟨(2, 2), (3, 1)⟩) r c →
      raw (.asRowMajor ⟨(2, 2), (3, 1)⟩) r c < W := by
    rintro r c ⟨hr, hc, _⟩
    simp only [Layout.dim] at hr hc
    have := W_ge
    simp only [raw]; omega
  obtain ⟨k, h1, h2, _⟩ := h dbg (.asRowMajor ⟨(2, 2), (3, 1)⟩) hb (2, 1) rfl 0 0 (by decide_width)
    (by decide_width)
  have e1 : (Layout.asRowMajor ⟨(2, 2), (3, 1)⟩).convert_2d_raw dbg 0 0 = .ok 0 := by decide_width
  have e2 : (Layout.asRowMajor ⟨(2, 2), (3, 1)⟩).convert_2d_raw dbg (0 + 1) 0 = .ok 3 := by decide_width
  rw [e1] at h1
  simp at h1
  subst h1
  have := h2 (by decide_width)
  rw [e2] at this
  simp at this

/-- The stride reported by a strided layout describes its memory. -/
def TrueStride : Layout → Prop
  | .asRowMajor l => (1 < l.dim.1 → 0 < l.dim.2 → l.stride.1 = l.dim.2) ∧
      (1 < l.dim.2 → 0 < l.dim.1 → l.stride.2 = 1)
  | .asColumnMajor l => (1 < l.dim.1 → 0 < l.dim.2 → l.stride.1 = 1) ∧
      (1 < l.dim.2 → 0 < l.dim.1 → l.stride.2 = l.dim.1)
  | _ => True

/-- **C07, partial.** `stride()` is right for all layouts except the two arbitrary-stride
matrix layouts, and for those it is right exactly when they happen to have the strides of a
contiguous matrix of their own shape. Missing: all other blocks. -/
theorem C07_partial [Target] (cfg : Cfg) (l : Layout) (hfit : ∀ r c, Stored l r c → raw l r c < W)
    (htri : TriFits l) : StrideContract cfg l ↔ TrueStride l := by
  by_cases hu : NotTriangular l
  swap
  · simp only [NotTriangular, not_forall, not_not] at hu
    obtain ⟨u, rfl⟩ := hu
    simp [StrideContract, Layout.stride, UpperTriangular.stride, TrueStride]
  have hok : ∀ r c, r < l.dim.1 → c < l.dim.2 → l.convert_2d_raw cfg r c = .ok (raw l r c) := by
    intro r c hr hc
    have hs := (stored_of_notTri hu).2 ⟨hr, hc⟩
    exact convert_2d_raw_ok cfg hs (hfit r c hs) htri
  have key : StrideContract cfg l ↔ ∀ s, l.stride = .ok s → ∀ r c, r < l.dim.1 → c < l.dim.2 →
      (r + 1 < l.dim.1 → raw l (r + 1) c = raw l r c + s.1) ∧
      (c + 1 < l.dim.2 → raw l r (c + 1) = raw l r c + s.2) := by
    unfold StrideContract
    constructor
    · intro h s hs r c hr hc
      obtain ⟨k, h1, h2, h3⟩ := h s hs r c hr hc
      rw [hok r c hr hc] at h1
      simp at h1
      subst h1
      constructor
      · intro hr1
        have := h2 hr1
        rw [hok _ _ hr1 hc] at this
        simpa using this
      · intro hc1
        have := h3 hc1
        rw [hok _ _ hr hc1] at this
        simpa using this
    · intro h s hs r c hr hc
      obtain ⟨h2, h3⟩ := h s hs r c hr hc
      refine ⟨_, hok r c hr hc, ?_, ?_⟩
      · intro hr1; rw [hok _ _ hr1 hc, h2 hr1]
      · intro hc1; rw [hok _ _ hr hc1, h3 hc1]
  rw [key]
  cases l
  case rowMajor l =>
    simp only [Layout.stride, RowMajor.stride, TrueStride, Out.ok.injEq, iff_true, raw, Layout.dim]
    rintro s rfl r c hr hc
    exact ⟨fun _ => by ring, fun _ => by ring⟩
  case columnMajor l =>
    simp only [Layout.stride, ColumnMajor.stride, TrueStride, Out.ok.injEq, iff_true, raw,
      Layout.dim]
    rintro s rfl r c hr hc
    exact ⟨fun _ => by ring, fun _ => by ring⟩
  case rowVector l =>
    simp only [Layout.stride, RowVector.stride, TrueStride, Out.ok.injEq, iff_true, raw, Layout.dim]
    rintro s rfl r c hr hc
    exact ⟨fun _ => by omega, fun _ => by ring⟩
  case columnVector l =>
    simp only [Layout.stride, ColumnVector.stride, TrueStride, Out.ok.injEq, iff_true, raw,
      Layout.dim]
    rintro s rfl r c hr hc
    exact ⟨fun _ => by ring, fun _ => by omega⟩
  case asRowVector l =>
    simp only [Layout.stride, ArbitraryStrideRowVector.stride_fn, TrueStride, Out.ok.injEq,
      iff_true, raw, Layout.dim]
    rintro s rfl r c hr hc
    exact ⟨fun _ => by omega, fun _ => by ring⟩
  case asColumnVector l =>
    simp only [Layout.stride, ArbitraryStrideColumnVector.stride_fn, TrueStride, Out.ok.injEq,
      iff_true, raw, Layout.dim]
    rintro s rfl r c hr hc
    exact ⟨fun _ => by ring, fun _ => by omega⟩
  case upperTriangular l => exact absurd rfl (hu l)
  case asRowMajor l =>
    simp only [Layout.stride, ArbitraryStrideRowMajor.stride_fn, TrueStride, Out.ok.injEq, raw,
      Layout.dim, forall_eq']
    constructor
    · intro h
      refine ⟨fun h1 h0 => ?_, fun h1 h0 => ?_⟩
      · simpa using (h 0 0 (by omega) h0).1 (by omega)
      · simpa using (h 0 0 h0 (by omega)).2 (by omega)
    · rintro ⟨h1, h2⟩ r c hr hc
      refine ⟨fun hr1 => ?_, fun hc1 => ?_⟩
      · rw [h1 (by omega) (by omega)]; ring
      · rw [h2 (by omega) (by omega)]; ring
  case asColumnMajor l =>
    simp only [Layout.stride, ArbitraryStrideColumnMajor.stride_fn, TrueStride, Out.ok.injEq, raw,
      Layout.dim, forall_eq']
    constructor
    · intro h
      refine ⟨fun h1 h0 => ?_, fun h1 h0 => ?_⟩
      · simpa using (h 0 0 (by omega) h0).1 (by omega)
      · simpa using (h 0 0 h0 (by omega)).2 (by omega)
    · rintro ⟨h1, h2⟩ r c hr hc
      refine ⟨fun hr1 => ?_, fun hc1 => ?_⟩
      · rw [h1 (by omega) (by omega)]; ring
      · rw [h2 (by omega) (by omega)]; ring

/-- A contiguous matrix meets the hypotheses and the contract of C07. -/
example : (∀ r c, Stored (.columnMajor ⟨(3, 2)⟩) r c → raw (.columnMajor ⟨(3, 2)⟩) r c < W) ∧
    TrueStride (.columnMajor ⟨(3, 2)⟩) ∧ ¬ TrueStride (.asRowMajor ⟨(2, 2), (3, 1)⟩) := by
  refine ⟨?_, trivial, by simp [TrueStride]⟩
  rintro r c ⟨hr, hc, _⟩
  simp only [Layout.dim] at hr hc
  simp only [raw, W_64]; omega

/-! ## C08 -/

/-- **C08.** Packing an `n × n` upper triangle is a bijection between the positions on or above
the diagonal and `0..n(n+1)/2`. -/
theorem C08_triangular_bijection [Target] (cfg : Cfg) (u : UpperTriangular) (hfit : u.dim * (u.dim + 1) < W) :
    u.number_of_elements cfg = .ok (u.dim * (u.dim + 1) / 2) ∧
    (∀ r c, r ≤ c → c < u.dim → ∃ i, u.convert_2d_1d cfg r c = .ok i ∧
      i < u.dim * (u.dim + 1) / 2) ∧
    (∀ r c r' c' i, r ≤ c → c < u.dim → r' ≤ c' → c' < u.dim →
      u.convert_2d_1d cfg r c = .ok i → u.convert_2d_1d cfg r' c' = .ok i → r = r' ∧ c = c') ∧
    (∀ i, i < u.dim * (u.dim + 1) / 2 → ∃ r c, r ≤ c ∧ c < u.dim ∧
      u.convert_2d_1d cfg r c = .ok i) := by
  have hcnt : count (.upperTriangular u) < W := lt_of_le_of_lt (Nat.div_le_self _ _) hfit
  have hst : ∀ r c, r ≤ c → c < u.dim → Stored (.upperTriangular u) r c := fun r c h1 h2 =>
    ⟨by show r < u.dim; omega, h2, fun _ _ => h1⟩
  have hok : ∀ r c, r ≤ c → c < u.dim →
      u.convert_2d_1d cfg r c = .ok (index (.upperTriangular u) r c) := fun r c h1 h2 =>
    convert_2d_1d_ok cfg (hst r c h1 h2) hcnt hfit
  refine ⟨number_of_elements_ok cfg (l := .upperTriangular u) hcnt hfit, ?_, ?_, ?_⟩
  · intro r c h1 h2
    exact ⟨_, hok r c h1 h2, index_lt (hst r c h1 h2)⟩
  · intro r c r' c' i h1 h2 h1' h2' e e'
    rw [hok r c h1 h2] at e
    rw [hok r' c' h1' h2'] at e'
    simp at e e'
    exact index_inj (hst r c h1 h2) (hst r' c' h1' h2') (by omega)
  · intro i hi
    obtain ⟨r, c, hs, rfl⟩ := exists_index (l := .upperTriangular u) hi
    exact ⟨r, c, hs.2.2 u rfl, hs.2.1, hok r c (hs.2.2 u rfl) hs.2.1⟩

/-- A 1000 × 1000 triangle meets the hypothesis of C08. -/
example : (⟨1000⟩ : UpperTriangular).dim * ((⟨1000⟩ : UpperTriangular).dim + 1) < W ∧
    (⟨1000⟩ : UpperTriangular).convert_2d_1d dbg 0 0 = .ok 499500 := by decide

/-! ## C09 -/

/-- `convert_1d_2d` returns the position on or above the diagonal with the given index. -/
def TriInverts [Target] (cfg : Cfg) (u : UpperTriangular) (i : Nat) : Prop :=
  ∃ r c, u.convert_1d_2d cfg i = .ok (r, c) ∧ r ≤ c ∧ c < u.dim ∧ u.convert_2d_1d cfg r c = .ok i

/-- The full statement of C09. -/
def C09_statement [Target] : Prop :=
  ∀ (cfg : Cfg) (u : UpperTriangular), u.dim * (u.dim + 1) < W →
    ∀ i, i < u.dim * (u.dim + 1) / 2 → TriInverts cfg u i

/-- **C09, partial.** The conversion through `f64` is right for all indices below
`2^53 + 2^26 - 1`, for every size and in both build modes. Missing: larger indices; the bound
is tight, see `C09_false_at`. -/
theorem C09_partial [Target] (cfg : Cfg) (u : UpperTriangular) (hfit : u.dim * (u.dim + 1) < W)
    (i : Nat) (hi : i < u.dim * (u.dim + 1) / 2) (hb : i < 2 ^ 53 + 2 ^ 26 - 1) :
    TriInverts cfg u i := by
  obtain ⟨r, c, hs, rfl⟩ := exists_index (l := .upperTriangular u) hi
  have hcnt : count (.upperTriangular u) < W := lt_of_le_of_lt (Nat.div_le_self _ _) hfit
  exact ⟨r, c, tri_convert_1d_2d_ok cfg hs hfit hb, hs.2.2 u rfl, hs.2.1,
    convert_2d_1d_ok cfg hs hcnt hfit⟩

/-- **C09 is false of the code** at index `2^53 + 2^26 - 1`, in every matrix with at least
`2^27 + 2` rows: the returned position is below the diagonal. -/
theorem C09_false_at (cfg : Cfg) (u : UpperTriangular) (hn : 2 ^ 27 + 2 ≤ u.dim)
    (hW : u.dim < 2 ^ 63) : ¬ TriInverts cfg u (2 ^ 53 + 2 ^ 26 - 1) := by
  rintro ⟨r, c, h, hrc, _, _⟩
  have h' := tri_convert_1d_2d_bad cfg u hn hW
  unfold firstBadIndex at h'
  rw [h] at h'
  simp only [Out.ok.injEq, Prod.mk.injEq] at h'
  omega

theorem C09_false : ¬ C09_statement := by
  intro h
  refine C09_false_at dbg ⟨134217730⟩ (by norm_num) (by norm_num) (h dbg ⟨134217730⟩ ?_ _ ?_)
  · norm_num [W_64]
  · norm_num

/-- **C09 in full on 16-bit and 32-bit targets**: the indices of `usize` do not reach the bound. -/
theorem C09_small_targets [Target] (h : Target.width ≠ .bits64) : C09_statement := by
  intro cfg u hfit i hi
  refine C09_partial cfg u hfit i hi ?_
  have : W ≤ 4294967296 := by
    unfold W
    revert h
    cases Target.width <;> simp
  omega

/-- **C09 is false of the code exactly on 64-bit targets.** -/
theorem C09_targets [t : Target] : C09_statement ↔ t.width ≠ .bits64 := by
  refine ⟨fun h hw => ?_, C09_small_targets⟩
  obtain ⟨w⟩ := t
  obtain rfl : w = .bits64 := hw
  exact C09_false h

/-- A million rows meet the hypotheses of `C09_partial`. -/
example : (1000000 : Nat) * (1000000 + 1) < W ∧ 500000499999 < 1000000 * (1000000 + 1) / 2 ∧
    500000499999 < 2 ^ 53 + 2 ^ 26 - 1 := by decide

/-! ## C11 -/

/-- **C11.** The index layout has the same shape and the same logical indexing, is contiguous
of the announced type, and is its own index layout. -/
theorem C11_index_layout [Target] (cfg : Cfg) (l : Layout) :
    l.index_layout.dim = l.dim ∧
    l.index_layout.number_of_elements cfg = l.number_of_elements cfg ∧
    (∀ i, l.index_layout.convert_1d_2d cfg i = l.convert_1d_2d cfg i) ∧
    (∀ r c, l.index_layout.convert_2d_1d cfg r c = l.convert_2d_1d cfg r c) ∧
    l.index_layout.index_layout = l.index_layout ∧
    Contiguous l.index_layout ∧ l.index_layout.indexKind = l.indexKind := by
  cases l <;> exact ⟨rfl, rfl, fun _ => rfl, fun _ _ => rfl, rfl, trivial, rfl⟩

example : (Layout.asRowMajor ⟨(2, 3), (9, 2)⟩).index_layout = .rowMajor ⟨(2, 3)⟩ := rfl

/-! ## C12 -/

/-- The shapes a base layout can have. -/
def Possible : BaseKind → Nat → Nat → Prop
  | .rowMajor, _, _ => True
  | .columnMajor, _, _ => True
  | .rowVector, r, _ => r = 1
  | .columnVector, _, c => c = 1
  | .upperTriangular, r, c => r = c

/-- The contract of `from_dimension`: a layout of that kind and shape, or a panic. -/
def FromDimensionContract (k : BaseKind) : Prop :=
  ∀ r c, (Possible k r c → ∃ l, k.from_dimension (r, c) = .ok l ∧ l.indexKind = k ∧
      Contiguous l ∧ l.dim = (r, c)) ∧
    (¬ Possible k r c → k.from_dimension (r, c) = .panic)

/-- The full statement of C12. -/
def C12_statement : Prop := ∀ k, FromDimensionContract k

/-- **C12 is false of the code**: `ColumnVector::from_dimension((3, 1))` panics, because it
asserts that the number of *rows* is 1. -/
theorem C12_false : ¬ C12_statement := by
  intro h
  obtain ⟨l, hl, _⟩ := (h .columnVector 3 1).1 rfl
  have : BaseKind.from_dimension .columnVector (3, 1) = .panic := by decide
  rw [this] at hl
  simp at hl

/-- **C12, partial.** The contract holds for the four other base layouts; for column vectors
the code accepts exactly the one-row shapes and always builds a 1 × 1 vector. Missing: column
vectors. -/
theorem C12_partial :
    (∀ k, k ≠ .columnVector → FromDimensionContract k) ∧
    (∀ r c, BaseKind.from_dimension .columnVector (r, c) =
      if r = 1 then .ok (.columnVector ⟨1⟩) else .panic) := by
  constructor
  · intro k hk r c
    cases k
    case rowMajor =>
      exact ⟨fun _ => ⟨_, rfl, rfl, trivial, rfl⟩, fun h => absurd trivial h⟩
    case columnMajor =>
      exact ⟨fun _ => ⟨_, rfl, rfl, trivial, rfl⟩, fun h => absurd trivial h⟩
    case rowVector =>
      refine ⟨fun h => ?_, fun h => ?_⟩
      · cases (h : r = 1)
        exact ⟨.rowVector ⟨c⟩, rfl, rfl, trivial, rfl⟩
      · simp only [Possible] at h
        simp [BaseKind.from_dimension, RowVector.from_dimension, Out.assert, h]
    case columnVector => exact absurd rfl hk
    case upperTriangular =>
      refine ⟨fun h => ?_, fun h => ?_⟩
      · cases (h : r = c)
        exact ⟨.upperTriangular ⟨r⟩, by
          simp [BaseKind.from_dimension, UpperTriangular.from_dimension, Out.assert], rfl, trivial,
          rfl⟩
      · simp only [Possible] at h
        simp [BaseKind.from_dimension, UpperTriangular.from_dimension, Out.assert, h]
  · intro r c
    by_cases h : r = 1
    · subst h; rfl
    · simp [BaseKind.from_dimension, ColumnVector.from_dimension, Out.assert, h]

example : Possible .rowVector 1 7 ∧ BaseKind.from_dimension .rowVector (1, 7) =
    .ok (.rowVector ⟨7⟩) := ⟨rfl, rfl⟩

/-! ## C13 -/

/-- The cell of logical index `k`, unbounded, for all `k` (also out of range). -/
def rawOfIndex : Layout → Nat → Nat
  | .asRowMajor l, k => l.stride.1 * (k / l.dim.2) + l.stride.2 * (k % l.dim.2)
  | .asColumnMajor l, k => l.stride.1 * (k % l.dim.1) + l.stride.2 * (k / l.dim.1)
  | .asRowVector l, k => k * l.stride
  | .asColumnVector l, k => k * l.stride
  | _, k => k

/-- **C13.** With overflow checks, every value a layout method returns is the mathematical one,
for all arguments, in range or not. -/
theorem C13_checked_exact [Target] (cfg : Cfg) (hc : cfg.overflowChecks = true) (l : Layout) :
    (∀ v, l.number_of_elements cfg = .ok v → v = count l) ∧
    (∀ r c v, l.convert_2d_1d cfg r c = .ok v → v = index l r c) ∧
    (∀ r c v, l.convert_2d_raw cfg r c = .ok v → v = raw l r c) ∧
    (∀ k v, l.convert_1d_raw cfg k = .ok v → v = rawOfIndex l k) ∧
    (∀ u i r c, l = .upperTriangular u → l.convert_1d_2d cfg i = .ok (r, c) →
      r + F64.triRow i + 1 = u.dim ∧
      c + F64.triRow i * (F64.triRow i + 1) / 2 = r + i) := by
  refine ⟨fun v h => (number_of_elements_exact hc h).1, fun r c v h => (convert_2d_1d_exact hc h).1,
    fun r c v h => (convert_2d_raw_exact hc h).1, ?_, ?_⟩
  · intro k v h
    cases l
    case asRowVector l => exact (Cfg.mul_exact (.inl hc) h).1
    case asColumnVector l => exact (Cfg.mul_exact (.inl hc) h).1
    case asRowMajor l =>
      simp only [Layout.convert_1d_raw, ArbitraryStrideRowMajor.convert_1d_raw,
        ArbitraryStrideRowMajor.convert_1d_2d, Out.bind_eq_ok, udiv, umod] at h
      obtain ⟨⟨r, c⟩, ⟨r', h1, c', h2, h3⟩, h4⟩ := h
      split at h1
      · simp at h1
      · rename_i h0
        rw [if_neg h0] at h2
        simp only [Out.ok.injEq, Out.pure_eq, Prod.mk.injEq] at h1 h2 h3
        obtain ⟨rfl, rfl⟩ := h3
        subst h1; subst h2
        exact (convert_2d_raw_exact (l := .asRowMajor l) hc h4).1
    case asColumnMajor l =>
      simp only [Layout.convert_1d_raw, ArbitraryStrideColumnMajor.convert_1d_raw,
        ArbitraryStrideColumnMajor.convert_1d_2d, Out.bind_eq_ok, udiv, umod] at h
      obtain ⟨⟨r, c⟩, ⟨r', h1, c', h2, h3⟩, h4⟩ := h
      split at h1
      · simp at h1
      · rename_i h0
        rw [if_neg h0] at h2
        simp only [Out.ok.injEq, Out.pure_eq, Prod.mk.injEq] at h1 h2 h3
        obtain ⟨rfl, rfl⟩ := h3
        subst h1; subst h2
        exact (convert_2d_raw_exact (l := .asColumnMajor l) hc h4).1
    all_goals
      simp only [Layout.convert_1d_raw] at h
      exact (Out.ok.inj h).symm
  · rintro u i r c rfl h
    simp only [Layout.convert_1d_2d, UpperTriangular.convert_1d_2d, Out.bind_eq_ok] at h
    obtain ⟨n1, h1, row, h2, a, h3, p1, h4, pp, h5, t, h6, col, h7, h8⟩ := h
    obtain ⟨rfl, g1⟩ := Cfg.sub_exact (.inl hc) h1
    obtain ⟨rfl, g2⟩ := Cfg.sub_exact (.inl hc) h2
    obtain ⟨rfl, g3⟩ := Cfg.add_exact (.inl hc) h3
    obtain ⟨rfl, g4⟩ := Cfg.add_exact (.inl hc) h4
    obtain ⟨rfl, g5⟩ := Cfg.mul_exact (.inl hc) h5
    simp [udiv] at h6
    subst h6
    obtain ⟨rfl, g7⟩ := Cfg.sub_exact (.inl hc) h7
    simp at h8
    omega

/-- **C13**, second part. In both build modes, when the mathematical values fit in `usize` the
methods succeed with them. -/
theorem C13_fits_exact [Target] (cfg : Cfg) (l : Layout) (htri : TriFits l) :
    (count l < W → l.number_of_elements cfg = .ok (count l)) ∧
    (∀ r c, Stored l r c → count l < W → l.convert_2d_1d cfg r c = .ok (index l r c)) ∧
    (∀ r c, Stored l r c → raw l r c < W → l.convert_2d_raw cfg r c = .ok (raw l r c)) ∧
    (∀ r c, Stored l r c → raw l r c < W →
      l.convert_1d_raw cfg (index l r c) = .ok (raw l r c)) :=
  ⟨fun h => number_of_elements_ok cfg h htri, fun _ _ hs h => convert_2d_1d_ok cfg hs h htri,
    fun _ _ hs h => convert_2d_raw_ok cfg hs h htri, fun _ _ hs h => convert_1d_raw_ok cfg hs h⟩

/-- Both modes at the edge: `2^32 × 2^32` elements panic in debug and wrap to 0 in release
builds, so the fit hypothesis of `C13_fits_exact` is needed. -/
example : (Layout.rowMajor ⟨(4294967296, 4294967296)⟩).number_of_elements dbg = .panic ∧
    (Layout.rowMajor ⟨(4294967296, 4294967296)⟩).number_of_elements rel = .ok 0 := by decide
example : (Layout.rowMajor ⟨(4294967295, 4294967297)⟩).number_of_elements rel =
    .ok 18446744073709551615 := by decide

/-! ## C53 -/

/-- The full statement of C53. -/
def C53_statement [Target] : Prop :=
  ∀ (cfg : Cfg) (l : Layout), 0 < count l → TriFits l →
    l.convert_1d_raw cfg 0 = .ok 0 ∧ l.convert_2d_raw cfg 0 0 = .ok 0

/-- **C53 is false of the code**: in a 2 × 2 upper triangle, position (0, 0) is at raw index 1,
because the triangle is stored from its last row upwards. -/
theorem C53_false [Target] : ¬ C53_statement := by
  intro h
  have h2 := (h dbg (.upperTriangular ⟨2⟩) (by decide_width) (by have := W_ge; simp [TriFits]; omega)).2
  have : (Layout.upperTriangular ⟨2⟩).convert_2d_raw dbg 0 0 = .ok 1 := by decide_width
  rw [this] at h2
  simp at h2

/-- **C53, partial.** True of all other layouts; of a triangle, logical index 0 is at raw index
0 but position (0, 0) is at raw index `n(n-1)/2`. Missing: position (0, 0) of triangles. -/
theorem C53_partial [Target] (cfg : Cfg) (l : Layout) (hc : 0 < count l) (htri : TriFits l) :
    l.convert_1d_raw cfg 0 = .ok 0 ∧
    (NotTriangular l → l.convert_2d_raw cfg 0 0 = .ok 0) ∧
    (∀ u, l = .upperTriangular u → l.convert_2d_raw cfg 0 0 = .ok (u.dim * (u.dim - 1) / 2)) := by
  have hm0 : ∀ a, cfg.mul a 0 = .ok 0 := fun a => by
    rw [Cfg.mul_ok cfg (show a * 0 < W by rw [Nat.mul_zero]; exact W_pos)]; simp
  have hm0' : ∀ a, cfg.mul 0 a = .ok 0 := fun a => by
    rw [Cfg.mul_ok cfg (show 0 * a < W by rw [Nat.zero_mul]; exact W_pos)]; simp
  have ha0 : cfg.add 0 0 = .ok 0 := by rw [Cfg.add_ok cfg W_pos]
  refine ⟨?_, ?_, ?_⟩
  · cases l
    case asRowMajor l =>
      have : l.dim.2 ≠ 0 := by rintro h; simp [count, h] at hc
      simp [Layout.convert_1d_raw, ArbitraryStrideRowMajor.convert_1d_raw,
        ArbitraryStrideRowMajor.convert_1d_2d, udiv_ok this, umod_ok this,
        ArbitraryStrideRowMajor.convert_2d_raw, hm0, ha0]
    case asColumnMajor l =>
      have : l.dim.1 ≠ 0 := by rintro h; simp [count, h] at hc
      simp [Layout.convert_1d_raw, ArbitraryStrideColumnMajor.convert_1d_raw,
        ArbitraryStrideColumnMajor.convert_1d_2d, udiv_ok this, umod_ok this,
        ArbitraryStrideColumnMajor.convert_2d_raw, hm0, ha0]
    case asRowVector l => exact hm0' _
    case asColumnVector l => exact hm0' _
    all_goals rfl
  · intro hn
    cases l
    case asRowMajor l =>
      simp [Layout.convert_2d_raw, ArbitraryStrideRowMajor.convert_2d_raw, hm0, ha0]
    case asColumnMajor l =>
      simp [Layout.convert_2d_raw, ArbitraryStrideColumnMajor.convert_2d_raw, hm0, ha0]
    case rowMajor l =>
      simp [Layout.convert_2d_raw, RowMajor.convert_2d_raw, RowMajor.convert_2d_1d, hm0', ha0]
    case columnMajor l =>
      simp [Layout.convert_2d_raw, ColumnMajor.convert_2d_raw, ColumnMajor.convert_2d_1d, hm0', ha0]
    case asRowVector l => exact hm0' _
    case asColumnVector l => exact hm0' _
    case upperTriangular u => exact absurd rfl (hn u)
    all_goals rfl
  · rintro u rfl
    have hn : 0 < u.dim := by
      rcases Nat.eq_zero_or_pos u.dim with h | h
      · simp [count, h] at hc
      · exact h
    have hs : Stored (.upperTriangular u) 0 0 := ⟨hn, hn, fun _ _ => Nat.le_refl 0⟩
    have hcnt : count (.upperTriangular u) < W := lt_of_le_of_lt (Nat.div_le_self _ _) htri
    have hi := index_lt hs
    rw [convert_2d_raw_ok cfg hs (lt_trans hi hcnt) htri]
    simp [raw]

example : 0 < count (.upperTriangular ⟨5⟩) ∧ TriFits (.upperTriangular ⟨5⟩) ∧
    (Layout.upperTriangular ⟨5⟩).convert_2d_raw dbg 0 0 = .ok 10 := by
  refine ⟨by decide, by simp [TriFits, W_64], by decide⟩

end Householder.Props
