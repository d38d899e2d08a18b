import Verif.Lemmas.Slices
import Verif.Spec.Array
import Verif.Props.Layouts

/-!
# Properties C04, C10, C14–C20, C24, C25, C55, C56: element access

The specification (`Spec.cell`, `Spec.elem`, `Spec.Sound`, `Spec.Arr`) is in
`Verif/Spec/Matrix.lean` and `Verif/Spec/Array.lean`.
-/

namespace Householder.Props

open Spec

variable {α : Type}

/-! ## Matrices for the examples -/

/-- Two allocations. -/
def exMem : Mem Int := ⟨[[1, 2, 3, 4, 5, 6], [10, 20, 30, 40, 50, 60, 70]]⟩
/-- A 2 × 3 row-major matrix. -/
def exRow : BaseMatrix := ⟨⟨0, 0, 6⟩, .rowMajor ⟨(2, 3)⟩, .dynamic, .dynamic⟩
/-- A 2 × 2 column-major matrix in a larger container. -/
def exCol : BaseMatrix := ⟨⟨1, 1, 6⟩, .columnMajor ⟨(2, 2)⟩, .dynamic, .dynamic⟩
/-- A 3 × 3 upper triangular matrix. -/
def exTri : BaseMatrix := ⟨⟨0, 0, 6⟩, .upperTriangular ⟨3⟩, .dynamic, .dynamic⟩
/-- A 2 × 2 block of `exRow`. -/
def exBlock : BaseMatrix := ⟨⟨0, 1, 5⟩, .asRowMajor ⟨(2, 2), (3, 1)⟩, .dynamic, .dynamic⟩

theorem exRow_sound [Target] : Sound exRow exMem :=
  sound_of_contiguous trivial ⟨by decide_width, by decide_width⟩ (by decide_width)
theorem exCol_sound [Target] : Sound exCol exMem :=
  sound_of_contiguous trivial ⟨by decide_width, by decide_width⟩ (by decide_width)
theorem exTri_sound [Target] : Sound exTri exMem :=
  sound_of_contiguous trivial ⟨by decide_width, by decide_width⟩ (by decide_width)
theorem exBlock_sound [Target] : Sound exBlock exMem := by
  refine ⟨⟨by decide_width, by decide_width⟩, ?_, by decide_width⟩
  rintro r c ⟨hr, hc, _⟩
  simp only [exBlock, Layout.dim, raw] at *
  omega

/-! ## C04 (access) -/

/-- **C04** for matrices: `get1d(k)` and `get` at the `k`-th logical position return the same
element; likewise the mutable accessors return references to the same place. -/
theorem C04_access [Target] (cfg : Cfg) (m : BaseMatrix) (mem : Mem α) (h : Sound m mem) (k r c : Nat)
    (hk : (order m.layout)[k]? = some (r, c)) :
    (∃ v, m.get1d cfg mem k = .ok v ∧ m.get cfg mem r c = .ok v) ∧
    (∃ p, m.get1d_mut cfg k = .ok p ∧ m.get_mut cfg r c = .ok p) := by
  obtain ⟨hs, rfl⟩ := order_get_iff.1 hk
  obtain ⟨v, hv⟩ := h.elem_some hs
  exact ⟨⟨v, h.get1d cfg hs hv, h.get cfg hs hv⟩, ⟨_, h.get1d_mut cfg hs, h.get_mut cfg hs⟩⟩

example : (order exBlock.layout)[2]? = some (1, 0) ∧ exBlock.get1d dbg exMem 2 = .ok 5 ∧
    exBlock.get dbg exMem 1 0 = .ok 5 := by decide
example : (order exTri.layout)[2]? = some (1, 2) ∧ exTri.get1d dbg exMem 2 = .ok 3 ∧
    exTri.get dbg exMem 1 2 = .ok 3 := by decide

/-! ## C10 -/

/-- **C10.** Below the diagonal, the raw conversion, `get` and `get_mut` of an upper triangular
layout or matrix panic, whatever the size, the container and the memory. -/
theorem C10_below_diagonal_panics [Target] (cfg : Cfg) (u : UpperTriangular) (m : BaseMatrix)
    (hm : m.layout = .upperTriangular u) (mem : Mem α) (r c : Nat) (h : c < r) :
    m.layout.convert_2d_raw cfg r c = .panic ∧ m.get cfg mem r c = .panic ∧
    m.get_mut cfg r c = .panic := by
  have hraw : m.layout.convert_2d_raw cfg r c = .panic := by
    rw [hm]; exact (tri_convert_panic cfg u h).2
  refine ⟨hraw, ?_, ?_⟩
  · unfold BaseMatrix.get BaseMatrix.get_unchecked
    by_cases hd : r < m.layout.dim.1 ∧ c < m.layout.dim.2
    · rw [assert_dimension_ok hd.1 hd.2, hraw]; rfl
    · rw [assert_dimension_panic hd]; rfl
  · unfold BaseMatrix.get_mut BaseMatrix.get_unchecked_mut
    by_cases hd : r < m.layout.dim.1 ∧ c < m.layout.dim.2
    · rw [assert_dimension_ok hd.1 hd.2, hraw]; rfl
    · rw [assert_dimension_panic hd]; rfl

example : exTri.layout = .upperTriangular ⟨3⟩ ∧ exTri.get dbg exMem 2 1 = .panic ∧
    exTri.get dbg exMem 1 2 = .ok 3 := by decide

/-! ## C14 -/

/-- **C14.** `get_slice(first, last)` returns the raw elements `first..last` in order iff
`first < last <= len`, and panics otherwise. -/
theorem C14_get_slice (m : BaseMatrix) (mem : Mem α)
    (hd : m.data.off + m.data.len ≤ mem.size m.data.buf) (first last : Nat) :
    (first < last ∧ last ≤ m.data.len →
      ∃ w xs, m.get_slice first last = .ok w ∧ w.toList mem = .ok xs ∧
        xs.length = last - first ∧
        ∀ i, i < last - first → xs[i]? = mem.get? ⟨m.data.buf, m.data.off + (first + i)⟩) ∧
    (¬ (first < last ∧ last ≤ m.data.len) → m.get_slice first last = .panic) := by
  refine ⟨?_, fun h => Container.get_slice_panic _ h⟩
  rintro ⟨h1, h2⟩
  obtain ⟨xs, hx, hlen, hget⟩ := Container.toList_ok (mem := mem)
    (d := ⟨m.data.buf, m.data.off + first, last - first⟩) (by simp only; omega)
  refine ⟨_, xs, Container.get_slice_eq _ h1 h2, hx, hlen, ?_⟩
  intro i hi
  rw [hget i hi]
  simp [Nat.add_assoc]

example : (exCol.get_slice 1 4 >>= (·.toList exMem)) = .ok [30, 40, 50] := by decide
example : exCol.get_slice 3 3 = .panic ∧ exCol.get_slice 0 7 = .panic := by decide

/-! ## C15 -/

/-- **C15.** Storing values through `get_slice_mut(first, last)` changes exactly the raw cells
`first..last` of the container, to those values, and nothing else anywhere; for other bounds
the call panics. -/
theorem C15_get_slice_mut (m : BaseMatrix) (mem : Mem α)
    (hd : m.data.off + m.data.len ≤ mem.size m.data.buf) (first last : Nat) :
    (first < last ∧ last ≤ m.data.len → ∀ xs : List α, xs.length = last - first →
      ∃ w mem', m.get_slice_mut first last = .ok w ∧ w.writeList mem xs = .ok mem' ∧
        (∀ i, i < last - first →
          mem'.get? ⟨m.data.buf, m.data.off + (first + i)⟩ = xs[i]?) ∧
        (∀ q : Loc, (∀ i, i < last - first → q ≠ ⟨m.data.buf, m.data.off + (first + i)⟩) →
          mem'.get? q = mem.get? q)) ∧
    (¬ (first < last ∧ last ≤ m.data.len) → m.get_slice_mut first last = .panic) := by
  refine ⟨?_, fun h => Container.get_slice_mut_panic _ h⟩
  rintro ⟨h1, h2⟩ xs hlen
  obtain ⟨mem', hw, hs, hb, hg⟩ := Container.writeList_ok (mem := mem) (xs := xs)
    (d := ⟨m.data.buf, m.data.off + first, last - first⟩) (by simp only; omega)
    (by simp only; omega)
  refine ⟨_, mem', Container.get_slice_mut_eq _ h1 h2, hw, ?_, ?_⟩
  · intro i hi
    rw [hg, if_pos ⟨rfl, by simp only; omega, by simp only; omega⟩]
    congr 1
    simp only; omega
  · intro q hq
    rw [hg, if_neg]
    rintro ⟨e1, e2, e3⟩
    simp only at e1 e2 e3
    apply hq (q.idx - (m.data.off + first)) (by omega)
    cases q
    simp only [Loc.mk.injEq] at *
    exact ⟨e1, by omega⟩

example : ∃ w, exCol.get_slice_mut 1 4 = .ok w ∧
    w.writeList exMem [7, 8, 9] = .ok ⟨[[1, 2, 3, 4, 5, 6], [10, 20, 7, 8, 9, 60, 70]]⟩ :=
  ⟨⟨1, 2, 3⟩, by decide⟩

/-! ## C16 -/

theorem number_of_elements_ne_ub [Target] (cfg : Cfg) (l : Layout) : l.number_of_elements cfg ≠ .ub := by
  cases l <;> simp only [Layout.number_of_elements]
  case rowMajor l => exact cfg.mul_ne_ub _ _
  case columnMajor l => exact cfg.mul_ne_ub _ _
  case rowVector l => simp [RowVector.number_of_elements]
  case columnVector l => simp [ColumnVector.number_of_elements]
  case asRowMajor l => exact cfg.mul_ne_ub _ _
  case asColumnMajor l => exact cfg.mul_ne_ub _ _
  case asRowVector l => simp [ArbitraryStrideRowVector.number_of_elements]
  case asColumnVector l => simp [ArbitraryStrideColumnVector.number_of_elements]
  case upperTriangular l =>
    simp only [UpperTriangular.number_of_elements]
    intro h
    simp only [Out.bind_eq_ub] at h
    simp [Cfg.add_ne_ub, Cfg.mul_ne_ub, udiv_ok] at h

/-- **C16**, acceptance: with overflow checks, or when the element count is representable,
`from_data` succeeds iff the layout needs at most as many elements as the container has, and
panics otherwise. -/
theorem C16_acceptance [Target] (cfg : Cfg) (rs cs : SizeId) (d : Container) (l : Layout)
    (hlen : d.len * 4 ≤ isizeMax) (hmode : cfg.overflowChecks = true ∨ (count l < W ∧ TriFits l)) :
    (count l ≤ d.len → from_data cfg rs cs d l = .ok ⟨d, l, rs, cs⟩) ∧
    (d.len < count l → from_data cfg rs cs d l = .panic) := by
  have hW := small_W hlen
  constructor
  · intro h
    have htri : TriFits l := by
      cases l <;> simp only [TriFits]
      case upperTriangular u =>
        simp only [count] at h
        have := two_tri u.dim
        omega
    rw [from_data_eq cfg rs cs d l (number_of_elements_ok cfg (by omega) htri), if_pos h]
  · intro h
    cases hn : l.number_of_elements cfg with
    | ub => exact absurd hn (number_of_elements_ne_ub cfg l)
    | panic => simp [from_data, BaseMatrix.new, hn]
    | ok n =>
      rw [from_data_eq cfg rs cs d l hn, if_neg]
      rcases hmode with hc | ⟨h1, h2⟩
      · rw [(number_of_elements_exact hc hn).1]; omega
      · rw [number_of_elements_ok cfg h1 h2] at hn
        simp at hn; omega

/-- **C16**, acceptance, with the code's own element count in either build mode: `from_data`
succeeds iff `number_of_elements()` returns at most the container's length, and otherwise
panics. -/
theorem C16_acceptance_own_count [Target] (cfg : Cfg) (rs cs : SizeId) (d : Container) (l : Layout) :
    (from_data cfg rs cs d l = .ok ⟨d, l, rs, cs⟩ ↔
      ∃ n, l.number_of_elements cfg = .ok n ∧ n ≤ d.len) ∧
    (from_data cfg rs cs d l = .panic ↔
      ¬ ∃ n, l.number_of_elements cfg = .ok n ∧ n ≤ d.len) := by
  cases hn : l.number_of_elements cfg with
  | ub => exact absurd hn (number_of_elements_ne_ub cfg l)
  | panic => simp [from_data, BaseMatrix.new, hn]
  | ok n =>
    rw [from_data_eq cfg rs cs d l hn]
    by_cases h : n ≤ d.len
    · simp [h]
    · simp [h]

/-- The safety half of C16, in full: every stored position of an accepted matrix with a
contiguous layout lies inside the container. -/
def C16_statement [Target] : Prop :=
  ∀ (cfg : Cfg) (rs cs : SizeId) (d : Container) (l : Layout) (m : BaseMatrix), Contiguous l →
    d.len * 4 ≤ isizeMax → from_data cfg rs cs d l = .ok m → ∀ r c, Stored l r c →
    ∃ k, l.convert_2d_raw cfg r c = .ok k ∧ k < d.len

/-- **C16 is false of the code** in release builds: the element count of a `W/2 × 2` matrix
wraps to 0, so it is accepted over an empty container. -/
theorem C16_false [Target] : ¬ C16_statement := by
  intro h
  obtain ⟨k, -, hk⟩ := h rel .dynamic .dynamic ⟨0, 0, 0⟩ (.rowMajor ⟨(W / 2, 2)⟩)
    ⟨⟨0, 0, 0⟩, .rowMajor ⟨(W / 2, 2)⟩, .dynamic, .dynamic⟩ trivial (by decide_width) (by decide_width)
    0 0 ⟨by decide_width, by decide_width, by simp⟩
  exact absurd hk (by simp)

/-- **C16, partial**, safety: with overflow checks, or when the element count is representable,
every stored position of an accepted matrix with a contiguous layout lies inside the container.
Missing: wrapping counts in release builds (`C16_false`). -/
theorem C16_partial [Target] (cfg : Cfg) (rs cs : SizeId) (d : Container) (l : Layout) (m : BaseMatrix)
    (hl : Contiguous l) (hlen : d.len * 4 ≤ isizeMax)
    (hmode : cfg.overflowChecks = true ∨ (count l < W ∧ TriFits l))
    (h : from_data cfg rs cs d l = .ok m) (r c : Nat) (hs : Stored l r c) :
    m.layout = l ∧ m.data = d ∧ ∃ k, l.convert_2d_raw cfg r c = .ok k ∧ k < d.len := by
  obtain ⟨rfl, hn⟩ := from_data_ok h hmode
  have hW := small_W hlen
  have hS : Sound (⟨d, l, rs, cs⟩ : BaseMatrix) (⟨List.replicate (d.buf + 1)
      (List.replicate (d.off + d.len) (0 : Nat))⟩ : Mem Nat) :=
    sound_of_contiguous hl ⟨by simp [Mem.size], hlen⟩ hn
  exact ⟨rfl, rfl, _, convert_2d_raw_ok cfg hs (hS.raw_lt hs) hS.triFits, hS.inside r c hs⟩

example : from_data dbg .dynamic .dynamic ⟨0, 0, 6⟩ (.rowMajor ⟨(2, 3)⟩) = .ok exRow ∧
    from_data dbg .dynamic .dynamic ⟨0, 0, 6⟩ (.rowMajor ⟨(2, 4)⟩) = .panic := by decide

/-! ## C17 -/

/-- The last part of C17, in full: bounds-checked access to a matrix with a contiguous layout never
reaches undefined behaviour. -/
def C17_statement [Target] : Prop :=
  ∀ (cfg : Cfg) (rs cs : SizeId) (d : Container) (l : Layout) (m : BaseMatrix) (mem : Mem Int),
    Contiguous l → ContainerOK d mem → from_data cfg rs cs d l = .ok m → ∀ r c,
    m.get cfg mem r c ≠ .ub ∧ m.get_mut cfg r c ≠ .ub

/-- **C17 is false of the code** in release builds: the matrix of `C16_false` reads outside its
container at `(0, 0)`. -/
theorem C17_false [Target] : ¬ C17_statement := by
  intro h
  exact (h rel .dynamic .dynamic ⟨0, 0, 0⟩ (.rowMajor ⟨(W / 2, 2)⟩)
    ⟨⟨0, 0, 0⟩, .rowMajor ⟨(W / 2, 2)⟩, .dynamic, .dynamic⟩ exMem trivial
    ⟨by decide_width, by decide_width⟩ (by decide_width) 0 0).1 (by decide_width)

/-- **C17, partial.** On a matrix with a contiguous layout that `from_data` accepted with overflow
checks or with a representable element count, `get` and `get_mut` succeed exactly inside the
dimension (for triangles: on or above the diagonal), `get1d` and `get1d_mut` exactly below the
number of elements; otherwise they panic. Missing: wrapping counts in release builds
(`C17_false`). -/
theorem C17_partial [Target] (cfg : Cfg) (rs cs : SizeId) (d : Container) (l : Layout) (m : BaseMatrix)
    (mem : Mem α) (hl : Contiguous l) (hd : ContainerOK d mem)
    (hmode : cfg.overflowChecks = true ∨ (count l < W ∧ TriFits l))
    (h : from_data cfg rs cs d l = .ok m) :
    (∀ r c, (r < l.dim.1 ∧ c < l.dim.2 ∧ (∀ u, l = .upperTriangular u → r ≤ c) →
        (∃ v, m.get cfg mem r c = .ok v) ∧ ∃ p, m.get_mut cfg r c = .ok p) ∧
      (¬ (r < l.dim.1 ∧ c < l.dim.2 ∧ (∀ u, l = .upperTriangular u → r ≤ c)) →
        m.get cfg mem r c = .panic ∧ m.get_mut cfg r c = .panic)) ∧
    (∀ k, (k < count l → (∃ v, m.get1d cfg mem k = .ok v) ∧ ∃ p, m.get1d_mut cfg k = .ok p) ∧
      (¬ k < count l → m.get1d cfg mem k = .panic ∧ m.get1d_mut cfg k = .panic)) := by
  obtain ⟨rfl, hn⟩ := from_data_ok h hmode
  have hS : Sound (⟨d, l, rs, cs⟩ : BaseMatrix) mem := sound_of_contiguous hl hd hn
  refine ⟨fun r c => ⟨fun hs => ?_, fun hs => ?_⟩, fun k => ⟨fun hk => ?_, fun hk => ?_⟩⟩
  · obtain ⟨v, hv⟩ := hS.elem_some hs
    exact ⟨⟨v, hS.get cfg hs hv⟩, ⟨_, hS.get_mut cfg hs⟩⟩
  · by_cases hd : r < l.dim.1 ∧ c < l.dim.2
    · have hu : ∃ u, l = .upperTriangular u ∧ c < r := by
        by_contra hu
        exact hs ⟨hd.1, hd.2, fun u e => by
          by_contra hrc; exact hu ⟨u, e, by omega⟩⟩
      obtain ⟨u, rfl, hcr⟩ := hu
      exact (C10_below_diagonal_panics cfg u _ rfl mem r c hcr).2
    · exact ⟨get_panic cfg _ mem hd, get_mut_panic cfg _ hd⟩
  · obtain ⟨r, c, hs, rfl⟩ := exists_index hk
    obtain ⟨v, hv⟩ := hS.elem_some hs
    exact ⟨⟨v, hS.get1d cfg hs hv⟩, ⟨_, hS.get1d_mut cfg hs⟩⟩
  · exact ⟨hS.get1d_panic cfg hk, hS.get1d_mut_panic cfg hk⟩

example : Contiguous exCol.layout ∧ ContainerOK exCol.data exMem ∧
    from_data dbg .dynamic .dynamic exCol.data exCol.layout = .ok exCol ∧
    exCol.get dbg exMem 1 1 = .ok 50 ∧ exCol.get dbg exMem 1 2 = .panic ∧
    exCol.get1d dbg exMem 4 = .panic := ⟨trivial, ⟨by decide, by decide⟩, by decide⟩

/-! ## C18 -/

/-- The full statement of C18: safe access to an accepted matrix is never undefined. -/
def C18_statement [Target] : Prop :=
  ∀ (cfg : Cfg) (rs cs : SizeId) (d : Container) (l : Layout) (m : BaseMatrix) (mem : Mem Int)
    (r c k : Nat), ContainerOK d mem → from_data cfg rs cs d l = .ok m →
    m.get cfg mem r c ≠ .ub ∧ m.get_mut cfg r c ≠ .ub ∧ m.get1d cfg mem k ≠ .ub ∧
    m.get1d_mut cfg k ≠ .ub

/-- **C18 is false of the code**: `from_data` compares the number of elements only, not the
largest raw index. A strided column vector of 3 elements at distance 10 is accepted over a
container of 6 elements, and the safe `get(1, 0)` then reads element 10 of it. -/
theorem C18_false [Target] : ¬ C18_statement := by
  intro h
  have := h dbg .dynamic .fixed1 ⟨0, 0, 6⟩ (.asColumnVector ⟨3, 10⟩)
    ⟨⟨0, 0, 6⟩, .asColumnVector ⟨3, 10⟩, .dynamic, .fixed1⟩ exMem 1 0 0
    ⟨by decide_width, by decide_width⟩ (by decide_width)
  exact this.1 (by decide_width)

theorem convert_2d_raw_ne_ub [Target] (cfg : Cfg) (l : Layout) (r c : Nat) :
    l.convert_2d_raw cfg r c ≠ .ub := by
  intro h
  cases l <;>
  simp [Layout.convert_2d_raw, RowMajor.convert_2d_raw, RowMajor.convert_2d_1d,
    ColumnMajor.convert_2d_raw, ColumnMajor.convert_2d_1d, RowVector.convert_2d_raw,
    ColumnVector.convert_2d_raw, UpperTriangular.convert_1d_raw,
    ArbitraryStrideRowMajor.convert_2d_raw, ArbitraryStrideColumnMajor.convert_2d_raw,
    ArbitraryStrideRowVector.convert_2d_raw, ArbitraryStrideColumnVector.convert_2d_raw,
    UpperTriangular.convert_2d_raw, UpperTriangular.convert_2d_1d, Out.bind_eq_ub,
    Cfg.mul_ne_ub, Cfg.add_ne_ub, Cfg.sub_ne_ub, udiv] at h

/-- In checked mode a raw index is returned exactly when it is representable. -/
theorem convert_2d_raw_checked [Target] {cfg : Cfg} {l : Layout} {r c : Nat} (hs : Stored l r c)
    (hcount : count l < W) (htri : TriFits l)
    (hmode : cfg.overflowChecks = true ∨ raw l r c < W) :
    (raw l r c < W ∧ l.convert_2d_raw cfg r c = .ok (raw l r c)) ∨
    (¬ raw l r c < W ∧ l.convert_2d_raw cfg r c = .panic) := by
  by_cases h : raw l r c < W
  · exact .inl ⟨h, convert_2d_raw_ok cfg hs h htri⟩
  · refine .inr ⟨h, ?_⟩
    have hc : cfg.overflowChecks = true := hmode.resolve_right h
    cases hv : l.convert_2d_raw cfg r c with
    | panic => rfl
    | ub => exact absurd hv (convert_2d_raw_ne_ub cfg l r c)
    | ok v =>
      exfalso
      apply h
      by_cases hl : Contiguous l
      · rw [raw_eq_index hl]; exact lt_trans (index_lt hs) hcount
      · cases l <;> simp only [Contiguous, not_true_eq_false] at hl
        case asRowMajor l =>
          simp only [Layout.convert_2d_raw, ArbitraryStrideRowMajor.convert_2d_raw,
            Out.bind_eq_ok] at hv
          obtain ⟨a, h1, b, h2, h3⟩ := hv
          obtain ⟨rfl, _⟩ := Cfg.mul_exact (.inl hc) h1
          obtain ⟨rfl, _⟩ := Cfg.mul_exact (.inl hc) h2
          exact (Cfg.add_exact (.inl hc) h3).2
        case asColumnMajor l =>
          simp only [Layout.convert_2d_raw, ArbitraryStrideColumnMajor.convert_2d_raw,
            Out.bind_eq_ok] at hv
          obtain ⟨a, h1, b, h2, h3⟩ := hv
          obtain ⟨rfl, _⟩ := Cfg.mul_exact (.inl hc) h1
          obtain ⟨rfl, _⟩ := Cfg.mul_exact (.inl hc) h2
          exact (Cfg.add_exact (.inl hc) h3).2
        case asRowVector l =>
          exact (Cfg.mul_exact (.inl hc) hv).2
        case asColumnVector l =>
          exact (Cfg.mul_exact (.inl hc) hv).2

/-- **C18, partial.** Exactly which safe accesses to an accepted matrix are undefined: those at
stored positions whose (representable) raw index is not below the container's length. In
particular none for contiguous layouts (`C17_partial`) and none when the largest raw index
is below the length. Missing: a check of this in `from_data`. -/
theorem C18_partial [Target] (cfg : Cfg) (rs cs : SizeId) (d : Container) (l : Layout) (m : BaseMatrix)
    (mem : Mem α) (hd : ContainerOK d mem)
    (hmode : cfg.overflowChecks = true ∨
      (count l < W ∧ TriFits l ∧ ∀ r c, Stored l r c → raw l r c < W))
    (h : from_data cfg rs cs d l = .ok m) :
    (∀ r c, m.get cfg mem r c = .ub ↔ Stored l r c ∧ d.len ≤ raw l r c ∧ raw l r c < W) ∧
    (∀ r c, m.get_mut cfg r c = .ub ↔ Stored l r c ∧ d.len ≤ raw l r c ∧ raw l r c < W) ∧
    (∀ k, m.get1d cfg mem k = .ub ↔ ∃ r c, (order l)[k]? = some (r, c) ∧
      d.len ≤ raw l r c ∧ raw l r c < W) ∧
    (∀ k, m.get1d_mut cfg k = .ub ↔ ∃ r c, (order l)[k]? = some (r, c) ∧
      d.len ≤ raw l r c ∧ raw l r c < W) := by
  obtain ⟨rfl, hn⟩ := from_data_ok h (hmode.imp id (fun h => ⟨h.1, h.2.1⟩))
  have hW := small_W hd.small
  have hcount : count l < W := by omega
  have htri : TriFits l := by
    cases l <;> simp only [TriFits]
    case upperTriangular u =>
      simp only [count] at hn
      have := two_tri u.dim
      omega
  have hmode' : ∀ r c, Stored l r c → cfg.overflowChecks = true ∨ raw l r c < W :=
    fun r c hs => hmode.imp id (fun h => h.2.2 r c hs)
  -- the unchecked accessors at a stored position
  have hread : ∀ r c, Stored l r c → ((⟨d, l, rs, cs⟩ : BaseMatrix).get_unchecked cfg mem r c = .ub ↔
      d.len ≤ raw l r c ∧ raw l r c < W) := by
    intro r c hs
    simp only [BaseMatrix.get_unchecked]
    rcases convert_2d_raw_checked hs hcount htri (hmode' r c hs) with ⟨h1, h2⟩ | ⟨h1, h2⟩
    · rw [h2]
      simp only [Out.bind_ok, h1, and_true]
      by_cases hk : raw l r c < d.len
      · obtain ⟨v, hv, -⟩ := Container.get_unchecked_ok hd.window hk
        rw [hv]; simp; omega
      · simp [Container.get_unchecked, hk]; omega
    · rw [h2]; simp [h1]
  have hmut : ∀ r c, Stored l r c → ((⟨d, l, rs, cs⟩ : BaseMatrix).get_unchecked_mut cfg r c = .ub ↔
      d.len ≤ raw l r c ∧ raw l r c < W) := by
    intro r c hs
    simp only [BaseMatrix.get_unchecked_mut]
    rcases convert_2d_raw_checked hs hcount htri (hmode' r c hs) with ⟨h1, h2⟩ | ⟨h1, h2⟩
    · rw [h2]
      simp only [Out.bind_ok, h1, and_true]
      by_cases hk : raw l r c < d.len
      · simp [Container.get_unchecked_mut, hk]
      · simp [Container.get_unchecked_mut, hk]; omega
    · rw [h2]; simp [h1]
  have hraw1 : ∀ r c, Stored l r c →
      l.convert_1d_raw cfg (index l r c) = l.convert_2d_raw cfg r c :=
    fun r c hs => convert_1d_raw_eq cfg hs hcount htri
  refine ⟨fun r c => ?_, fun r c => ?_, fun k => ?_, fun k => ?_⟩
  · by_cases hdim : r < l.dim.1 ∧ c < l.dim.2
    · by_cases hs : Stored l r c
      · rw [← hread r c hs]
        simp [BaseMatrix.get, assert_dimension_ok hdim.1 hdim.2, hs]
      · have hu : ∃ u, l = .upperTriangular u ∧ c < r := by
          by_contra hu
          exact hs ⟨hdim.1, hdim.2, fun u e => by
            by_contra hrc; exact hu ⟨u, e, by omega⟩⟩
        obtain ⟨u, rfl, hcr⟩ := hu
        rw [(C10_below_diagonal_panics cfg u _ rfl mem r c hcr).2.1]
        simp [hs]
    · rw [get_panic cfg _ mem hdim]
      simp only [reduceCtorEq, false_iff, not_and]
      exact fun hs => absurd ⟨hs.1, hs.2.1⟩ hdim
  · by_cases hdim : r < l.dim.1 ∧ c < l.dim.2
    · by_cases hs : Stored l r c
      · rw [← hmut r c hs]
        simp [BaseMatrix.get_mut, assert_dimension_ok hdim.1 hdim.2, hs]
      · have hu : ∃ u, l = .upperTriangular u ∧ c < r := by
          by_contra hu
          exact hs ⟨hdim.1, hdim.2, fun u e => by
            by_contra hrc; exact hu ⟨u, e, by omega⟩⟩
        obtain ⟨u, rfl, hcr⟩ := hu
        rw [(C10_below_diagonal_panics cfg u _ rfl mem r c hcr).2.2]
        simp [hs]
    · rw [get_mut_panic cfg _ hdim]
      simp only [reduceCtorEq, false_iff, not_and]
      exact fun hs => absurd ⟨hs.1, hs.2.1⟩ hdim
  · simp only [BaseMatrix.get1d, number_of_elements_ok cfg hcount htri, Out.bind_ok,
      assert_dimension1d]
    by_cases hk : k < count l
    · rw [Out.assert_pos hk]
      obtain ⟨r, c, hs, rfl⟩ := exists_index hk
      simp only [Out.bind_ok, order_index hs, Option.some.injEq, Prod.mk.injEq]
      have e : (⟨d, l, rs, cs⟩ : BaseMatrix).get1d_unchecked cfg mem (index l r c) =
          (⟨d, l, rs, cs⟩ : BaseMatrix).get_unchecked cfg mem r c := by
        simp only [BaseMatrix.get1d_unchecked, BaseMatrix.get_unchecked, hraw1 r c hs]
      rw [e, hread r c hs]
      constructor
      · intro h; exact ⟨r, c, ⟨rfl, rfl⟩, h⟩
      · rintro ⟨_, _, ⟨rfl, rfl⟩, h⟩; exact h
    · rw [Out.assert_neg hk]
      simp [List.getElem?_eq_none (show (order l).length ≤ k by rw [order_length]; omega)]
  · simp only [BaseMatrix.get1d_mut, number_of_elements_ok cfg hcount htri, Out.bind_ok,
      assert_dimension1d]
    by_cases hk : k < count l
    · rw [Out.assert_pos hk]
      obtain ⟨r, c, hs, rfl⟩ := exists_index hk
      simp only [Out.bind_ok, order_index hs, Option.some.injEq, Prod.mk.injEq]
      have e : (⟨d, l, rs, cs⟩ : BaseMatrix).get1d_unchecked_mut cfg (index l r c) =
          (⟨d, l, rs, cs⟩ : BaseMatrix).get_unchecked_mut cfg r c := by
        simp only [BaseMatrix.get1d_unchecked_mut, BaseMatrix.get_unchecked_mut, hraw1 r c hs]
      rw [e, hmut r c hs]
      constructor
      · intro h; exact ⟨r, c, ⟨rfl, rfl⟩, h⟩
      · rintro ⟨_, _, ⟨rfl, rfl⟩, h⟩; exact h
    · rw [Out.assert_neg hk]
      simp [List.getElem?_eq_none (show (order l).length ≤ k by rw [order_length]; omega)]

/-- The witness of `C18_false` in terms of `C18_partial`. -/
example : Stored (.asColumnVector ⟨3, 10⟩) 1 0 ∧ 6 ≤ raw (.asColumnVector ⟨3, 10⟩) 1 0 :=
  ⟨⟨by decide, by decide, by simp⟩, by decide⟩

/-! ## C19 -/

/-- **C19.** After `*m.get_mut(r, c) = v` (or through `get1d_mut` at its 1D index), `m.get(r, c)`
is `v`, every other element of `m` is what it was, and so is every cell of memory that is not
the one of `(r, c)`, hence every element of every matrix with its own storage. -/
theorem C19_read_your_writes [Target] (cfg : Cfg) (m : BaseMatrix) (mem : Mem α) (h : Sound m mem)
    (hn : NonOverlapping m.layout) (r c : Nat) (hs : Stored m.layout r c) (v : α) :
    ∃ mem', m.set cfg mem r c v = .ok mem' ∧
      m.set1d cfg mem (index m.layout r c) v = .ok mem' ∧
      m.get cfg mem' r c = .ok v ∧
      (∀ r' c', ¬ (r' = r ∧ c' = c) → m.get cfg mem' r' c' = m.get cfg mem r' c') ∧
      (∀ m', Sound m' mem → Separate m m' → ∀ r' c', Stored m'.layout r' c' →
        m'.get cfg mem' r' c' = m'.get cfg mem r' c') ∧
      (∀ q, q ≠ cell m r c → mem'.get? q = mem.get? q) := by
  obtain ⟨mem', hw, hu⟩ := Mem.write_upd (v := v) (h.cell_lt hs)
  have h' : Sound m mem' := h.mono (by rw [hu.size])
  refine ⟨mem', ?_, ?_, h'.get cfg hs (elem_upd_self hu), ?_, ?_, ?_⟩
  · simp [BaseMatrix.set, h.get_mut cfg hs, hw]
  · simp [BaseMatrix.set1d, h.get1d_mut cfg hs, hw]
  · intro r' c' hne
    by_cases hs' : Stored m.layout r' c'
    · obtain ⟨w, hw'⟩ := h.elem_some hs'
      rw [h.get cfg hs' hw', h'.get cfg hs' (by rw [elem_upd_other hn hs hu hs' hne, hw'])]
    · by_cases hdim : r' < m.layout.dim.1 ∧ c' < m.layout.dim.2
      · have hu : ∃ u, m.layout = .upperTriangular u ∧ c' < r' := by
          by_contra hu
          exact hs' ⟨hdim.1, hdim.2, fun u e => by
            by_contra hrc; exact hu ⟨u, e, by omega⟩⟩
        obtain ⟨u, e, hcr⟩ := hu
        rw [(C10_below_diagonal_panics cfg u _ e mem r' c' hcr).2.1,
          (C10_below_diagonal_panics cfg u _ e mem' r' c' hcr).2.1]
      · rw [get_panic cfg m mem hdim, get_panic cfg m mem' hdim]
  · intro m2 h2 hsep r' c' hs'
    obtain ⟨w, hw'⟩ := h2.elem_some hs'
    have h2' : Sound m2 mem' := h2.mono (by rw [hu.size])
    rw [h2.get cfg hs' hw', h2'.get cfg hs' (by
      rw [elem, hu.get, if_neg (fun e => hsep r c r' c' hs hs' e.symm)]; exact hw')]
  · intro q hq
    rw [hu.get, if_neg hq]

example : exBlock.set dbg exMem 1 0 9 =
    .ok ⟨[[1, 2, 3, 4, 9, 6], [10, 20, 30, 40, 50, 60, 70]]⟩ := by decide
example : Stored exBlock.layout 1 0 ∧ NonOverlapping exBlock.layout ∧ Separate exBlock exCol := by
  refine ⟨⟨by decide, by decide, by simp [exBlock]⟩, by simp [exBlock, NonOverlapping], ?_⟩
  intro r c r' c' _ _ h
  simp [cell, exBlock, exCol] at h

/-! ## C20 -/

/-- The matrix holds the abstract array `A`. -/
def Represents (m : BaseMatrix) (mem : Mem α) (A : Arr α) : Prop :=
  ∀ r c, Stored m.layout r c → elem m mem r c = some (A r c)

/-- Outside the stored positions the accessors panic. -/
theorem not_stored_panic [Target] (cfg : Cfg) (m : BaseMatrix) (mem : Mem α) {r c : Nat}
    (hs : ¬ Stored m.layout r c) : m.get cfg mem r c = .panic ∧ m.get_mut cfg r c = .panic := by
  by_cases hdim : r < m.layout.dim.1 ∧ c < m.layout.dim.2
  · have hu : ∃ u, m.layout = .upperTriangular u ∧ c < r := by
      by_contra hu
      exact hs ⟨hdim.1, hdim.2, fun u e => by
        by_contra hrc; exact hu ⟨u, e, by omega⟩⟩
    obtain ⟨u, e, hcr⟩ := hu
    exact (C10_below_diagonal_panics cfg u _ e mem r c hcr).2
  · exact ⟨get_panic cfg m mem hdim, get_mut_panic cfg m hdim⟩

theorem Represents.put {m : BaseMatrix} {mem mem' : Mem α} {A : Arr α}
    (h : Represents m mem A) (hn : NonOverlapping m.layout) {r c : Nat}
    (hs : Stored m.layout r c) {v : α} (hu : Mem.Upd mem mem' (cell m r c) v) :
    Represents m mem' (A.put r c v) := by
  intro r' c' hs'
  by_cases hne : r' = r ∧ c' = c
  · obtain ⟨rfl, rfl⟩ := hne
    rw [elem_upd_self hu]; simp [Arr.put]
  · rw [elem_upd_other hn hs hu hs' hne, h r' c' hs']
    simp [Arr.put, hne]

/-- One operation does on the matrix what it does on the array. -/
theorem step_refines [Target] (cfg : Cfg) (m : BaseMatrix) (mem : Mem α) (A : Arr α) (h : Sound m mem)
    (hn : NonOverlapping m.layout) (hA : Represents m mem A) (op : ArrOp α) :
    ∃ mem', step cfg m mem op = some ((A.step (order m.layout) op).1, mem') ∧
      Sound m mem' ∧ Represents m mem' (A.step (order m.layout) op).2 ∧ FrameOf m mem mem' := by
  have hpos : ∀ k, (∃ r c, (order m.layout)[k]? = some (r, c) ∧ Stored m.layout r c ∧
      k = index m.layout r c) ∨ ((order m.layout)[k]? = none ∧ ¬ k < count m.layout) := by
    intro k
    by_cases hk : k < count m.layout
    · obtain ⟨r, c, hs, rfl⟩ := exists_index hk
      exact .inl ⟨r, c, order_index hs, hs, rfl⟩
    · exact .inr ⟨List.getElem?_eq_none (by rw [order_length]; omega), hk⟩
  cases op with
  | get r c =>
    by_cases hs : Stored m.layout r c
    · refine ⟨mem, ?_, h, ?_, FrameOf.refl _ _⟩
      · simp [step, exec, h.get cfg hs (hA r c hs), Arr.step, mem_order.2 hs]
      · simpa [Arr.step, mem_order.2 hs] using hA
    · have hm : (r, c) ∉ order m.layout := fun hm => hs (mem_order.1 hm)
      refine ⟨mem, ?_, h, ?_, FrameOf.refl _ _⟩
      · simp [step, exec, (not_stored_panic cfg m mem hs).1, Arr.step, hm]
      · simpa [Arr.step, hm] using hA
  | get1d k =>
    rcases hpos k with ⟨r, c, ho, hs, rfl⟩ | ⟨ho, hk⟩
    · refine ⟨mem, ?_, h, ?_, FrameOf.refl _ _⟩
      · simp [step, exec, h.get1d cfg hs (hA r c hs), Arr.step, ho]
      · simpa [Arr.step, ho] using hA
    · refine ⟨mem, ?_, h, ?_, FrameOf.refl _ _⟩
      · simp [step, exec, h.get1d_panic cfg hk, Arr.step, ho]
      · simpa [Arr.step, ho] using hA
  | set r c v =>
    by_cases hs : Stored m.layout r c
    · obtain ⟨mem', h1, hu⟩ := h.set cfg hs v
      refine ⟨mem', ?_, h.mono (by rw [hu.size]), ?_, FrameOf.of_upd hs hu⟩
      · simp [step, exec, h1, Arr.step, mem_order.2 hs]
      · simpa [Arr.step, mem_order.2 hs] using hA.put hn hs hu
    · have hm : (r, c) ∉ order m.layout := fun hm => hs (mem_order.1 hm)
      refine ⟨mem, ?_, h, ?_, FrameOf.refl _ _⟩
      · simp [step, exec, BaseMatrix.set, (not_stored_panic cfg m mem hs).2, Arr.step, hm]
      · simpa [Arr.step, hm] using hA
  | set1d k v =>
    rcases hpos k with ⟨r, c, ho, hs, rfl⟩ | ⟨ho, hk⟩
    · obtain ⟨mem', h1, hu⟩ := h.set1d cfg hs v
      refine ⟨mem', ?_, h.mono (by rw [hu.size]), ?_, FrameOf.of_upd hs hu⟩
      · simp [step, exec, h1, Arr.step, ho]
      · simpa [Arr.step, ho] using hA.put hn hs hu
    · refine ⟨mem, ?_, h, ?_, FrameOf.refl _ _⟩
      · simp [step, exec, BaseMatrix.set1d, h.get1d_mut_panic cfg hk, Arr.step, ho]
      · simpa [Arr.step, ho] using hA
  | update r c f =>
    by_cases hs : Stored m.layout r c
    · obtain ⟨mem', h1, hu⟩ := Mem.write_upd (v := f (A r c)) (h.cell_lt hs)
      refine ⟨mem', ?_, h.mono (by rw [hu.size]), ?_, FrameOf.of_upd hs hu⟩
      · simp [step, exec, h.get_mut cfg hs, Mem.read_ok_iff.2 (hA r c hs), h1, Arr.step,
          mem_order.2 hs]
      · simpa [Arr.step, mem_order.2 hs] using hA.put hn hs hu
    · have hm : (r, c) ∉ order m.layout := fun hm => hs (mem_order.1 hm)
      refine ⟨mem, ?_, h, ?_, FrameOf.refl _ _⟩
      · simp [step, exec, (not_stored_panic cfg m mem hs).2, Arr.step, hm]
      · simpa [Arr.step, hm] using hA
  | update1d k f =>
    rcases hpos k with ⟨r, c, ho, hs, rfl⟩ | ⟨ho, hk⟩
    · obtain ⟨mem', h1, hu⟩ := Mem.write_upd (v := f (A r c)) (h.cell_lt hs)
      refine ⟨mem', ?_, h.mono (by rw [hu.size]), ?_, FrameOf.of_upd hs hu⟩
      · simp [step, exec, h.get1d_mut cfg hs, Mem.read_ok_iff.2 (hA r c hs), h1, Arr.step, ho]
      · simpa [Arr.step, ho] using hA.put hn hs hu
    · refine ⟨mem, ?_, h, ?_, FrameOf.refl _ _⟩
      · simp [step, exec, h.get1d_mut_panic cfg hk, Arr.step, ho]
      · simpa [Arr.step, ho] using hA

/-- **C20.** Any history of reads, writes and in-place updates on a matrix, by position or by 1D
index, inside or outside the bounds, gives the same responses (values and panics) as on an
abstract array, leaves the matrix holding the resulting array, and touches nothing else. -/
theorem C20_abstract_array [Target] (cfg : Cfg) (m : BaseMatrix) (mem : Mem α) (A : Arr α)
    (h : Sound m mem) (hn : NonOverlapping m.layout) (hA : Represents m mem A)
    (ops : List (ArrOp α)) :
    ∃ mem', run cfg m mem ops = some ((A.run (order m.layout) ops).1, mem') ∧
      Represents m mem' (A.run (order m.layout) ops).2 ∧
      ∀ q, (∀ r c, Stored m.layout r c → q ≠ cell m r c) → mem'.get? q = mem.get? q := by
  suffices hgen : ∃ mem', run cfg m mem ops = some ((A.run (order m.layout) ops).1, mem') ∧
      Represents m mem' (A.run (order m.layout) ops).2 ∧ FrameOf m mem mem' by
    obtain ⟨mem', h1, h2, h3⟩ := hgen
    exact ⟨mem', h1, h2, h3.other⟩
  induction ops generalizing mem A with
  | nil => exact ⟨mem, rfl, hA, FrameOf.refl _ _⟩
  | cons op ops ih =>
    obtain ⟨mem1, h1, h2, h3, h4⟩ := step_refines cfg m mem A h hn hA op
    obtain ⟨mem2, h5, h6, h7⟩ := ih mem1 _ h2 h3
    exact ⟨mem2, by simp [run, Arr.run, h1, h5], h6, h4.trans h7⟩

/-- A history with a panic in the middle, on a 3 × 3 triangle (whose 1D order starts at the
bottom right). -/
example : run dbg exTri exMem [.set 0 1 7, .get1d 4, .get 1 0, .update1d 4 (· + 1), .get 0 1] =
    some ([.done, .value 7, .panicked, .done, .value 8],
      ⟨[[1, 2, 3, 4, 8, 6], [10, 20, 30, 40, 50, 60, 70]]⟩) := by decide

/-! ## C24 -/

/-- **C24.** `for_each(f)` with a stateful `f` runs through states `st 0 = s, st 1, …, st n`,
`n` the number of elements; the `k`-th call is on the element at the `k`-th logical position
with its old value, and stores its result there; nothing else changes. -/
theorem C24_for_each [Target] {σ : Type} (cfg : Cfg) (m : BaseMatrix) (mem : Mem α) (h : Sound m mem)
    (hn : NonOverlapping m.layout) (f : σ → α → σ × α) (s : σ) :
    ∃ (mem' : Mem α) (st : Nat → σ),
      m.for_each cfg f s mem = .ok (st (order m.layout).length, mem') ∧ st 0 = s ∧
      (∀ k r c, (order m.layout)[k]? = some (r, c) → ∃ v, m.get cfg mem r c = .ok v ∧
        f (st k) v = (st (k + 1), (f (st k) v).2) ∧ m.get cfg mem' r c = .ok (f (st k) v).2) ∧
      (∀ q, (∀ r c, Stored m.layout r c → q ≠ cell m r c) → mem'.get? q = mem.get? q) := by
  obtain ⟨mem', st, h1, h2, h3, h4⟩ := h.for_each hn cfg f s
  refine ⟨mem', st, by rw [order_length]; exact h1, h2, ?_, h4.other⟩
  intro k r c hk
  obtain ⟨v, hv1, hv2, hv3⟩ := h3 k r c hk
  have hs := (order_get_iff.1 hk).1
  exact ⟨v, h.get cfg hs hv1, by rw [← hv2], (h.mono (by rw [h4.size])).get cfg hs hv3⟩

/-- Numbering the elements of a block, and counting the calls. -/
example : exBlock.for_each dbg (fun s _ => (s + 1, s)) 100 exMem =
    .ok (104, ⟨[[1, 100, 101, 4, 102, 103], [10, 20, 30, 40, 50, 60, 70]]⟩) := by decide
example : Sound exBlock exMem ∧ NonOverlapping exBlock.layout :=
  ⟨exBlock_sound, by simp [exBlock, NonOverlapping]⟩

/-! ## C25 -/

/-- The generator after `k` samples. -/
def genAfter {ρ real : Type} (d : Sampler ρ real) (rng : ρ) : Nat → ρ
  | 0 => rng
  | k + 1 => (d.sample (genAfter d rng k)).2

/-- The `k`-th sample. -/
def draw {ρ real : Type} (d : Sampler ρ real) (rng : ρ) (k : Nat) : real :=
  (d.sample (genAfter d rng k)).1

/-- **C25**, real scalars: the fill stores the `k`-th sample at 1D index `k`, advances the
generator by exactly one sample per element, and touches nothing else. The result depends on
the generator and the logical order only, not on the physical layout. -/
theorem C25_fill_real [Target] {ρ : Type} (cfg : Cfg) (m : BaseMatrix) (mem : Mem α) (h : Sound m mem)
    (hn : NonOverlapping m.layout) (d : Sampler ρ α) (rng : ρ) :
    ∃ mem', m.fill_from_rand cfg (random_scalar_real d) rng mem =
        .ok (genAfter d rng (order m.layout).length, mem') ∧
      (∀ k r c, (order m.layout)[k]? = some (r, c) → m.get cfg mem' r c = .ok (draw d rng k)) ∧
      (∀ q, (∀ r c, Stored m.layout r c → q ≠ cell m r c) → mem'.get? q = mem.get? q) := by
  obtain ⟨mem', st, h1, h2, h3, h4⟩ := C24_for_each cfg m mem h hn
    (fun rng _ => let r := random_scalar_real d rng; (r.2, r.1)) rng
  have hst : ∀ k, k ≤ (order m.layout).length → st k = genAfter d rng k := by
    intro k
    induction k with
    | zero => intro _; exact h2
    | succ k ih =>
      intro hk
      have hk' : k < (order m.layout).length := hk
      obtain ⟨v, -, hv, -⟩ := h3 k _ _ (List.getElem?_eq_getElem hk')
      have := congrArg Prod.fst hv
      simp only at this
      rw [← this, ih (by omega)]
      rfl
  refine ⟨mem', ?_, ?_, h4⟩
  · rw [← hst _ le_rfl]; exact h1
  · intro k r c hk
    obtain ⟨v, -, -, hv⟩ := h3 k r c hk
    obtain ⟨hk', -⟩ := List.getElem?_eq_some_iff.1 hk
    rw [hv, hst k (by omega)]
    rfl

/-- **C25**, complex scalars: two samples per element, real part first. -/
theorem C25_fill_complex [Target] {ρ real : Type} (cfg : Cfg) (m : BaseMatrix) (mem : Mem α)
    (h : Sound m mem) (hn : NonOverlapping m.layout) (mk : real → real → α)
    (d : Sampler ρ real) (rng : ρ) :
    ∃ mem', m.fill_from_rand cfg (random_scalar_complex mk d) rng mem =
        .ok (genAfter d rng (2 * (order m.layout).length), mem') ∧
      (∀ k r c, (order m.layout)[k]? = some (r, c) →
        m.get cfg mem' r c = .ok (mk (draw d rng (2 * k)) (draw d rng (2 * k + 1)))) ∧
      (∀ q, (∀ r c, Stored m.layout r c → q ≠ cell m r c) → mem'.get? q = mem.get? q) := by
  obtain ⟨mem', st, h1, h2, h3, h4⟩ := C24_for_each cfg m mem h hn
    (fun rng _ => let r := random_scalar_complex mk d rng; (r.2, r.1)) rng
  have hst : ∀ k, k ≤ (order m.layout).length → st k = genAfter d rng (2 * k) := by
    intro k
    induction k with
    | zero => intro _; exact h2
    | succ k ih =>
      intro hk
      have hk' : k < (order m.layout).length := hk
      obtain ⟨v, -, hv, -⟩ := h3 k _ _ (List.getElem?_eq_getElem hk')
      have := congrArg Prod.fst hv
      simp only at this
      rw [← this, ih (by omega)]
      rfl
  refine ⟨mem', ?_, ?_, h4⟩
  · rw [← hst _ le_rfl]; exact h1
  · intro k r c hk
    obtain ⟨v, -, -, hv⟩ := h3 k r c hk
    obtain ⟨hk', -⟩ := List.getElem?_eq_some_iff.1 hk
    rw [hv, hst k (by omega)]
    rfl

/-- **C25**, reproducibility: two matrices with the same logical order, whatever their strides,
windows and memories, hold equal elements after a fill from equal generators, which end up in
equal states. -/
theorem C25_layout_independent [Target] {ρ : Type} (cfg cfg' : Cfg) (m m' : BaseMatrix) (mem1 mem2 : Mem α)
    (h : Sound m mem1) (hn : NonOverlapping m.layout) (h' : Sound m' mem2)
    (hn' : NonOverlapping m'.layout) (ho : order m.layout = order m'.layout)
    (d : Sampler ρ α) (rng : ρ) :
    ∃ rng' mem1' mem2', m.fill_from_rand cfg (random_scalar_real d) rng mem1 = .ok (rng', mem1') ∧
      m'.fill_from_rand cfg' (random_scalar_real d) rng mem2 = .ok (rng', mem2') ∧
      ∀ r c, Stored m.layout r c → m.get cfg mem1' r c = m'.get cfg' mem2' r c := by
  obtain ⟨mem1', a1, a2, -⟩ := C25_fill_real cfg m mem1 h hn d rng
  obtain ⟨mem2', b1, b2, -⟩ := C25_fill_real cfg' m' mem2 h' hn' d rng
  refine ⟨_, mem1', mem2', a1, by rw [ho]; exact b1, ?_⟩
  intro r c hs
  have hk := order_index hs
  rw [a2 _ r c hk, b2 _ r c (by rw [← ho]; exact hk)]

/-- A counting generator, on a block and on a contiguous matrix of the same shape. -/
example : exBlock.fill_from_rand dbg (random_scalar_real ⟨fun n : Int => (n * n, n + 1)⟩) 3 exMem =
      .ok (7, ⟨[[1, 9, 16, 4, 25, 36], [10, 20, 30, 40, 50, 60, 70]]⟩) ∧
    order exBlock.layout = order (.rowMajor ⟨(2, 2)⟩) := by decide

/-! ## C55 -/

/-- **C55.** The raw slice of one element at the raw index of a position holds the element. -/
theorem C55_slice_element [Target] (cfg : Cfg) (m : BaseMatrix) (mem : Mem α) (h : Sound m mem)
    (k r c : Nat) (ho : (order m.layout)[k]? = some (r, c)) :
    ∃ j w v, m.layout.convert_2d_raw cfg r c = .ok j ∧ m.layout.convert_1d_raw cfg k = .ok j ∧
      m.get_slice j (j + 1) = .ok w ∧ w.toList mem = .ok [v] ∧
      m.get cfg mem r c = .ok v ∧ m.get1d cfg mem k = .ok v := by
  obtain ⟨hs, rfl⟩ := order_get_iff.1 ho
  obtain ⟨v, hv⟩ := h.elem_some hs
  have hraw := convert_2d_raw_ok cfg hs (h.raw_lt hs) h.triFits
  obtain ⟨w, xs, h1, h2, h3, h4⟩ := (C14_get_slice m mem h.container.window
    (raw m.layout r c) (raw m.layout r c + 1)).1 ⟨by omega, h.inside r c hs⟩
  have h5 := h4 0 (by omega)
  have hx : xs = [v] := by
    have hlen : xs.length = 1 := by omega
    obtain ⟨y, rfl⟩ := List.length_eq_one_iff.1 hlen
    have : mem.get? ⟨m.data.buf, m.data.off + (raw m.layout r c + 0)⟩ = some v := hv
    rw [this] at h5
    simpa using h5
  subst hx
  exact ⟨_, w, v, hraw, by rw [convert_1d_raw_eq cfg hs h.count_lt h.triFits]; exact hraw, h1, h2,
    h.get cfg hs hv, h.get1d cfg hs hv⟩

example : exBlock.layout.convert_2d_raw dbg 1 0 = .ok 3 ∧
    (exBlock.get_slice 3 4 >>= (·.toList exMem)) = .ok [5] ∧ exBlock.get dbg exMem 1 0 = .ok 5 := by
  decide

/-! ## C56 -/

/-- The full statement of C56 for `BaseMatrix::length`, which exists for the two contiguous
vector layouts. -/
def C56_statement [Target] : Prop :=
  ∀ (cfg : Cfg) (rs cs : SizeId) (d : Container) (n : Nat) (m : BaseMatrix),
    (from_data cfg rs cs d (.rowVector ⟨n⟩) = .ok m → m.length = n) ∧
    (from_data cfg rs cs d (.columnVector ⟨n⟩) = .ok m → m.length = n)

/-- **C56 is false of the code**: `BaseMatrix::length` returns the length of the container, which
`from_data` allows to be larger: 6 for a vector of 3 elements. -/
theorem C56_false [Target] : ¬ C56_statement := by
  intro h
  have := (h dbg .fixed1 .dynamic ⟨0, 0, 6⟩ 3
    ⟨⟨0, 0, 6⟩, .rowVector ⟨3⟩, .fixed1, .dynamic⟩).1 (by decide_width)
  revert this; decide_width

/-- **C56, partial.** `Matrix::length` is the logical dimension of every row and column vector,
expressions included. `BaseMatrix::length` of an accepted vector is at least its logical
dimension, and right exactly for containers without spare elements. Missing:
`BaseMatrix::length` on larger containers. -/
theorem C56_partial [Target] (cfg : Cfg) (m : Mat α) (d : Container) (b : BaseMatrix) (n : Nat) :
    (m.sizes = (.fixed1, .dynamic) → m.dim = (1, n) → m.length = some n) ∧
    (m.sizes = (.dynamic, .fixed1) → m.dim = (n, 1) → m.length = some n) ∧
    ((from_data cfg .fixed1 .dynamic d (.rowVector ⟨n⟩) = .ok b ∨
        from_data cfg .dynamic .fixed1 d (.columnVector ⟨n⟩) = .ok b) →
      n ≤ b.length ∧ (b.length = n ↔ d.len = n)) := by
  refine ⟨?_, ?_, ?_⟩
  rotate_left 2
  · rintro (h | h)
    · rw [from_data_eq cfg _ _ d _ (n := n) rfl] at h
      split at h <;> simp at h
      subst h
      exact ⟨by simpa [BaseMatrix.length, Container.number_of_elements], Iff.rfl⟩
    · rw [from_data_eq cfg _ _ d _ (n := n) rfl] at h
      split at h <;> simp at h
      subst h
      exact ⟨by simpa [BaseMatrix.length, Container.number_of_elements], Iff.rfl⟩
  · intro h1 h2
    simp only [Mat.dim] at h2
    simp [Mat.length, h1, h2]
  · intro h1 h2
    simp only [Mat.dim] at h2
    simp [Mat.length, h1, h2]

example : (Mat.scalarMult (.base ⟨⟨0, 0, 6⟩, .rowVector ⟨3⟩, .fixed1, .dynamic⟩) (2 : Int)).length =
    some 3 := by decide

end Householder.Props
