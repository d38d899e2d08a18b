import Verif.Props.Exact
import Verif.Props.MatMul

/-!
# C16, C17, C27, C32, C46, C51, C54 exactly: builds without overflow checks

Where these claims are partial, what is missing are builds without overflow checks whose `usize`
arithmetic wraps around. Here it is determined what happens there: which accepted matrices are
unsafe, and what `block` and `split_in_four_mut` do for every argument, inside the matrix and
outside.
-/

namespace Householder.Props

open Spec

variable {α : Type}

/-! ## Arithmetic that wraps around -/

theorem release_add [Target] {cfg : Cfg} (hc : cfg.overflowChecks = false) (a b : Nat) :
    cfg.add a b = .ok ((a + b) % W) := by
  unfold Cfg.add Cfg.wrap
  split
  · rw [Nat.mod_eq_of_lt (by assumption)]
  · simp [hc]

theorem release_mul [Target] {cfg : Cfg} (hc : cfg.overflowChecks = false) (a b : Nat) :
    cfg.mul a b = .ok (a * b % W) := by
  unfold Cfg.mul Cfg.wrap
  split
  · rw [Nat.mod_eq_of_lt (by assumption)]
  · simp [hc]

theorem release_sub [Target] {cfg : Cfg} (hc : cfg.overflowChecks = false) {a b : Nat} (ha : a < W) :
    cfg.sub a b = .ok ((W + a - b) % W) := by
  have hW0 := W_pos
  unfold Cfg.sub
  split
  · congr 1; omega_width
  · simp [hc]

theorem release_major [Target] {cfg : Cfg} (hc : cfg.overflowChecks = false) {l : Layout} (hm : IsMajor l)
    (r c : Nat) : l.convert_2d_raw cfg r c = .ok (raw l r c % W) := by
  cases l <;> simp only [IsMajor] at hm <;>
    simp [Layout.convert_2d_raw, RowMajor.convert_2d_raw, RowMajor.convert_2d_1d,
      ColumnMajor.convert_2d_raw, ColumnMajor.convert_2d_1d,
      ArbitraryStrideRowMajor.convert_2d_raw, ArbitraryStrideColumnMajor.convert_2d_raw,
      release_add hc, release_mul hc, raw]

/-- A position whose raw index is small is converted exactly, however large the matrix is. -/
theorem convert_small [Target] {cfg : Cfg} (hc : cfg.overflowChecks = false) {l : Layout}
    (hl : Contiguous l) (hdim : l.dim.2 < W) {r c : Nat} (hs : Stored l r c)
    (hraw : 2 * raw l r c < W) : l.convert_2d_raw cfg r c = .ok (raw l r c) := by
  have hW0 := W_pos
  cases l with
  | upperTriangular u =>
    obtain ⟨h1, h2, h3⟩ := hs
    have h3 := h3 u rfl
    simp only [Layout.dim] at h1 h2 hdim
    simp only [raw] at hraw ⊢
    have hev : 2 * ((u.dim - r) * (u.dim - r - 1) / 2) = (u.dim - r) * (u.dim - r - 1) := by
      have := two_tri (u.dim - r - 1)
      rw [show u.dim - r - 1 + 1 = u.dim - r by omega, Nat.mul_comm (u.dim - r - 1)] at this
      exact this
    generalize hq : (u.dim - r) * (u.dim - r - 1) / 2 = q at *
    simp only [Layout.convert_2d_raw, UpperTriangular.convert_2d_raw,
      UpperTriangular.convert_2d_1d, UpperTriangular.convert_1d_raw]
    rw [Out.assert_pos h3, Cfg.sub_ok cfg (show r ≤ u.dim by omega)]
    simp only [Out.bind_ok]
    rw [Cfg.sub_ok cfg (show 1 ≤ u.dim - r by omega)]
    simp only [Out.bind_ok]
    rw [Cfg.mul_ok cfg (by omega)]
    simp only [Out.bind_ok, udiv, if_neg (show ¬ (2 = 0) by omega), hq]
    rw [release_add hc]
    simp only [Out.bind_ok]
    rw [release_sub hc (Nat.mod_lt _ (by omega))]
    simp only [Out.bind_ok]
    congr 1
    omega_width
  | rowMajor _ => exact convert_2d_raw_ok cfg hs (by omega) trivial
  | columnMajor _ => exact convert_2d_raw_ok cfg hs (by omega) trivial
  | rowVector _ => exact convert_2d_raw_ok cfg hs (by omega) trivial
  | columnVector _ => exact convert_2d_raw_ok cfg hs (by omega) trivial
  | asRowMajor _ => exact hl.elim
  | asColumnMajor _ => exact hl.elim
  | asRowVector _ => exact hl.elim
  | asColumnVector _ => exact hl.elim

/-- A matrix with more elements than its container has a position that is just beyond the end of
the container, and its index is computed without wrapping. -/
theorem beyond [Target] {cfg : Cfg} (hc : cfg.overflowChecks = false) {l : Layout} (hl : Contiguous l)
    (hdim : l.dim.2 < W) {n : Nat} (hn : n * 4 ≤ isizeMax) (hbig : n < count l) :
    ∃ r c, Stored l r c ∧ raw l r c = n ∧ l.convert_2d_raw cfg r c = .ok n := by
  obtain ⟨r, c, hs, hi⟩ := exists_index hbig
  have hW := small_W hn
  have hr : raw l r c = n := by rw [raw_eq_index hl, hi]
  refine ⟨r, c, hs, hr, ?_⟩
  rw [convert_small hc hl hdim hs (by omega), hr]

/-- Accepted with overflow checks: all elements are there. -/
theorem accepted_cases [Target] {cfg : Cfg} {rs cs : SizeId} {d : Container} {l : Layout} {m : BaseMatrix}
    (h : from_data cfg rs cs d l = .ok m) :
    m = ⟨d, l, rs, cs⟩ ∧ (count l ≤ d.len ∨ (cfg.overflowChecks = false ∧ d.len < count l)) := by
  have hm : m = ⟨d, l, rs, cs⟩ := by
    simp only [from_data, BaseMatrix.new, Out.bind_eq_ok] at h
    obtain ⟨n, -, -, -, h⟩ := h
    exact ((Out.ok.injEq _ _).mp h).symm
  refine ⟨hm, ?_⟩
  cases hc : cfg.overflowChecks with
  | true => exact .inl (from_data_ok h (.inl hc)).2
  | false => exact (Nat.lt_or_ge d.len (count l)).symm.imp id fun h => ⟨rfl, h⟩

/-! ## C16, C17 -/

/-- **C16, exactly**: in every build, the positions of an accepted matrix with a contiguous layout
all lie inside the container if and only if the container has as many elements as the matrix. -/
theorem C16_exact [Target] (cfg : Cfg) (rs cs : SizeId) (d : Container) (l : Layout) (m : BaseMatrix)
    (hl : Contiguous l) (hlen : d.len * 4 ≤ isizeMax) (hdim : l.dim.1 < W ∧ l.dim.2 < W)
    (h : from_data cfg rs cs d l = .ok m) :
    (∀ r c, Stored l r c → ∃ k, l.convert_2d_raw cfg r c = .ok k ∧ k < d.len) ↔
      count l ≤ d.len := by
  obtain ⟨-, hcase⟩ := accepted_cases h
  constructor
  · intro hall
    rcases hcase with h | ⟨hc, hbig⟩
    · exact h
    · obtain ⟨r, c, hs, -, e⟩ := beyond hc hl hdim.2 hlen hbig
      obtain ⟨k, ek, hk⟩ := hall r c hs
      rw [e] at ek
      obtain rfl := (Out.ok.injEq _ _).mp ek
      omega
  · intro hn r c hs
    have hW := small_W hlen
    have ht : TriFits l := tri_fits_of_small (by omega)
    have hlt : raw l r c < count l := by rw [raw_eq_index hl]; exact index_lt hs
    exact ⟨raw l r c, convert_2d_raw_ok cfg hs (by omega) ht, by omega⟩

/-- Which matrices `from_data` accepts in a build without overflow checks: those whose element
count **modulo `W`** is at most the length of the container (for a triangle the product is reduced
before it is halved). -/
theorem C16_acceptance_release [Target] (cfg : Cfg) (hc : cfg.overflowChecks = false) (rs cs : SizeId)
    (d : Container) (l : Layout) :
    from_data cfg rs cs d l =
      if (match l with
        | .upperTriangular u => u.dim * (u.dim + 1) % W / 2
        | .rowVector _ | .columnVector _ | .asRowVector _ | .asColumnVector _ => count l
        | _ => count l % W) ≤ d.len then .ok ⟨d, l, rs, cs⟩ else .panic := by
  apply from_data_eq
  cases l <;> simp [Layout.number_of_elements, RowMajor.number_of_elements,
    ColumnMajor.number_of_elements, RowVector.number_of_elements, ColumnVector.number_of_elements,
    ArbitraryStrideRowMajor.number_of_elements, ArbitraryStrideColumnMajor.number_of_elements,
    ArbitraryStrideRowVector.number_of_elements, ArbitraryStrideColumnVector.number_of_elements,
    UpperTriangular.number_of_elements, count, release_mul hc, release_add hc, udiv]

/-- **C17, exactly**: in every build, safe element access to an accepted matrix with a contiguous
layout is never undefined if and only if the container has as many elements as the matrix. (With
overflow checks it always has, `C16_partial`; without, it may not, `C16_acceptance_release`.) -/
theorem C17_exact [Target] (cfg : Cfg) (rs cs : SizeId) (d : Container) (l : Layout) (m : BaseMatrix)
    (mem : Mem α) (hl : Contiguous l) (hd : ContainerOK d mem)
    (hdim : l.dim.1 < W ∧ l.dim.2 < W) (h : from_data cfg rs cs d l = .ok m) :
    (∀ r c, m.get cfg mem r c ≠ .ub ∧ m.get_mut cfg r c ≠ .ub) ↔ count l ≤ d.len := by
  obtain ⟨hm, hcase⟩ := accepted_cases h
  constructor
  · intro hall
    rcases hcase with h | ⟨hc, hbig⟩
    · exact h
    · obtain ⟨r, c, hs, -, e⟩ := beyond hc hl hdim.2 hd.small hbig
      refine absurd ?_ (hall r c).1
      subst hm
      simp only [BaseMatrix.get, assert_dimension_ok hs.1 hs.2.1, Out.bind_ok,
        BaseMatrix.get_unchecked, e, Container.get_unchecked, if_neg (Nat.lt_irrefl _)]
  · intro hn r c
    have hS : Sound (⟨d, l, rs, cs⟩ : BaseMatrix) mem := sound_of_contiguous hl hd hn
    have hmode : cfg.overflowChecks = true ∨ (count l < W ∧ TriFits l) :=
      .inr ⟨hS.count_lt, hS.triFits⟩
    obtain ⟨hp, -⟩ := C17_partial cfg rs cs d l m mem hl hd hmode h
    by_cases hs : r < l.dim.1 ∧ c < l.dim.2 ∧ (∀ u, l = .upperTriangular u → r ≤ c)
    · obtain ⟨⟨v, e1⟩, p, e2⟩ := (hp r c).1 hs
      rw [e1, e2]; exact ⟨by simp, by simp⟩
    · obtain ⟨e1, e2⟩ := (hp r c).2 hs
      rw [e1, e2]; exact ⟨by simp, by simp⟩

example : from_data rel .dynamic .dynamic ⟨0, 0, 6⟩ (.rowMajor ⟨(2 ^ 63, 2)⟩) =
      .ok ⟨⟨0, 0, 6⟩, .rowMajor ⟨(2 ^ 63, 2)⟩, .dynamic, .dynamic⟩ ∧
    from_data rel .dynamic .dynamic ⟨0, 0, 6⟩ (.upperTriangular ⟨W - 1⟩) =
      .ok ⟨⟨0, 0, 6⟩, .upperTriangular ⟨W - 1⟩, .dynamic, .dynamic⟩ ∧
    BaseMatrix.get rel ⟨⟨0, 0, 6⟩, .rowMajor ⟨(2 ^ 63, 2)⟩, .dynamic, .dynamic⟩ exMem 2 1 =
      .ok 6 ∧
    BaseMatrix.get rel ⟨⟨0, 0, 6⟩, .rowMajor ⟨(2 ^ 63, 2)⟩, .dynamic, .dynamic⟩ exMem 3 0 =
      .ub := by decide +kernel

/-! ## C51 -/

/-- **C51, exactly**: in every build, element access to a matrix that `zeros_from_dim` returned is
never undefined if and only if the matrix needs at most `isize::MAX` bytes. -/
theorem C51_exact [Target] [Zero α] (cfg : Cfg) (k : BaseKind) (rows cols : Nat) (mem mem' : Mem α)
    (m : BaseMatrix) (l : Layout) (hk : k.from_dimension (rows, cols) = .ok l)
    (hl : Contiguous l) (hdim : l.dim.1 < W ∧ l.dim.2 < W)
    (h : zeros_from_dim cfg k rows cols mem = .ok (m, mem')) :
    (∀ r c, m.get cfg mem' r c ≠ .ub ∧ m.get_mut cfg r c ≠ .ub) ↔
      count l * cfg.item.size ≤ isizeMax := by
  have h0 := h
  unfold zeros_from_dim at h
  simp only [hk, Out.bind_ok, Out.bind_eq_ok] at h
  obtain ⟨n, hn, ⟨d, mem1⟩, hv, m1, hf, he⟩ := h
  obtain ⟨rfl, rfl⟩ : m1 = m ∧ mem1 = mem' := by simpa using he
  unfold Container.newVector at hv
  split at hv
  · rename_i hsz
    simp only [Out.ok.injEq, Prod.mk.injEq, Mem.alloc_fst] at hv
    obtain ⟨rfl, rfl⟩ := hv
    have hd : ContainerOK (⟨mem.bufs.length, 0, n⟩ : Container)
        (mem.alloc (List.replicate n 0)).2 :=
      ⟨by simp [Mem.alloc_size_new], four_mul_le hsz⟩
    rw [C17_exact cfg _ _ _ l m1 _ hl hd hdim hf]
    constructor
    · intro hle
      exact le_trans (Nat.mul_le_mul_right _ hle) hsz
    · intro hle
      rw [(zeros_from_dim_ok cfg hk hl hle mem).1] at h0
      simp only [Out.ok.injEq, Prod.mk.injEq] at h0
      have := (accepted_cases hf).1
      rw [this] at h0
      have h1 := h0.1
      simp only [BaseMatrix.mk.injEq, Container.mk.injEq] at h1
      simp only
      omega
  · simp at hv

example : (∃ m mem', zeros_from_dim rel .rowMajor (2 ^ 63) 2 exMem = .ok (m, mem') ∧
    m.get rel mem' 0 0 = .ub) ∧ zeros_from_dim dbg .rowMajor (2 ^ 63) 2 exMem = .panic :=
  ⟨⟨⟨⟨2, 0, 0⟩, .rowMajor ⟨(2 ^ 63, 2)⟩, .dynamic, .dynamic⟩, ⟨exMem.bufs ++ [[]]⟩, by decide,
    by decide⟩, by decide⟩

/-! ## C46 -/

/-- **C46, exactly**: in every build, the addresses that the kernel gets for an accepted operand
all lie in the operand's container if and only if the container has as many elements as the
matrix. -/
theorem C46_exact [Target] (cfg : Cfg) (rs cs : SizeId) (d : Container) (l : Layout) (m : BaseMatrix)
    (s : Nat × Nat) (hl : IsMajor l ∨ (∃ v, l = .rowVector v) ∨ ∃ v, l = .columnVector v)
    (hlen : d.len * 4 ≤ isizeMax) (h : from_data cfg rs cs d l = .ok m)
    (hs : m.layout.stride = .ok s) :
    (∀ i j, i < l.dim.1 → j < l.dim.2 →
      0 ≤ kernelAddress s i j ∧ kernelAddress s i j < d.len) ↔ count l ≤ d.len := by
  have hW := small_W hlen
  constructor
  · intro hall
    by_contra hbig
    obtain ⟨r, c, hst, hi⟩ := exists_index (l := l) (k := d.len) (by omega)
    obtain ⟨h1, h2, -⟩ := hst
    have hmul : ∀ x y : Nat, x * y ≤ d.len → (x : Int) * asIsize y = ((x * y : Nat) : Int) := by
      intro x y hxy
      rcases Nat.eq_zero_or_pos x with rfl | hx
      · simp
      · have : y ≤ x * y := Nat.le_mul_of_pos_left y hx
        rw [asIsize_of_le (by omega)]
        push_cast
        rfl
    have h1' : asIsize 1 = 1 := by
      have := isizeMax_ge
      simp [asIsize, show 1 ≤ isizeMax by omega]
    have hm := (accepted_cases h).1
    subst hm
    have := (hall r c h1 h2).2
    have haddr : kernelAddress s r c = d.len := by
      rcases hl with hl | ⟨v, rfl⟩ | ⟨v, rfl⟩
      · cases l <;> simp only [IsMajor] at hl <;>
          simp only [Layout.stride, RowMajor.stride, ColumnMajor.stride,
            ArbitraryStrideRowMajor.stride_fn, ArbitraryStrideColumnMajor.stride_fn,
            Out.ok.injEq] at hs <;>
          subst hs <;> simp only [index] at hi <;> simp only [kernelAddress, h1']
        · rw [hmul _ _ (by omega), ← hi]; push_cast; ring
        · rw [hmul _ _ (by omega), ← hi]; push_cast; ring
        · rw [hmul _ _ (by omega), ← hi]; push_cast; ring
        · rw [hmul _ _ (by omega), ← hi]; push_cast; ring
      · simp only [Layout.stride, RowVector.stride, Out.ok.injEq] at hs
        subst hs
        simp only [Layout.dim] at h1
        simp only [index] at hi
        simp only [kernelAddress, h1']
        obtain rfl : r = 0 := by omega
        simp [hi]
      · simp only [Layout.stride, ColumnVector.stride, Out.ok.injEq] at hs
        subst hs
        simp only [Layout.dim] at h2
        simp only [index] at hi
        simp only [kernelAddress, h1']
        obtain rfl : c = 0 := by omega
        simp [hi]
    omega
  · intro hn i j hi hj
    exact C46_partial cfg rs cs d l m s hl hlen (.inr (by omega)) h hs i j hi hj

/-! ## C54 -/

/-- **C54, exactly**: in every build, the slice that `from_pointer` makes for a non-empty strided
matrix contains all its elements if and only if the size of the memory they span fits in `usize`;
likewise for contiguous layouts and their number of elements. -/
theorem C54_exact [Target] (cfg : Cfg) (p : Ptr) (d s : Nat × Nat) (b : BaseMatrix) (h1 : 1 ≤ d.1)
    (h2 : 1 ≤ d.2) :
    (∀ l, l = .asRowMajor ⟨d, s⟩ ∨ l = .asColumnMajor ⟨d, s⟩ →
      from_pointer_strided cfg p d l = .ok b →
      ((∀ i j, i < d.1 → j < d.2 → raw l i j < b.data.len) ↔
        (d.1 - 1) * s.1 + (d.2 - 1) * s.2 + 1 < W)) ∧
    (∀ l, l = .rowMajor ⟨d⟩ ∨ l = .columnMajor ⟨d⟩ → from_pointer cfg p d l = .ok b →
      ((∀ i j, i < d.1 → j < d.2 → raw l i j < b.data.len) ↔ d.1 * d.2 < W)) := by
  have hlen : ∀ {n : Nat} {l : Layout}, (p.from_raw_parts n >>= fun data =>
      from_data cfg .dynamic .dynamic data l) = .ok b → b.data.len = n := by
    intro n l h
    obtain ⟨c, hc, hb⟩ := (Out.bind_eq_ok ..).1 h
    have := (accepted_cases hb).1
    subst this
    unfold Ptr.from_raw_parts at hc
    split at hc
    · rw [← (Out.ok.injEq _ _).mp hc]
    · simp at hc
  have hwrap : ∀ {v n : Nat}, cfg.wrap v = .ok n → n < W := by
    intro v n h
    unfold Cfg.wrap at h
    split at h
    · obtain rfl := (Out.ok.injEq _ _).mp h; assumption
    · split at h
      · simp at h
      · obtain rfl := (Out.ok.injEq _ _).mp h; exact Nat.mod_lt _ W_pos
  refine ⟨fun l hl h => ⟨fun hall => ?_, fun hsmall i j hi hj => ?_⟩,
    fun l hl h => ⟨fun hall => ?_, fun hsmall i j hi hj => ?_⟩⟩
  · have h' := h
    unfold from_pointer_strided at h'
    simp only [Cfg.sub_ok cfg h1, Cfg.sub_ok cfg h2, Out.bind_ok] at h'
    obtain ⟨k, -, h'⟩ := (Out.bind_eq_ok ..).1 h'
    obtain ⟨n, hn, h'⟩ := (Out.bind_eq_ok ..).1 h'
    have hb := hlen h'
    have hlt := hwrap hn
    have hlast := hall (d.1 - 1) (d.2 - 1) (by omega) (by omega)
    have hraw : raw l (d.1 - 1) (d.2 - 1) = (d.1 - 1) * s.1 + (d.2 - 1) * s.2 := by
      rcases hl with rfl | rfl <;> simp only [raw] <;> ring
    omega
  · have := ((C54_partial cfg p d s h1 h2).1 l b hl (.inr hsmall) h).2.2.2.1 i j
    apply this
    rcases hl with rfl | rfl <;> exact ⟨hi, hj, by simp⟩
  · have h' := h
    unfold from_pointer at h'
    obtain ⟨n, hn, h'⟩ := (Out.bind_eq_ok ..).1 h'
    have hb := hlen h'
    have hlt := hwrap hn
    have hlast := hall (d.1 - 1) (d.2 - 1) (by omega) (by omega)
    have hraw : raw l (d.1 - 1) (d.2 - 1) + 1 = d.1 * d.2 := by
      obtain ⟨a, ha⟩ : ∃ a, d.1 = a + 1 := ⟨d.1 - 1, by omega⟩
      obtain ⟨c, hc⟩ : ∃ c, d.2 = c + 1 := ⟨d.2 - 1, by omega⟩
      rcases hl with rfl | rfl <;> simp only [raw, ha, hc, Nat.add_sub_cancel] <;> ring
    have hne : d.1 * d.2 ≠ W := by
      intro he
      have : n = 0 := by
        unfold Cfg.mul Cfg.wrap at hn
        rw [he, if_neg (by omega)] at hn
        split at hn
        · simp at hn
        · simpa using hn.symm
      omega
    omega
  · have := ((C54_partial cfg p d s h1 h2).2 l b hl (.inr hsmall) h).2.2.2.1 i j
    apply this
    rcases hl with rfl | rfl <;> exact ⟨hi, hj, by simp⟩

example : from_pointer_strided rel ⟨⟨0, 0, 6⟩, 0⟩ (2, 2) (.asRowMajor ⟨(2, 2), (3, 1)⟩) =
      .ok ⟨⟨0, 0, 5⟩, .asRowMajor ⟨(2, 2), (3, 1)⟩, .dynamic, .dynamic⟩ ∧
    from_pointer_strided rel ⟨⟨0, 0, 6⟩, 0⟩ (2, 2) (.asRowMajor ⟨(2, 2), (2 ^ 63, 2 ^ 63 + 3)⟩) =
      .ok ⟨⟨0, 0, 4⟩, .asRowMajor ⟨(2, 2), (2 ^ 63, 2 ^ 63 + 3)⟩, .dynamic, .dynamic⟩ := by
  decide +kernel

/-! ## C27 -/

/-- The number of cells spanned by `d` rows and columns at distances `s`, modulo `W`:
`1 + s.1 * (d.1 - 1) + s.2 * (d.2 - 1)`, also for an empty `d`. -/
def wrappedExtent [Target] (s d : Nat × Nat) : Nat := (s.1 * (W + d.1 - 1) + s.2 * (W + d.2 - 1) + 1) % W

/-- **C27 in builds without overflow checks, exactly**: the outcome of `block` for every corner and
every dimension. The bounds are checked modulo `W`, and so is everything else; in particular a
corner "to the left of column 0" gets through and returns a block that starts in the row above
(see the example), and most wrapping requests are undefined. -/
theorem C27_release [Target] (cfg : Cfg) (hc : cfg.overflowChecks = false) (m : BaseMatrix)
    (hm : IsMajor m.layout) (tl d : Nat × Nat) (hd : d.1 < W ∧ d.2 < W) :
    m.block cfg tl d =
      if (tl.1 + d.1) % W ≤ m.layout.dim.1 ∧ (tl.2 + d.2) % W ≤ m.layout.dim.2 then
        if raw m.layout tl.1 tl.2 % W + wrappedExtent (tight m.layout) d ≤ m.data.len then
          if d.1 * d.2 % W ≤ wrappedExtent (tight m.layout) d then
            .ok ⟨⟨m.data.buf, m.data.off + raw m.layout tl.1 tl.2 % W,
              wrappedExtent (tight m.layout) d⟩, blockLayout m.layout d, .dynamic, .dynamic⟩
          else .panic
        else .ub
      else .panic := by
  unfold BaseMatrix.block
  rw [release_add hc, release_add hc]
  simp only [Out.bind_ok]
  by_cases hf : (tl.1 + d.1) % W ≤ m.layout.dim.1 ∧ (tl.2 + d.2) % W ≤ m.layout.dim.2
  · rw [Out.assert_pos hf, if_pos hf, Out.bind_ok, release_major hc hm, Out.bind_ok]
    unfold BaseMatrix.get_pointer Container.get_pointer Ptr.add
    by_cases hs : raw m.layout tl.1 tl.2 % W ≤ m.data.len
    · rw [if_pos (by simpa using hs)]
      simp only [Out.bind_ok, stride_tight hm, strideLayout_eq hm, Nat.zero_add]
      unfold from_pointer_strided
      rw [release_sub hc hd.1, release_sub hc hd.2]
      simp only [Out.bind_ok]
      rw [release_major hc (blockLayout_major _ _), Out.bind_ok, release_add hc, Out.bind_ok]
      have hn : (raw (blockLayout m.layout d) ((W + d.1 - 1) % W) ((W + d.2 - 1) % W) % W + 1) % W =
          wrappedExtent (tight m.layout) d := by
        rw [raw_steps (blockLayout_major _ _), blockLayout_steps]
        simp [wrappedExtent, Nat.add_mod, Nat.mul_mod]
      rw [hn]
      unfold Ptr.from_raw_parts
      by_cases hk : raw m.layout tl.1 tl.2 % W + wrappedExtent (tight m.layout) d ≤ m.data.len
      · rw [if_pos hk, if_pos (by omega), Out.bind_ok]
        rw [from_data_eq cfg _ _ _ _ (n := d.1 * d.2 % W) (by
          have := blockLayout_major m.layout d
          have hdim := blockLayout_dim m.layout d
          revert this hdim
          generalize blockLayout m.layout d = l
          intro h1 h2
          cases l <;> simp only [IsMajor] at h1 <;> simp only [Layout.dim] at h2 <;>
            simp [Layout.number_of_elements, RowMajor.number_of_elements,
              ColumnMajor.number_of_elements, ArbitraryStrideRowMajor.number_of_elements,
              ArbitraryStrideColumnMajor.number_of_elements, release_mul hc, h2])]
      · rw [if_neg hk, if_neg (by omega)]; rfl
    · rw [if_neg (by simpa using hs), if_neg (by omega)]; rfl
  · rw [Out.assert_neg hf, if_neg hf]; rfl

/-- In a release build, a 3 × 4 matrix gives out a 1 × 2 block at row 1, column "-1": the last
element of row 0 and the first of row 1. With overflow checks the same call panics. -/
def exTwelve : BaseMatrix := ⟨⟨0, 0, 12⟩, .rowMajor ⟨(3, 4)⟩, .dynamic, .dynamic⟩

example : exTwelve.block rel (1, W - 1) (1, 2) =
      .ok ⟨⟨0, 3, 2⟩, .asRowMajor ⟨(1, 2), (4, 1)⟩, .dynamic, .dynamic⟩ ∧
    exTwelve.block dbg (1, W - 1) (1, 2) = .panic ∧
    exTwelve.block rel (W - 1, 1) (2, 1) = .ub := by decide +kernel

/-- Whatever the corner, the elements of a non-empty block that a release build returns are all
inside its window, hence inside the matrix, if and only if the memory they span fits in
`usize`. -/
theorem C27_release_inside [Target] (cfg : Cfg) (hc : cfg.overflowChecks = false) (m b : BaseMatrix)
    (hm : IsMajor m.layout) (tl d : Nat × Nat) (hd : d.1 < W ∧ d.2 < W) (h1 : 1 ≤ d.1)
    (h2 : 1 ≤ d.2) (hb : m.block cfg tl d = .ok b) :
    (∀ i j, i < d.1 → j < d.2 → raw b.layout i j < b.data.len) ↔
      (tight m.layout).1 * (d.1 - 1) + (tight m.layout).2 * (d.2 - 1) + 1 < W := by
  have hW0 := W_pos
  rw [C27_release cfg hc m hm tl d hd] at hb
  split at hb
  · split at hb
    · split at hb
      · obtain rfl := (Out.ok.injEq _ _).mp hb
        simp only [raw_steps (blockLayout_major _ _), blockLayout_steps]
        have he : wrappedExtent (tight m.layout) d =
            ((tight m.layout).1 * (d.1 - 1) + (tight m.layout).2 * (d.2 - 1) + 1) % W := by
          unfold wrappedExtent
          rw [show W + d.1 - 1 = (d.1 - 1) + W by omega, show W + d.2 - 1 = (d.2 - 1) + W by omega,
            Nat.mul_add, Nat.mul_add]
          rw [show (tight m.layout).1 * (d.1 - 1) + (tight m.layout).1 * W +
              ((tight m.layout).2 * (d.2 - 1) + (tight m.layout).2 * W) + 1 =
            (tight m.layout).1 * (d.1 - 1) + (tight m.layout).2 * (d.2 - 1) + 1 +
              ((tight m.layout).1 + (tight m.layout).2) * W by ring, Nat.add_mul_mod_self_right]
        rw [he]
        constructor
        · intro hall
          have := hall (d.1 - 1) (d.2 - 1) (by omega) (by omega)
          have hlt := Nat.mod_lt ((tight m.layout).1 * (d.1 - 1) +
            (tight m.layout).2 * (d.2 - 1) + 1) (show W > 0 by omega)
          by_contra hge
          have heq : (tight m.layout).1 * (d.1 - 1) + (tight m.layout).2 * (d.2 - 1) + 1 = W := by
            omega
          rw [heq, Nat.mod_self] at this
          omega
        · intro hlt i j hi hj
          rw [Nat.mod_eq_of_lt hlt]
          have e1 : (tight m.layout).1 * i ≤ (tight m.layout).1 * (d.1 - 1) :=
            Nat.mul_le_mul_left _ (by omega)
          have e2 : (tight m.layout).2 * j ≤ (tight m.layout).2 * (d.2 - 1) :=
            Nat.mul_le_mul_left _ (by omega)
          omega
      · simp at hb
    · simp at hb
  · simp at hb

theorem wrapped_row [Target] {R C : Nat} (hC : C < W) {d : Nat × Nat} (hd : d.1 ≤ R ∧ d.2 ≤ C)
    (h0 : d.1 = 0 ∨ d.2 = 0) (hlen : R * C < W) :
    (d.1 = 0 ∧ d.2 < C → wrappedExtent (C, 1) d = W - (C - d.2)) ∧
    (¬ (d.1 = 0 ∧ d.2 < C) → wrappedExtent (C, 1) d = C * (d.1 - 1)) := by
  have hW0 := W_pos
  unfold wrappedExtent
  simp only [Nat.one_mul]
  constructor
  · rintro ⟨e, h⟩
    rw [e]
    omega_width
  · intro h
    rcases Nat.eq_zero_or_pos d.1 with e | e
    · rw [e]
      omega_width
    · have e2 : d.2 = 0 := by omega
      have h3 : C * (d.1 - 1) ≤ C * R := Nat.mul_le_mul_left _ (by omega)
      have h4 : C * (W + d.1 - 1) = C * W + C * (d.1 - 1) := by
        rw [← Nat.mul_add]; congr 1; omega
      rw [Nat.mul_comm] at hlen
      rw [h4, e2]
      generalize C * (d.1 - 1) = y at *
      generalize C * R = z at *
      omega_width

/-- **Empty blocks in builds without overflow checks, exactly**: an empty block of a row-major
matrix that fits is undefined if it has no rows and is narrower than the matrix; otherwise it is a
block without elements. (`C ≤ isizeMax` follows from `Sound` unless the matrix has no rows.) (With overflow checks it panics or is undefined, `C27_empty`.) -/
theorem C27_release_empty [Target] (cfg : Cfg) (hc : cfg.overflowChecks = false) (m : BaseMatrix)
    (mem : Mem α) (h : Sound m mem) (R C : Nat) (hl : m.layout = .rowMajor ⟨(R, C)⟩)
    (hdim : R < W ∧ C ≤ isizeMax) (tl d : Nat × Nat) (hf : Fits m.layout tl d)
    (h0 : d.1 = 0 ∨ d.2 = 0) :
    m.block cfg tl d =
      if d.1 = 0 ∧ d.2 < C then .ub
      else .ok ⟨⟨m.data.buf, m.data.off + raw m.layout tl.1 tl.2, C * (d.1 - 1)⟩,
        .asRowMajor ⟨d, (C, 1)⟩, .dynamic, .dynamic⟩ := by
  have hW0 := W_eq
  have hI0 := isizeMax_ge
  have hW := small_W h.container.small
  have hm : IsMajor m.layout := by rw [hl]; trivial
  have hcount : R * C ≤ m.data.len := by have := h.count_le; rw [hl] at this; exact this
  rw [hl] at hf
  obtain ⟨hf1, hf2⟩ := hf
  simp only [Layout.dim] at hf1 hf2
  have e1 : m.layout.dim = (R, C) := by rw [hl]; rfl
  have e2 : tight m.layout = (C, 1) := by rw [hl]; rfl
  have e3 : raw m.layout tl.1 tl.2 = tl.1 * C + tl.2 := by rw [hl]; rfl
  have e4 : blockLayout m.layout d = .asRowMajor ⟨d, (C, 1)⟩ := by rw [hl]; rfl
  have e5 : (tl.1 + d.1) % W ≤ (R, C).1 ∧ (tl.2 + d.2) % W ≤ (R, C).2 := by
    rw [Nat.mod_eq_of_lt (by omega), Nat.mod_eq_of_lt (by omega)]; exact ⟨hf1, hf2⟩
  rw [C27_release cfg hc m hm tl d ⟨by omega, by omega⟩, e1, e2, e3, e4, if_pos e5]
  obtain ⟨w1, w2⟩ := wrapped_row (by omega : C < W) ⟨by omega, by omega⟩ h0 (by omega : R * C < W)
  by_cases hbad : d.1 = 0 ∧ d.2 < C
  · rw [if_pos hbad, w1 hbad, if_neg]
    omega
  · rw [if_neg hbad, w2 hbad]
    have hin : tl.1 * C + tl.2 + C * (d.1 - 1) ≤ R * C := by
      rcases Nat.eq_zero_or_pos d.1 with e | e
      · have e2 : d.2 = C := by omega
        have : tl.1 * C ≤ R * C := Nat.mul_le_mul_right _ (by omega)
        rw [e]; simp only [Nat.zero_sub, Nat.mul_zero]; omega
      · have h1 : (tl.1 + (d.1 - 1) + 1) * C ≤ R * C := Nat.mul_le_mul_right _ (by omega)
        have h2 : (tl.1 + (d.1 - 1) + 1) * C = tl.1 * C + C * (d.1 - 1) + C := by ring
        omega
    rw [Nat.mod_eq_of_lt (by omega : tl.1 * C + tl.2 < W), if_pos (by omega), if_pos]
    have : d.1 * d.2 = 0 := by rcases h0 with h0 | h0 <;> simp [h0]
    rw [this]; simp

example : exTwelve.block rel (1, 1) (0, 2) = .ub ∧
    exTwelve.block rel (1, 0) (0, 4) =
      .ok ⟨⟨0, 4, 0⟩, .asRowMajor ⟨(0, 4), (4, 1)⟩, .dynamic, .dynamic⟩ ∧
    exTwelve.block rel (0, 4) (3, 0) =
      .ok ⟨⟨0, 4, 8⟩, .asRowMajor ⟨(3, 0), (4, 1)⟩, .dynamic, .dynamic⟩ ∧
    exTwelve.block dbg (0, 4) (3, 0) = .panic := by decide +kernel

/-- The same for column-major matrices: undefined if the block has no columns and is lower than the
matrix. -/
theorem C27_release_empty_column [Target] (cfg : Cfg) (hc : cfg.overflowChecks = false) (m : BaseMatrix)
    (mem : Mem α) (h : Sound m mem) (R C : Nat) (hl : m.layout = .columnMajor ⟨(R, C)⟩)
    (hdim : R ≤ isizeMax ∧ C < W) (tl d : Nat × Nat) (hf : Fits m.layout tl d)
    (h0 : d.1 = 0 ∨ d.2 = 0) :
    m.block cfg tl d =
      if d.2 = 0 ∧ d.1 < R then .ub
      else .ok ⟨⟨m.data.buf, m.data.off + raw m.layout tl.1 tl.2, R * (d.2 - 1)⟩,
        .asColumnMajor ⟨d, (1, R)⟩, .dynamic, .dynamic⟩ := by
  have hW0 := W_eq
  have hI0 := isizeMax_ge
  have hW := small_W h.container.small
  have hm : IsMajor m.layout := by rw [hl]; trivial
  have hcount : C * R ≤ m.data.len := by
    have := h.count_le; rw [hl] at this; rw [Nat.mul_comm]; exact this
  rw [hl] at hf
  obtain ⟨hf1, hf2⟩ := hf
  simp only [Layout.dim] at hf1 hf2
  have e1 : m.layout.dim = (R, C) := by rw [hl]; rfl
  have e2 : tight m.layout = (1, R) := by rw [hl]; rfl
  have e3 : raw m.layout tl.1 tl.2 = tl.2 * R + tl.1 := by rw [hl]; rfl
  have e4 : blockLayout m.layout d = .asColumnMajor ⟨d, (1, R)⟩ := by rw [hl]; rfl
  have e5 : (tl.1 + d.1) % W ≤ (R, C).1 ∧ (tl.2 + d.2) % W ≤ (R, C).2 := by
    rw [Nat.mod_eq_of_lt (by omega), Nat.mod_eq_of_lt (by omega)]; exact ⟨hf1, hf2⟩
  have e6 : wrappedExtent (1, R) d = wrappedExtent (R, 1) (d.2, d.1) := by
    unfold wrappedExtent; congr 1; simp only; omega
  rw [C27_release cfg hc m hm tl d ⟨by omega, by omega⟩, e1, e2, e3, e4, if_pos e5, e6]
  obtain ⟨w1, w2⟩ := wrapped_row (R := C) (d := (d.2, d.1)) (by omega : R < W)
    ⟨by simp only; omega, by simp only; omega⟩ h0.symm (by omega : C * R < W)
  by_cases hbad : d.2 = 0 ∧ d.1 < R
  · rw [if_pos hbad, w1 hbad, if_neg]
    simp only
    omega
  · rw [if_neg hbad, w2 hbad]
    have hin : tl.2 * R + tl.1 + R * (d.2 - 1) ≤ C * R := by
      rcases Nat.eq_zero_or_pos d.2 with e | e
      · have e2 : d.1 = R := by omega
        have : tl.2 * R ≤ C * R := Nat.mul_le_mul_right _ (by omega)
        rw [e]; simp only [Nat.zero_sub, Nat.mul_zero]; omega
      · have h1 : (tl.2 + (d.2 - 1) + 1) * R ≤ C * R := Nat.mul_le_mul_right _ (by omega)
        have h2 : (tl.2 + (d.2 - 1) + 1) * R = tl.2 * R + R * (d.2 - 1) + R := by ring
        omega
    rw [Nat.mod_eq_of_lt (by omega : tl.2 * R + tl.1 < W), if_pos (by simp only; omega), if_pos]
    have : d.1 * d.2 = 0 := by rcases h0 with h0 | h0 <;> simp [h0]
    rw [this]; simp

example : exCol.block rel (0, 1) (1, 0) = .ub ∧
    exCol.block rel (0, 1) (2, 0) =
      .ok ⟨⟨1, 3, 0⟩, .asColumnMajor ⟨(2, 0), (1, 2)⟩, .dynamic, .dynamic⟩ := by decide +kernel

/-! ## C32 -/

/-- A block, computed the way `split_in_four_mut` does. -/
theorem block_offset [Target] (cfg : Cfg) {m : BaseMatrix} {R C : Nat} (hl : m.layout = .rowMajor ⟨(R, C)⟩)
    (hdim : R < W ∧ C < W) {tl d : Nat × Nat} (h1 : tl.1 + d.1 ≤ R) (h2 : tl.2 + d.2 ≤ C)
    (hraw : tl.1 * C + tl.2 ≤ isizeMax) :
    ((Ptr.mk m.data 0).offset (asIsize (tl.1 * C + tl.2)) >>= fun p =>
      from_pointer_strided cfg p d (.asRowMajor ⟨d, (C, 1)⟩)) = m.block cfg tl d := by
  have hW0 := W_eq
  have hI0 := isizeMax_ge
  have hm : IsMajor m.layout := by rw [hl]; trivial
  have e1 : m.layout.dim = (R, C) := by rw [hl]; rfl
  have e3 : m.layout.convert_2d_raw cfg tl.1 tl.2 = .ok (tl.1 * C + tl.2) := by
    rw [hl]
    simp [Layout.convert_2d_raw, RowMajor.convert_2d_raw, RowMajor.convert_2d_1d,
      Cfg.mul_ok cfg (show tl.1 * C < W by omega),
      Cfg.add_ok cfg (show tl.1 * C + tl.2 < W by omega)]
  have e4 : m.layout.stride = .ok (C, 1) := by rw [hl]; rfl
  have e5 : BaseMatrix.strideLayout m.layout d (C, 1) = some (.asRowMajor ⟨d, (C, 1)⟩) := by
    rw [hl]; rfl
  unfold BaseMatrix.block
  rw [Cfg.add_ok cfg (by omega), Cfg.add_ok cfg (by omega)]
  simp only [Out.bind_ok]
  rw [Out.assert_pos (by rw [e1]; exact ⟨h1, h2⟩), Out.bind_ok, e3, Out.bind_ok, e4]
  simp only [Out.bind_ok, e5, BaseMatrix.get_pointer, Container.get_pointer]
  by_cases hlen : tl.1 * C + tl.2 ≤ m.data.len
  · rw [offset_ok hraw (by simp only; omega)]
    unfold Ptr.add
    rw [if_pos (by simpa using hlen)]
  · have e6 : (Ptr.mk m.data 0).offset (asIsize (tl.1 * C + tl.2)) = .ub := by
      rw [asIsize_of_le hraw]
      unfold Ptr.offset
      rw [if_neg]
      simp only
      omega
    rw [e6]
    unfold Ptr.add
    rw [if_neg (by simpa using hlen)]

/-- In every build, splitting at a point inside the matrix or on its border makes the four blocks
one after the other. -/
theorem split_as_blocks [Target] (cfg : Cfg) {m : BaseMatrix} {mem : Mem α} (h : Sound m mem) {R C : Nat}
    (hl : m.layout = .rowMajor ⟨(R, C)⟩) (hR : 1 ≤ R) (hC : 1 ≤ C) {s : Nat × Nat}
    (h1 : s.1 ≤ R) (h2 : s.2 ≤ C) :
    m.split_in_four_mut cfg s = (do
      let b0 ← m.block cfg (0, 0) s
      let b1 ← m.block cfg (0, s.2) (s.1, C - s.2)
      let b2 ← m.block cfg (s.1, 0) (R - s.1, s.2)
      let b3 ← m.block cfg s (R - s.1, C - s.2)
      return (b0, b1, b2, b3)) := by
  have hW0 := W_eq
  have hI0 := isizeMax_ge
  have hsm := h.container.small
  have hcount : R * C ≤ m.data.len := by have := h.count_le; rw [hl] at this; exact this
  have hCR : C ≤ R * C := Nat.le_mul_of_pos_left C hR
  have hRC : R ≤ R * C := Nat.le_mul_of_pos_right R hC
  have hs1 : s.1 * C ≤ R * C := Nat.mul_le_mul_right _ h1
  have hdim : R < W ∧ C < W := by omega
  have conv : ∀ r c, r * C + c < W → RowMajor.convert_2d_raw cfg ⟨(R, C)⟩ r c =
      .ok (r * C + c) := by
    intro r c hrc
    simp [RowMajor.convert_2d_raw, RowMajor.convert_2d_1d, Cfg.mul_ok cfg (show r * C < W by omega),
      Cfg.add_ok cfg hrc]
  rw [← block_offset cfg hl hdim (tl := (0, 0)) (d := s) (by simp only; omega) (by simp only; omega)
      (by simp),
    ← block_offset cfg hl hdim (tl := (0, s.2)) (d := (s.1, C - s.2)) (by simp only; omega)
      (by simp only; omega) (by simp only; omega),
    ← block_offset cfg hl hdim (tl := (s.1, 0)) (d := (R - s.1, s.2)) (by simp only; omega)
      (by simp only; omega) (by simp only; omega),
    ← block_offset cfg hl hdim (tl := s) (d := (R - s.1, C - s.2)) (by simp only; omega)
      (by simp only; omega) (by omega)]
  unfold BaseMatrix.split_in_four_mut
  rw [hl]
  simp only [Layout.dim, Layout.stride, RowMajor.stride, Out.bind_ok, Cfg.sub_ok cfg h1,
    Cfg.sub_ok cfg h2, Layout.convert_2d_raw, conv 0 0 (by omega), conv 0 s.2 (by omega),
    conv s.1 0 (by omega), conv s.1 s.2 (by omega), Out.bind_assoc', BaseMatrix.get_pointer,
    Container.get_pointer]

/-- **C32 in builds without overflow checks, exactly** for split points inside the matrix or on its
border: undefined if the split is above the first row or below the last; otherwise, also at the
left and right border, the four blocks (some of them without elements). Split points outside the
matrix: `C32_release_outside`. -/
theorem C32_release [Target] (cfg : Cfg) (hc : cfg.overflowChecks = false) (m : BaseMatrix) (mem : Mem α)
    (h : Sound m mem) (R C : Nat) (hl : m.layout = .rowMajor ⟨(R, C)⟩) (hR : 1 ≤ R) (hC : 1 ≤ C)
    (s : Nat × Nat) (h1 : s.1 ≤ R) (h2 : s.2 ≤ C) :
    (s.1 = 0 ∨ s.1 = R → m.split_in_four_mut cfg s = .ub) ∧
    (0 < s.1 → s.1 < R → ∃ b0 b1 b2 b3, m.split_in_four_mut cfg s = .ok (b0, b1, b2, b3) ∧
      m.block cfg (0, 0) s = .ok b0 ∧ m.block cfg (0, s.2) (s.1, C - s.2) = .ok b1 ∧
      m.block cfg (s.1, 0) (R - s.1, s.2) = .ok b2 ∧
      m.block cfg s (R - s.1, C - s.2) = .ok b3) := by
  have hW0 := W_eq
  have hI0 := isizeMax_ge
  have hsm := h.container.small
  have hcount : R * C ≤ m.data.len := by have := h.count_le; rw [hl] at this; exact this
  have hCR : C ≤ R * C := Nat.le_mul_of_pos_left C hR
  have hRC : R ≤ R * C := Nat.le_mul_of_pos_right R hC
  have hm : IsMajor m.layout := by rw [hl]; trivial
  have hv : View m mem := view_of_contiguous h hm (by rw [hl]; trivial)
  have hfits : ∀ tl d : Nat × Nat, tl.1 + d.1 ≤ R → tl.2 + d.2 ≤ C → Fits m.layout tl d := by
    intro tl d h1 h2; rw [Fits, hl]; exact ⟨h1, h2⟩
  have hempty : ∀ tl d : Nat × Nat, tl.1 + d.1 ≤ R → tl.2 + d.2 ≤ C → d.1 = 0 → d.2 < C →
      m.block cfg tl d = .ub := by
    intro tl d a b e1 e2
    rw [C27_release_empty cfg hc m mem h R C hl ⟨by omega, by omega⟩ tl d (hfits tl d a b)
      (.inl e1), if_pos ⟨e1, e2⟩]
  have hok : ∀ tl d : Nat × Nat, tl.1 + d.1 ≤ R → tl.2 + d.2 ≤ C → (d.1 = 0 → d.2 = C) →
      ∃ b, m.block cfg tl d = .ok b := by
    intro tl d a b e
    by_cases hd : d.1 = 0 ∨ d.2 = 0
    · exact ⟨_, by rw [C27_release_empty cfg hc m mem h R C hl ⟨by omega, by omega⟩ tl d
        (hfits tl d a b) hd, if_neg (fun hh => by have := e hh.1; omega)]⟩
    · obtain ⟨b, e, -⟩ := hv.block cfg (hfits tl d a b) (by omega) (by omega)
      exact ⟨b, e⟩
  rw [split_as_blocks cfg h hl hR hC h1 h2]
  constructor
  · rintro (e | e)
    · by_cases e2 : s.2 < C
      · rw [hempty (0, 0) s (by simp only; omega) (by simp only; omega) e e2]; rfl
      · obtain ⟨b0, f0⟩ := hok (0, 0) s (by simp only; omega) (by simp only; omega)
          (fun _ => by omega)
        rw [f0, Out.bind_ok, hempty (0, s.2) (s.1, C - s.2) (by simp only; omega)
          (by simp only; omega) e (by simp only; omega)]
        rfl
    · obtain ⟨b0, f0⟩ := hok (0, 0) s (by simp only; omega) (by simp only; omega)
        (fun _ => by omega)
      obtain ⟨b1, f1⟩ := hok (0, s.2) (s.1, C - s.2) (by simp only; omega) (by simp only; omega)
        (fun hh => by simp only at hh; omega)
      rw [f0, Out.bind_ok, f1, Out.bind_ok]
      by_cases e2 : s.2 < C
      · rw [hempty (s.1, 0) (R - s.1, s.2) (by simp only; omega) (by simp only; omega)
          (by simp only; omega) e2]
        rfl
      · obtain ⟨b2, f2⟩ := hok (s.1, 0) (R - s.1, s.2) (by simp only; omega) (by simp only; omega)
          (fun _ => by simp only; omega)
        rw [f2, Out.bind_ok, hempty s (R - s.1, C - s.2) (by simp only; omega)
          (by simp only; omega) (by simp only; omega) (by simp only; omega)]
        rfl
  · intro h3 h4
    obtain ⟨b0, f0⟩ := hok (0, 0) s (by simp only; omega) (by simp only; omega)
      (fun _ => by omega)
    obtain ⟨b1, f1⟩ := hok (0, s.2) (s.1, C - s.2) (by simp only; omega) (by simp only; omega)
      (fun hh => by simp only at hh; omega)
    obtain ⟨b2, f2⟩ := hok (s.1, 0) (R - s.1, s.2) (by simp only; omega) (by simp only; omega)
      (fun hh => by simp only at hh; omega)
    obtain ⟨b3, f3⟩ := hok s (R - s.1, C - s.2) (by simp only; omega) (by simp only; omega)
      (fun hh => by simp only at hh; omega)
    exact ⟨b0, b1, b2, b3, by rw [f0, f1, f2, f3]; rfl, f0, f1, f2, f3⟩

/-- A view with more rows or columns than its window has cells: a safe access leaves the window. -/
theorem oversized_part [Target] {cfg : Cfg} (hc : cfg.overflowChecks = false) {v : BaseMatrix}
    (mem : Mem α) {a b C : Nat} (hl : v.layout = .asRowMajor ⟨(a, b), (C, 1)⟩) (hC : 1 ≤ C)
    (hW : v.data.len + C < W)
    (h : v.data.len < a ∧ 1 ≤ b ∨ 1 ≤ a ∧ v.data.len < b) :
    ∃ r c, r < v.layout.dim.1 ∧ c < v.layout.dim.2 ∧ v.get cfg mem r c = .ub := by
  have key : ∀ r c, r < a → c < b → v.data.len ≤ C * r + c → C * r + c < W →
      ∃ r c, r < v.layout.dim.1 ∧ c < v.layout.dim.2 ∧ v.get cfg mem r c = .ub := by
    intro r c h1 h2 h3 h4
    have hdim : v.layout.dim = (a, b) := by rw [hl]; rfl
    refine ⟨r, c, by rw [hdim]; exact h1, by rw [hdim]; exact h2, ?_⟩
    unfold BaseMatrix.get BaseMatrix.get_unchecked
    rw [assert_dimension_ok (by rw [hdim]; exact h1) (by rw [hdim]; exact h2), Out.bind_ok,
      release_major hc (by rw [hl]; trivial), Out.bind_ok]
    have : raw v.layout r c = C * r + c := by rw [hl]; simp [raw]
    rw [this, Nat.mod_eq_of_lt h4, Container.get_unchecked, if_neg (by omega)]
  rcases h with ⟨h1, h2⟩ | ⟨h1, h2⟩
  · have h3 := Nat.div_add_mod (v.data.len + C - 1) C
    have h4 := Nat.mod_lt (v.data.len + C - 1) hC
    refine key ((v.data.len + C - 1) / C) 0 ?_ h2 (by omega) (by omega)
    refine lt_of_le_of_lt ?_ h1
    refine Nat.le_of_lt_succ ((Nat.div_lt_iff_lt_mul hC).2 ?_)
    have : v.data.len ≤ v.data.len * C := Nat.le_mul_of_pos_right _ hC
    rw [Nat.succ_mul]
    omega
  · exact key 0 v.data.len h1 h2 (by omega) (by omega)

theorem from_pointer_part [Target] {cfg : Cfg} {p : Ptr} {d : Nat × Nat} {l : Layout}
    {v : BaseMatrix} (h : from_pointer_strided cfg p d l = .ok v) :
    v.layout = l ∧ v.data.len ≤ p.prov.len := by
  unfold from_pointer_strided at h
  simp only [Out.bind_eq_ok] at h
  obtain ⟨r, -, c, -, k, -, n, -, data, h1, h⟩ := h
  unfold from_data BaseMatrix.new at h
  simp only [Out.bind_eq_ok] at h
  obtain ⟨n', -, -, -, h⟩ := h
  obtain rfl : _ = v := by simpa using h
  unfold Ptr.from_raw_parts at h1
  split at h1
  · obtain rfl : _ = data := by simpa using h1
    exact ⟨rfl, by simp only; omega⟩
  · simp at h1

theorem offset_prov {p q : Ptr} {k : Int} (h : p.offset k = .ok q) : q.prov = p.prov := by
  unfold Ptr.offset at h
  split at h
  · obtain rfl : _ = q := by simpa using h
    rfl
  · simp at h

/-- The shapes of the four views in a build without overflow checks. -/
theorem split_shapes [Target] {cfg : Cfg} (hc : cfg.overflowChecks = false) {m : BaseMatrix}
    {R C : Nat} (hl : m.layout = .rowMajor ⟨(R, C)⟩) (hR : R < W) (hC : C < W) {s : Nat × Nat}
    {q : BaseMatrix × BaseMatrix × BaseMatrix × BaseMatrix}
    (h : m.split_in_four_mut cfg s = .ok q) :
    (∀ k, (quad q k).data.len ≤ m.data.len) ∧
    (quad q 0).layout = .asRowMajor ⟨s, (C, 1)⟩ ∧
    (quad q 1).layout = .asRowMajor ⟨(s.1, (W + C - s.2) % W), (C, 1)⟩ ∧
    (quad q 2).layout = .asRowMajor ⟨((W + R - s.1) % W, s.2), (C, 1)⟩ ∧
    (quad q 3).layout = .asRowMajor ⟨((W + R - s.1) % W, (W + C - s.2) % W), (C, 1)⟩ := by
  unfold BaseMatrix.split_in_four_mut at h
  rw [hl] at h
  simp only [Layout.dim, Layout.stride, RowMajor.stride, Out.bind_ok, release_sub hc hR,
    release_sub hc hC] at h
  simp only [Out.bind_eq_ok] at h
  obtain ⟨s0, -, s1, -, s2, -, s3, -, p0, o0, b0, e0, p1, o1, b1, e1, p2, o2, b2, e2, p3, o3, b3, e3,
    h⟩ := h
  obtain rfl : _ = q := by simpa using h
  have f0 := from_pointer_part e0
  have f1 := from_pointer_part e1
  have f2 := from_pointer_part e2
  have f3 := from_pointer_part e3
  rw [offset_prov o0] at f0
  rw [offset_prov o1] at f1
  rw [offset_prov o2] at f2
  rw [offset_prov o3] at f3
  refine ⟨fun k => ?_, f0.1, f1.1, f2.1, f3.1⟩
  match k with
  | 0 => exact f0.2
  | 1 => exact f1.2
  | 2 => exact f2.2
  | 3 => exact f3.2

/-- **C32 in builds without overflow checks**, split points outside the matrix: undefined, or a
panic, or four views of which at least one has an element that a safe access cannot reach without
undefined behaviour. Never four usable views. -/
theorem C32_release_outside [Target] (cfg : Cfg) (hc : cfg.overflowChecks = false) (m : BaseMatrix)
    (mem : Mem α) (h : Sound m mem) (R C : Nat) (hl : m.layout = .rowMajor ⟨(R, C)⟩) (hR : 1 ≤ R)
    (hC : 1 ≤ C) (s : Nat × Nat) (hs : s.1 < W ∧ s.2 < W) (hout : R < s.1 ∨ C < s.2) :
    m.split_in_four_mut cfg s = .ub ∨ m.split_in_four_mut cfg s = .panic ∨
    ∃ q k r c, m.split_in_four_mut cfg s = .ok q ∧ r < (quad q k).layout.dim.1 ∧
      c < (quad q k).layout.dim.2 ∧ (quad q k).get cfg mem r c = .ub := by
  have hW0 := W_eq
  have hI0 := isizeMax_ge
  have hsm := h.container.small
  have hcount : R * C ≤ m.data.len := by have := h.count_le; rw [hl] at this; exact this
  have hCR : C ≤ R * C := Nat.le_mul_of_pos_left C hR
  have hRC : R ≤ R * C := Nat.le_mul_of_pos_right R hC
  cases e : m.split_in_four_mut cfg s with
  | ub => exact .inl rfl
  | panic => exact .inr (.inl rfl)
  | ok q =>
    refine .inr (.inr ?_)
    obtain ⟨hlen, l0, l1, l2, l3⟩ := split_shapes hc hl (by omega) (by omega) e
    have fin : ∀ k a b, (quad q k).layout = .asRowMajor ⟨(a, b), (C, 1)⟩ →
        (isizeMax < a ∧ 1 ≤ b ∨ 1 ≤ a ∧ isizeMax < b) →
        ∃ q' k r c, Out.ok q = .ok q' ∧ r < (quad q' k).layout.dim.1 ∧
          c < (quad q' k).layout.dim.2 ∧ (quad q' k).get cfg mem r c = .ub := by
      intro k a b hk hab
      have := hlen k
      obtain ⟨r, c, h1, h2, h3⟩ := oversized_part hc mem hk hC (by omega) (by omega)
      exact ⟨q, k, r, c, rfl, h1, h2, h3⟩
    have hmod : ∀ x y, 1 ≤ x → x < W → (W + x - y) % W = if y ≤ x then x - y else W + x - y := by
      intro x y h1 h2
      split
      · rw [show W + x - y = x - y + W by omega, Nat.add_mod_right, Nat.mod_eq_of_lt (by omega)]
      · exact Nat.mod_eq_of_lt (by omega)
    rw [hmod R s.1 hR (by omega)] at l2 l3
    rw [hmod C s.2 hC (by omega)] at l1 l3
    by_cases h1 : R < s.1
    · rw [if_neg (show ¬ s.1 ≤ R by omega)] at l2 l3
      by_cases h2 : s.2 = 0
      · rw [if_pos (show s.2 ≤ C by omega)] at l1 l3
        by_cases h3 : isizeMax < s.1
        · exact fin 1 _ _ l1 (by omega)
        · exact fin 3 _ _ l3 (by omega)
      · by_cases h3 : isizeMax < s.1
        · exact fin 0 s.1 s.2 l0 (by omega)
        · exact fin 2 _ _ l2 (by omega)
    · have h2 : C < s.2 := by omega
      rw [if_neg (show ¬ s.2 ≤ C by omega)] at l1 l3
      rw [if_pos (show s.1 ≤ R by omega)] at l2 l3
      by_cases h4 : s.1 = 0
      · by_cases h3 : isizeMax < s.2
        · exact fin 2 _ _ l2 (by omega)
        · exact fin 3 _ _ l3 (by omega)
      · by_cases h3 : isizeMax < s.2
        · exact fin 0 s.1 s.2 l0 (by omega)
        · exact fin 1 _ _ l1 (by omega)

example : exFour.split_in_four_mut rel (0, 2) = .ub ∧ exFour.split_in_four_mut rel (4, 2) = .ub ∧
    exFour.split_in_four_mut rel (4, 4) = .ub ∧
    exFour.split_in_four_mut rel (1, 0) =
      .ok (⟨⟨0, 0, 0⟩, .asRowMajor ⟨(1, 0), (4, 1)⟩, .dynamic, .dynamic⟩,
        ⟨⟨0, 0, 4⟩, .asRowMajor ⟨(1, 4), (4, 1)⟩, .dynamic, .dynamic⟩,
        ⟨⟨0, 4, 8⟩, .asRowMajor ⟨(3, 0), (4, 1)⟩, .dynamic, .dynamic⟩,
        ⟨⟨0, 4, 12⟩, .asRowMajor ⟨(3, 4), (4, 1)⟩, .dynamic, .dynamic⟩) := by decide +kernel

/-- Splits outside a matrix in a build without overflow checks: undefined, a panic, and views that
claim `2^62 + 1` rows. -/
example : exFour.split_in_four_mut rel (5, 1) = .ub ∧
    exFour.split_in_four_mut rel (2 ^ 62 + 1, 2) = .panic ∧
    (exFour.split_in_four_mut rel (2 ^ 62 + 1, 4) >>= fun q => .ok (quad q 0).layout.dim) =
      .ok (2 ^ 62 + 1, 4) := by decide +kernel

end Householder.Props
