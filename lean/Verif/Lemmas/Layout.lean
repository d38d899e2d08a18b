import Verif.Spec.Layout
import Verif.Lemmas.Out
import Mathlib.Tactic.Ring
import Mathlib.Tactic.Linarith
import Mathlib.Data.List.Nodup

/-! # Lemmas on layouts -/

namespace Householder.Spec

/-! ## Triangular numbers -/

theorem two_tri (n : Nat) : 2 * (n * (n + 1) / 2) = n * (n + 1) :=
  Nat.mul_div_cancel' (Nat.even_mul_succ_self n).two_dvd

theorem tri_succ (n : Nat) : (n + 1) * (n + 2) / 2 = n * (n + 1) / 2 + (n + 1) := by
  have h1 := two_tri n
  have h2 := two_tri (n + 1)
  have : (n + 1) * (n + 1 + 1) = n * (n + 1) + 2 * (n + 1) := by ring
  have e : n + 2 = n + 1 + 1 := rfl
  rw [e]
  omega

theorem tri_pred (n : Nat) (h : 1 ≤ n) : n * (n + 1) / 2 = n * (n - 1) / 2 + n := by
  obtain ⟨m, rfl⟩ : ∃ m, n = m + 1 := ⟨n - 1, by omega⟩
  have := tri_succ m
  simp only [Nat.add_sub_cancel]
  rw [Nat.mul_comm (m + 1) m]
  exact this

theorem tri_mono {a b : Nat} (h : a ≤ b) : a * (a + 1) / 2 ≤ b * (b + 1) / 2 :=
  Nat.div_le_div_right (Nat.mul_le_mul h (by omega))

/-! ## Orders -/

theorem rowMajorOrder_succ (R C : Nat) :
    rowMajorOrder (R + 1) C = rowMajorOrder R C ++ (List.range C).map fun c => (R, c) := by
  simp [rowMajorOrder, List.range_succ, List.flatMap_append]

theorem rowMajorOrder_length (R C : Nat) : (rowMajorOrder R C).length = R * C := by
  induction R with
  | zero => simp [rowMajorOrder]
  | succ R ih => rw [rowMajorOrder_succ]; simp [ih, Nat.succ_mul]

theorem rowMajorOrder_get {R C r c : Nat} (hr : r < R) (hc : c < C) :
    (rowMajorOrder R C)[r * C + c]? = some (r, c) := by
  induction R with
  | zero => omega
  | succ R ih =>
    rw [rowMajorOrder_succ, List.getElem?_append]
    by_cases h : r < R
    · rw [if_pos, ih h]
      rw [rowMajorOrder_length]
      calc r * C + c < r * C + C := by omega
        _ = (r + 1) * C := by ring
        _ ≤ R * C := Nat.mul_le_mul_right _ h
    · have : r = R := by omega
      subst this
      rw [if_neg (by rw [rowMajorOrder_length]; omega), rowMajorOrder_length]
      simp [hc]

theorem columnMajorOrder_eq (R C : Nat) :
    columnMajorOrder R C = (rowMajorOrder C R).map Prod.swap := by
  simp [columnMajorOrder, rowMajorOrder, List.map_flatMap, Function.comp_def]

theorem triangularOrder_succ (n : Nat) :
    triangularOrder (n + 1) =
      (triangularOrder n).map (fun p => (p.1 + 1, p.2 + 1)) ++
        (List.range (n + 1)).map fun c => (0, c) := by
  simp only [triangularOrder]
  rw [List.range_succ_eq_map (n := n), List.reverse_cons, List.flatMap_append, ← List.map_reverse,
    List.flatMap_map, List.map_flatMap]
  congr 1
  · congr 1
    funext r
    simp [Function.comp_def, Nat.add_right_comm]
  · simp [List.range_succ_eq_map]

theorem triangularOrder_length (n : Nat) : (triangularOrder n).length = n * (n + 1) / 2 := by
  induction n with
  | zero => simp [triangularOrder]
  | succ n ih => rw [triangularOrder_succ]; simp [ih]; exact (tri_succ n).symm

theorem triangularOrder_get {n r c : Nat} (hrc : r ≤ c) (hc : c < n) :
    (triangularOrder n)[(n - r) * (n - r - 1) / 2 + (c - r)]? = some (r, c) := by
  induction n generalizing r c with
  | zero => omega
  | succ n ih =>
    rw [triangularOrder_succ, List.getElem?_append, List.length_map, triangularOrder_length]
    cases r with
    | zero =>
      have e : (n + 1 - 0) * (n + 1 - 0 - 1) / 2 = n * (n + 1) / 2 := by
        simp [Nat.mul_comm]
      rw [e, if_neg (by omega)]
      simp [hc]
    | succ r =>
      have e : (n + 1 - (r + 1)) * (n + 1 - (r + 1) - 1) / 2 + (c - (r + 1)) =
          (n - r) * (n - r - 1) / 2 + (c - 1 - r) := by
        rw [Nat.add_sub_add_right]; congr 1; omega
      rw [e]
      have ih' := ih (r := r) (c := c - 1) (by omega) (by omega)
      have hlt : (n - r) * (n - r - 1) / 2 + (c - 1 - r) < n * (n + 1) / 2 := by
        obtain ⟨h, _⟩ := List.getElem?_eq_some_iff.1 ih'
        rwa [triangularOrder_length] at h
      rw [if_pos hlt, List.getElem?_map, ih']
      simp; omega

/-- For every index there is a position: rows of length `C`. -/
theorem exists_row_col {R C k : Nat} (h : k < R * C) : ∃ r c, r < R ∧ c < C ∧ r * C + c = k := by
  have hC : 0 < C := Nat.pos_of_ne_zero (by rintro rfl; simp at h)
  refine ⟨k / C, k % C, ?_, Nat.mod_lt _ hC, ?_⟩
  · rw [Nat.div_lt_iff_lt_mul hC]; exact h
  · rw [Nat.mul_comm]; exact Nat.div_add_mod k C

theorem exists_tri {n k : Nat} (h : k < n * (n + 1) / 2) :
    ∃ r c, r ≤ c ∧ c < n ∧ (n - r) * (n - r - 1) / 2 + (c - r) = k := by
  induction n with
  | zero => simp at h
  | succ n ih =>
    have hs := tri_succ n
    have e2 : n + 1 + 1 = n + 2 := rfl
    rw [e2] at h
    by_cases hk : k < n * (n + 1) / 2
    · obtain ⟨r, c, h1, h2, h3⟩ := ih hk
      refine ⟨r + 1, c + 1, by omega, by omega, ?_⟩
      rw [Nat.add_sub_add_right, Nat.add_sub_add_right]; exact h3
    · refine ⟨0, k - n * (n + 1) / 2, by omega, by omega, ?_⟩
      have e : (n + 1 - 0) * (n + 1 - 0 - 1) / 2 = n * (n + 1) / 2 := by
        simp [Nat.mul_comm]
      rw [e]; omega

theorem order_length (l : Layout) : (order l).length = count l := by
  cases l <;>
    simp [order, count, rowMajorOrder_length, columnMajorOrder_eq, triangularOrder_length,
      Nat.mul_comm]

theorem order_index {l : Layout} {r c : Nat} (h : Stored l r c) :
    (order l)[index l r c]? = some (r, c) := by
  obtain ⟨hr, hc, hu⟩ := h
  cases l with
  | upperTriangular u => exact triangularOrder_get (hu u rfl) hc
  | rowMajor l => exact rowMajorOrder_get hr hc
  | asRowMajor l => exact rowMajorOrder_get hr hc
  | columnMajor l =>
    have hr' : r < l.dim.1 := hr
    have hc' : c < l.dim.2 := hc
    simp only [order, index, columnMajorOrder_eq, List.getElem?_map]
    rw [rowMajorOrder_get hc' hr']; rfl
  | asColumnMajor l =>
    have hr' : r < l.dim.1 := hr
    have hc' : c < l.dim.2 := hc
    simp only [order, index, columnMajorOrder_eq, List.getElem?_map]
    rw [rowMajorOrder_get hc' hr']; rfl
  | rowVector l =>
    simp [Layout.dim] at hr hc; subst hr; simp [order, index, hc]
  | asRowVector l =>
    simp [Layout.dim] at hr hc; subst hr; simp [order, index, hc]
  | columnVector l =>
    simp [Layout.dim] at hr hc; subst hc; simp [order, index, hr]
  | asColumnVector l =>
    simp [Layout.dim] at hr hc; subst hc; simp [order, index, hr]

theorem index_lt {l : Layout} {r c : Nat} (h : Stored l r c) : index l r c < count l := by
  obtain ⟨h', _⟩ := List.getElem?_eq_some_iff.1 (order_index h)
  rwa [order_length] at h'

theorem exists_index {l : Layout} {k : Nat} (h : k < count l) :
    ∃ r c, Stored l r c ∧ index l r c = k := by
  cases l with
  | upperTriangular u =>
    obtain ⟨r, c, h1, h2, h3⟩ := exists_tri h
    exact ⟨r, c, ⟨by show r < u.dim; omega, h2, fun _ _ => h1⟩, h3⟩
  | rowMajor l =>
    obtain ⟨r, c, h1, h2, h3⟩ := exists_row_col h
    exact ⟨r, c, ⟨h1, h2, by simp⟩, h3⟩
  | asRowMajor l =>
    obtain ⟨r, c, h1, h2, h3⟩ := exists_row_col h
    exact ⟨r, c, ⟨h1, h2, by simp⟩, h3⟩
  | columnMajor l =>
    simp only [count, Nat.mul_comm l.dim.1] at h
    obtain ⟨r, c, h1, h2, h3⟩ := exists_row_col h
    exact ⟨c, r, ⟨h2, h1, by simp⟩, h3⟩
  | asColumnMajor l =>
    simp only [count, Nat.mul_comm l.dim.1] at h
    obtain ⟨r, c, h1, h2, h3⟩ := exists_row_col h
    exact ⟨c, r, ⟨h2, h1, by simp⟩, h3⟩
  | rowVector l => exact ⟨0, k, ⟨by simp [Layout.dim], h, by simp⟩, rfl⟩
  | asRowVector l => exact ⟨0, k, ⟨by simp [Layout.dim], h, by simp⟩, rfl⟩
  | columnVector l => exact ⟨k, 0, ⟨h, by simp [Layout.dim], by simp⟩, rfl⟩
  | asColumnVector l => exact ⟨k, 0, ⟨h, by simp [Layout.dim], by simp⟩, rfl⟩

/-- The `k`-th position of the order is the stored position with index `k`. -/
theorem order_get_iff {l : Layout} {k r c : Nat} :
    (order l)[k]? = some (r, c) ↔ Stored l r c ∧ index l r c = k := by
  constructor
  · intro h
    have hk : k < count l := by
      obtain ⟨h', _⟩ := List.getElem?_eq_some_iff.1 h
      rwa [order_length] at h'
    obtain ⟨r', c', hs, hi⟩ := exists_index hk
    have := order_index hs
    rw [hi, h] at this
    simp at this
    obtain ⟨rfl, rfl⟩ := this
    exact ⟨hs, hi⟩
  · rintro ⟨hs, rfl⟩
    exact order_index hs

theorem mem_order {l : Layout} {r c : Nat} : (r, c) ∈ order l ↔ Stored l r c := by
  rw [List.mem_iff_getElem?]
  constructor
  · rintro ⟨k, hk⟩; exact (order_get_iff.1 hk).1
  · intro h; exact ⟨_, order_index h⟩

theorem index_inj {l : Layout} {r c r' c' : Nat} (h : Stored l r c) (h' : Stored l r' c')
    (e : index l r c = index l r' c') : r = r' ∧ c = c' := by
  have h1 := order_index h
  rw [e, order_index h'] at h1
  simp at h1
  exact ⟨h1.1.symm, h1.2.symm⟩

theorem order_nodup (l : Layout) : (order l).Nodup := by
  rw [List.nodup_iff_getElem?_ne_getElem?]
  intro i j hij hj e
  have hi : (order l)[i]? = some (order l)[i] := List.getElem?_eq_getElem (by omega)
  have h1 := order_get_iff.1 hi
  rw [e] at hi
  have h2 := order_get_iff.1 hi
  omega

/-! ## The code computes the documented maps -/

theorem number_of_elements_ok [Target] (cfg : Cfg) {l : Layout} (h : count l < W) (ht : TriFits l) :
    l.number_of_elements cfg = .ok (count l) := by
  cases l <;>
    simp_all [Layout.number_of_elements, count, RowMajor.number_of_elements,
      ColumnMajor.number_of_elements, RowVector.number_of_elements,
      ColumnVector.number_of_elements, ArbitraryStrideRowMajor.number_of_elements,
      ArbitraryStrideColumnMajor.number_of_elements, ArbitraryStrideRowVector.number_of_elements,
      ArbitraryStrideColumnVector.number_of_elements, Cfg.mul_ok]
  case upperTriangular l =>
    simp only [TriFits] at ht
    have h1 : l.dim + 1 < W := by
      rcases Nat.eq_zero_or_pos l.dim with h0 | h0
      · have := W_ge; omega
      · calc l.dim + 1 = 1 * (l.dim + 1) := by ring
          _ ≤ l.dim * (l.dim + 1) := Nat.mul_le_mul_right _ h0
          _ < W := ht
    simp [UpperTriangular.number_of_elements, Cfg.add_ok _ h1, Cfg.mul_ok _ ht, udiv]

theorem convert_2d_1d_ok [Target] (cfg : Cfg) {l : Layout} {r c : Nat} (hs : Stored l r c)
    (h : count l < W) (ht : TriFits l) : l.convert_2d_1d cfg r c = .ok (index l r c) := by
  have hi := index_lt hs
  obtain ⟨hr, hc, hu⟩ := hs
  have hiW : index l r c < W := by omega
  cases l <;> simp only [Layout.convert_2d_1d, index] at *
  case rowMajor l =>
    simp [RowMajor.convert_2d_1d, Cfg.mul_ok _ (show r * l.dim.2 < W by omega), Cfg.add_ok _ hiW]
  case columnMajor l =>
    simp [ColumnMajor.convert_2d_1d, Cfg.mul_ok _ (show c * l.dim.1 < W by omega), Cfg.add_ok _ hiW]
  case asRowMajor l =>
    simp [ArbitraryStrideRowMajor.convert_2d_1d, Cfg.mul_ok _ (show r * l.dim.2 < W by omega),
      Cfg.add_ok _ hiW]
  case asColumnMajor l =>
    simp [ArbitraryStrideColumnMajor.convert_2d_1d, Cfg.mul_ok _ (show c * l.dim.1 < W by omega),
      Cfg.add_ok _ hiW]
  case upperTriangular l =>
    have hrc := hu l rfl
    have hcn : c < l.dim := hc
    have h3 : (l.dim - r) * (l.dim - r - 1) < W :=
      lt_of_le_of_lt (Nat.mul_le_mul (by omega) (by omega)) ht
    have h4 : (l.dim - r) * (l.dim - r - 1) / 2 + c < W := by
      have : (l.dim - r) * (l.dim - r - 1) / 2 + c ≤ l.dim * (l.dim + 1) / 2 := by
        have h5 : (l.dim - r) * (l.dim - r - 1) / 2 ≤ (l.dim - 1) * l.dim / 2 :=
          Nat.div_le_div_right (by rw [Nat.mul_comm]; exact Nat.mul_le_mul (by omega) (by omega))
        have h6 := tri_pred l.dim (by omega)
        rw [Nat.mul_comm (l.dim - 1)] at h5
        omega
      exact lt_of_le_of_lt this h
    simp [UpperTriangular.convert_2d_1d, Out.assert_pos hrc, Cfg.sub_ok _ (show r ≤ l.dim by omega),
      Cfg.sub_ok _ (show 1 ≤ l.dim - r by omega), Cfg.mul_ok _ h3, udiv, Cfg.add_ok _ h4,
      Cfg.sub_ok _ (show r ≤ (l.dim - r) * (l.dim - r - 1) / 2 + c by omega)]
    omega
  all_goals rfl

theorem convert_2d_raw_ok [Target] (cfg : Cfg) {l : Layout} {r c : Nat} (hs : Stored l r c)
    (h : raw l r c < W) (ht : TriFits l) : l.convert_2d_raw cfg r c = .ok (raw l r c) := by
  obtain ⟨hr, hc, hu⟩ := id hs
  cases l <;> simp only [Layout.convert_2d_raw, raw] at *
  case rowMajor l =>
    simp [RowMajor.convert_2d_raw, RowMajor.convert_2d_1d,
      Cfg.mul_ok _ (show r * l.dim.2 < W by omega), Cfg.add_ok _ h]
  case columnMajor l =>
    simp [ColumnMajor.convert_2d_raw, ColumnMajor.convert_2d_1d,
      Cfg.mul_ok _ (show c * l.dim.1 < W by omega), Cfg.add_ok _ h]
  case asRowMajor l =>
    simp [ArbitraryStrideRowMajor.convert_2d_raw, Cfg.mul_ok _ (show l.stride.1 * r < W by omega),
      Cfg.mul_ok _ (show l.stride.2 * c < W by omega), Cfg.add_ok _ h]
  case asColumnMajor l =>
    simp [ArbitraryStrideColumnMajor.convert_2d_raw,
      Cfg.mul_ok _ (show l.stride.1 * r < W by omega),
      Cfg.mul_ok _ (show l.stride.2 * c < W by omega), Cfg.add_ok _ h]
  case asRowVector l => exact Cfg.mul_ok _ h
  case asColumnVector l => exact Cfg.mul_ok _ h
  case upperTriangular l =>
    have hcount : count (.upperTriangular l) < W := lt_of_le_of_lt (Nat.div_le_self _ _) ht
    have := convert_2d_1d_ok cfg hs hcount ht
    simp only [Layout.convert_2d_1d, index] at this
    simp [UpperTriangular.convert_2d_raw, this, UpperTriangular.convert_1d_raw]
  all_goals rfl

/-- 1D access reaches the cell of the position with that index. -/
theorem convert_1d_raw_ok [Target] (cfg : Cfg) {l : Layout} {r c : Nat} (hs : Stored l r c)
    (h : raw l r c < W) : l.convert_1d_raw cfg (index l r c) = .ok (raw l r c) := by
  obtain ⟨hr, hc, hu⟩ := hs
  cases l <;> simp only [Layout.convert_1d_raw, raw, index] at *
  case asRowMajor l =>
    have hc' : c < l.dim.2 := hc
    have e1 : (r * l.dim.2 + c) / l.dim.2 = r := by
      rw [Nat.add_comm, Nat.add_mul_div_right _ _ (by omega), Nat.div_eq_of_lt hc', Nat.zero_add]
    have e2 : (r * l.dim.2 + c) % l.dim.2 = c := by
      rw [Nat.add_comm, Nat.add_mul_mod_self_right, Nat.mod_eq_of_lt hc']
    simp [ArbitraryStrideRowMajor.convert_1d_raw, ArbitraryStrideRowMajor.convert_1d_2d,
      udiv_ok (show l.dim.2 ≠ 0 by omega), umod_ok (show l.dim.2 ≠ 0 by omega), e1, e2,
      ArbitraryStrideRowMajor.convert_2d_raw, Cfg.mul_ok _ (show l.stride.1 * r < W by omega),
      Cfg.mul_ok _ (show l.stride.2 * c < W by omega), Cfg.add_ok _ h]
  case asColumnMajor l =>
    have hr' : r < l.dim.1 := hr
    have e1 : (c * l.dim.1 + r) / l.dim.1 = c := by
      rw [Nat.add_comm, Nat.add_mul_div_right _ _ (by omega), Nat.div_eq_of_lt hr', Nat.zero_add]
    have e2 : (c * l.dim.1 + r) % l.dim.1 = r := by
      rw [Nat.add_comm, Nat.add_mul_mod_self_right, Nat.mod_eq_of_lt hr']
    simp [ArbitraryStrideColumnMajor.convert_1d_raw, ArbitraryStrideColumnMajor.convert_1d_2d,
      udiv_ok (show l.dim.1 ≠ 0 by omega), umod_ok (show l.dim.1 ≠ 0 by omega), e1, e2,
      ArbitraryStrideColumnMajor.convert_2d_raw, Cfg.mul_ok _ (show l.stride.1 * r < W by omega),
      Cfg.mul_ok _ (show l.stride.2 * c < W by omega), Cfg.add_ok _ h]
  case asRowVector l => exact Cfg.mul_ok _ h
  case asColumnVector l => exact Cfg.mul_ok _ h
  all_goals rfl

/-- 1D to 2D conversion of the major layouts returns the position with that index. -/
theorem convert_1d_2d_major [Target] (cfg : Cfg) {l : Layout} (hm : IsMajor l) {r c : Nat}
    (hs : Stored l r c) : l.convert_1d_2d cfg (index l r c) = .ok (r, c) := by
  obtain ⟨hr, hc, hu⟩ := hs
  have key : ∀ {a b n : Nat}, b < n → (a * n + b) / n = a ∧ (a * n + b) % n = b := by
    intro a b n hb
    constructor
    · rw [Nat.add_comm, Nat.add_mul_div_right _ _ (by omega), Nat.div_eq_of_lt hb, Nat.zero_add]
    · rw [Nat.add_comm, Nat.add_mul_mod_self_right, Nat.mod_eq_of_lt hb]
  cases l <;> simp only [IsMajor] at hm <;>
    simp only [Layout.convert_1d_2d, index, Layout.dim] at *
  case rowMajor l =>
    simp [RowMajor.convert_1d_2d, udiv_ok (show l.dim.2 ≠ 0 by omega),
      umod_ok (show l.dim.2 ≠ 0 by omega), (key hc).1, (key hc).2]
  case columnMajor l =>
    simp [ColumnMajor.convert_1d_2d, udiv_ok (show l.dim.1 ≠ 0 by omega),
      umod_ok (show l.dim.1 ≠ 0 by omega), (key hr).1, (key hr).2]
  case asRowMajor l =>
    simp [ArbitraryStrideRowMajor.convert_1d_2d, udiv_ok (show l.dim.2 ≠ 0 by omega),
      umod_ok (show l.dim.2 ≠ 0 by omega), (key hc).1, (key hc).2]
  case asColumnMajor l =>
    simp [ArbitraryStrideColumnMajor.convert_1d_2d, udiv_ok (show l.dim.1 ≠ 0 by omega),
      umod_ok (show l.dim.1 ≠ 0 by omega), (key hr).1, (key hr).2]

/-- On contiguous layouts the logical index is the memory offset. -/
theorem raw_eq_index {l : Layout} (hc : Contiguous l) (r c : Nat) : raw l r c = index l r c := by
  cases l <;> simp_all [Contiguous, raw, index]

theorem stored_of_notTri {l : Layout} (hn : NotTriangular l) {r c : Nat} :
    Stored l r c ↔ r < l.dim.1 ∧ c < l.dim.2 := by
  unfold Stored
  constructor
  · rintro ⟨h1, h2, _⟩; exact ⟨h1, h2⟩
  · rintro ⟨h1, h2⟩; exact ⟨h1, h2, fun u hu => absurd hu (hn u)⟩

theorem IsMajor.notTri {l : Layout} (h : IsMajor l) : NotTriangular l := by
  rintro u rfl; exact h

theorem IsMajor.count {l : Layout} (h : IsMajor l) : count l = l.dim.1 * l.dim.2 := by
  cases l <;> simp_all [IsMajor, Spec.count, Layout.dim]

theorem IsMajor.triFits [Target] {l : Layout} (h : IsMajor l) : TriFits l := by
  cases l <;> simp_all [IsMajor, TriFits]

/-- Layouts with non-overlapping strides put distinct positions in distinct cells. -/
theorem raw_inj {l : Layout} (hn : NonOverlapping l) {r c r' c' : Nat} (h : Stored l r c)
    (h' : Stored l r' c') (e : raw l r c = raw l r' c') : r = r' ∧ c = c' := by
  have key : ∀ {s t n a b a' b' : Nat}, 1 ≤ t → t * n ≤ s → b < n → b' < n →
      s * a + t * b = s * a' + t * b' → a = a' ∧ b = b' := by
    intro s t n a b a' b' ht hs hb hb' he
    have hb1 : t * b < s := lt_of_lt_of_le ((Nat.mul_lt_mul_left (by omega)).2 hb) hs
    have hb2 : t * b' < s := lt_of_lt_of_le ((Nat.mul_lt_mul_left (by omega)).2 hb') hs
    have hs0 : 0 < s := by omega
    have ha : a = a' := by
      have h1 : (s * a + t * b) / s = a := by
        rw [Nat.mul_add_div hs0, Nat.div_eq_of_lt hb1, Nat.add_zero]
      have h2 : (s * a' + t * b') / s = a' := by
        rw [Nat.mul_add_div hs0, Nat.div_eq_of_lt hb2, Nat.add_zero]
      rw [he] at h1
      exact h1.symm.trans h2
    subst ha
    refine ⟨rfl, ?_⟩
    have : t * b = t * b' := by omega
    exact Nat.eq_of_mul_eq_mul_left (by omega) this
  cases l with
  | asRowMajor l => exact key hn.1 hn.2 h.2.1 h'.2.1 e
  | asColumnMajor l =>
    simp only [raw] at e
    rw [Nat.add_comm, Nat.add_comm (l.stride.1 * r')] at e
    have := key hn.1 hn.2 h.1 h'.1 e
    exact ⟨this.2, this.1⟩
  | asRowVector l =>
    have h1 := h.1; have h2 := h'.1
    simp [Layout.dim] at h1 h2
    exact ⟨by omega, Nat.eq_of_mul_eq_mul_right hn e⟩
  | asColumnVector l =>
    have h1 := h.2.1; have h2 := h'.2.1
    simp [Layout.dim] at h1 h2
    exact ⟨Nat.eq_of_mul_eq_mul_right hn e, by omega⟩
  | _ => exact index_inj h h' e

end Householder.Spec

namespace Householder.Spec

/-! ## Exactness in checked mode -/

theorem number_of_elements_exact [Target] {cfg : Cfg} (hc : cfg.overflowChecks = true) {l : Layout} {v : Nat}
    (h : l.number_of_elements cfg = .ok v) : v = count l ∧ TriFits l ∧
      (IsMajor l → count l < W) := by
  cases l <;> simp only [Layout.number_of_elements, count, TriFits, IsMajor, true_and,
    false_implies, and_true, true_implies] at *
  case rowMajor l => exact Cfg.mul_exact (.inl hc) h
  case columnMajor l => exact Cfg.mul_exact (.inl hc) h
  case asRowMajor l => exact Cfg.mul_exact (.inl hc) h
  case asColumnMajor l => exact Cfg.mul_exact (.inl hc) h
  case rowVector l => simpa [RowVector.number_of_elements, eq_comm] using h
  case columnVector l => simpa [ColumnVector.number_of_elements, eq_comm] using h
  case asRowVector l => simpa [ArbitraryStrideRowVector.number_of_elements, eq_comm] using h
  case asColumnVector l => simpa [ArbitraryStrideColumnVector.number_of_elements, eq_comm] using h
  case upperTriangular l =>
    simp only [UpperTriangular.number_of_elements, Out.bind_eq_ok] at h
    obtain ⟨a, h1, b, h2, h3⟩ := h
    obtain ⟨rfl, _⟩ := Cfg.add_exact (.inl hc) h1
    obtain ⟨rfl, h5⟩ := Cfg.mul_exact (.inl hc) h2
    simp [udiv] at h3
    exact ⟨h3.symm, h5⟩

theorem convert_2d_1d_exact [Target] {cfg : Cfg} (hc : cfg.overflowChecks = true) {l : Layout} {r c v : Nat}
    (h : l.convert_2d_1d cfg r c = .ok v) :
    v = index l r c ∧ ∀ u, l = .upperTriangular u → r ≤ c ∧ r < u.dim := by
  cases l <;> simp only [Layout.convert_2d_1d, index] at *
  case rowMajor l =>
    simp only [RowMajor.convert_2d_1d, Out.bind_eq_ok] at h
    obtain ⟨a, h1, h2⟩ := h
    obtain ⟨rfl, _⟩ := Cfg.mul_exact (.inl hc) h1
    exact ⟨(Cfg.add_exact (.inl hc) h2).1, by simp⟩
  case columnMajor l =>
    simp only [ColumnMajor.convert_2d_1d, Out.bind_eq_ok] at h
    obtain ⟨a, h1, h2⟩ := h
    obtain ⟨rfl, _⟩ := Cfg.mul_exact (.inl hc) h1
    exact ⟨(Cfg.add_exact (.inl hc) h2).1, by simp⟩
  case asRowMajor l =>
    simp only [ArbitraryStrideRowMajor.convert_2d_1d, Out.bind_eq_ok] at h
    obtain ⟨a, h1, h2⟩ := h
    obtain ⟨rfl, _⟩ := Cfg.mul_exact (.inl hc) h1
    exact ⟨(Cfg.add_exact (.inl hc) h2).1, by simp⟩
  case asColumnMajor l =>
    simp only [ArbitraryStrideColumnMajor.convert_2d_1d, Out.bind_eq_ok] at h
    obtain ⟨a, h1, h2⟩ := h
    obtain ⟨rfl, _⟩ := Cfg.mul_exact (.inl hc) h1
    exact ⟨(Cfg.add_exact (.inl hc) h2).1, by simp⟩
  case rowVector l => simpa [RowVector.convert_2d_1d, eq_comm] using h
  case columnVector l => simpa [ColumnVector.convert_2d_1d, eq_comm] using h
  case asRowVector l => simpa [ArbitraryStrideRowVector.convert_2d_1d, eq_comm] using h
  case asColumnVector l => simpa [ArbitraryStrideColumnVector.convert_2d_1d, eq_comm] using h
  case upperTriangular l =>
    simp only [UpperTriangular.convert_2d_1d, Out.bind_eq_ok, Out.assert_eq_ok, ge_iff_le] at h
    obtain ⟨_, h0, a, h1, b, h2, b1, h3, ab, h4, q, h5, hc', h6, h7⟩ := h
    obtain ⟨rfl, g1⟩ := Cfg.sub_exact (.inl hc) h1
    obtain ⟨rfl, g2⟩ := Cfg.sub_exact (.inl hc) h2
    obtain ⟨rfl, g3⟩ := Cfg.sub_exact (.inl hc) h3
    obtain ⟨rfl, g4⟩ := Cfg.mul_exact (.inl hc) h4
    simp [udiv] at h5
    subst h5
    obtain ⟨rfl, g6⟩ := Cfg.add_exact (.inl hc) h6
    obtain ⟨rfl, g7⟩ := Cfg.sub_exact (.inl hc) h7
    refine ⟨by omega, fun u hu => ?_⟩
    cases hu
    exact ⟨h0, by omega⟩

theorem convert_2d_raw_exact [Target] {cfg : Cfg} (hc : cfg.overflowChecks = true) {l : Layout} {r c v : Nat}
    (h : l.convert_2d_raw cfg r c = .ok v) :
    v = raw l r c ∧ ∀ u, l = .upperTriangular u → r ≤ c ∧ r < u.dim := by
  cases l
  case rowMajor l => exact convert_2d_1d_exact (l := .rowMajor l) hc h
  case columnMajor l => exact convert_2d_1d_exact (l := .columnMajor l) hc h
  case rowVector l => exact convert_2d_1d_exact (l := .rowVector l) hc h
  case columnVector l => exact convert_2d_1d_exact (l := .columnVector l) hc h
  case upperTriangular l =>
    apply convert_2d_1d_exact (l := .upperTriangular l) hc
    simpa [Layout.convert_2d_raw, UpperTriangular.convert_2d_raw, Layout.convert_2d_1d,
      UpperTriangular.convert_1d_raw] using h
  case asRowVector l =>
    simp only [Layout.convert_2d_raw] at h
    exact ⟨(Cfg.mul_exact (.inl hc) h).1, by simp⟩
  case asColumnVector l =>
    simp only [Layout.convert_2d_raw] at h
    exact ⟨(Cfg.mul_exact (.inl hc) h).1, by simp⟩
  case asRowMajor l =>
    simp only [Layout.convert_2d_raw, ArbitraryStrideRowMajor.convert_2d_raw, Out.bind_eq_ok] at h
    obtain ⟨a, h1, b, h2, h3⟩ := h
    obtain ⟨rfl, _⟩ := Cfg.mul_exact (.inl hc) h1
    obtain ⟨rfl, _⟩ := Cfg.mul_exact (.inl hc) h2
    exact ⟨(Cfg.add_exact (.inl hc) h3).1, by simp⟩
  case asColumnMajor l =>
    simp only [Layout.convert_2d_raw, ArbitraryStrideColumnMajor.convert_2d_raw,
      Out.bind_eq_ok] at h
    obtain ⟨a, h1, b, h2, h3⟩ := h
    obtain ⟨rfl, _⟩ := Cfg.mul_exact (.inl hc) h1
    obtain ⟨rfl, _⟩ := Cfg.mul_exact (.inl hc) h2
    exact ⟨(Cfg.add_exact (.inl hc) h3).1, by simp⟩

/-- 1D access takes the same path as 2D access at the position with that index, whatever
overflows. -/
theorem convert_1d_raw_eq [Target] (cfg : Cfg) {l : Layout} {r c : Nat} (hs : Stored l r c)
    (h : count l < W) (ht : TriFits l) :
    l.convert_1d_raw cfg (index l r c) = l.convert_2d_raw cfg r c := by
  cases l with
  | asRowMajor l =>
    have := convert_1d_2d_major cfg (l := .asRowMajor l) trivial hs
    simp only [Layout.convert_1d_2d] at this
    simp [Layout.convert_1d_raw, ArbitraryStrideRowMajor.convert_1d_raw, this,
      Layout.convert_2d_raw]
  | asColumnMajor l =>
    have := convert_1d_2d_major cfg (l := .asColumnMajor l) trivial hs
    simp only [Layout.convert_1d_2d] at this
    simp [Layout.convert_1d_raw, ArbitraryStrideColumnMajor.convert_1d_raw, this,
      Layout.convert_2d_raw]
  | asRowVector l => rfl
  | asColumnVector l => rfl
  | rowVector l => rfl
  | columnVector l => rfl
  | rowMajor l =>
    have hi := index_lt hs
    exact (convert_2d_raw_ok cfg hs (show index (.rowMajor l) r c < W by omega) ht).symm
  | columnMajor l =>
    have hi := index_lt hs
    exact (convert_2d_raw_ok cfg hs (show index (.columnMajor l) r c < W by omega) ht).symm
  | upperTriangular l =>
    have hi := index_lt hs
    exact (convert_2d_raw_ok cfg hs (show index (.upperTriangular l) r c < W by omega) ht).symm

end Householder.Spec
