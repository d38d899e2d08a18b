import Verif.Lemmas.F64Big
import Verif.Lemmas.Tri
import Verif.Spec.Triangle

/-! # `UpperTriangular::convert_1d_2d` at every index -/

namespace Householder.Spec

theorem round53_small {i : ℕ} (hi : i < 2 ^ 53) : round53 i = i := by
  have : Nat.log 2 i - 52 = 0 := by
    have : Nat.log 2 i < 53 := Nat.log_lt_of_lt_pow' (by norm_num) hi
    omega
  simp [round53, this, Nat.mod_one]

theorem ofUsize_round53 (i : ℕ) : F64.ofUsize i = round53 i := by
  rcases Nat.lt_or_ge i (2 ^ 53) with h | h
  · rw [round53_small h]; exact F64.rne_nat h
  · have hpos : (0 : ℚ) < i := by
      have : 0 < i := by omega
      exact_mod_cast this
    have hlog : 53 ≤ Nat.log 2 i := Nat.le_log_of_pow_le (by norm_num) h
    unfold F64.ofUsize F64.rne F64.ulp
    rw [if_neg (not_le.2 hpos), Int.log_natCast,
      show ((Nat.log 2 i : ℤ) - 52) = ((Nat.log 2 i - 52 : ℕ) : ℤ) by omega, zpow_natCast]
    unfold round53
    set s := Nat.log 2 i - 52
    have hg : 0 < 2 ^ s := Nat.two_pow_pos s
    have hgq : (0 : ℚ) < 2 ^ s := by positivity
    simp only
    obtain ⟨q, hq⟩ : ∃ q, i / 2 ^ s = q := ⟨_, rfl⟩
    obtain ⟨r, hr⟩ : ∃ r, i % 2 ^ s = r := ⟨_, rfl⟩
    have hrl : r < 2 ^ s := hr ▸ Nat.mod_lt _ hg
    have hi : i = 2 ^ s * q + r := by rw [← hq, ← hr, Nat.div_add_mod]
    have hiq : (i : ℚ) / 2 ^ s = ((q : ℤ) : ℚ) + r / 2 ^ s := by
      rw [hi]; push_cast; field_simp
    have f0 : (0 : ℚ) ≤ r / 2 ^ s := by positivity
    have f1 : (r : ℚ) / 2 ^ s < 1 := by
      rw [div_lt_one hgq]; exact_mod_cast hrl
    have hf : ⌊((q : ℤ) : ℚ) + (r : ℚ) / 2 ^ s⌋ = q := by
      rw [Int.floor_eq_iff]; constructor <;> linarith
    rw [hiq, hq, hr]
    unfold F64.roundHalfEven
    rw [hf]
    simp only [add_sub_cancel_left]
    have c1 : (r : ℚ) / 2 ^ s < 1 / 2 ↔ 2 * r < 2 ^ s := by
      rw [div_lt_div_iff₀ hgq (by norm_num)]
      constructor <;> intro h'
      · have : (r * 2 : ℚ) < 2 ^ s := by linarith
        have : r * 2 < 2 ^ s := by exact_mod_cast this
        omega
      · have : ((2 * r : ℕ) : ℚ) < ((2 ^ s : ℕ) : ℚ) := by exact_mod_cast h'
        push_cast at this; linarith
    have c2 : 1 / 2 < (r : ℚ) / 2 ^ s ↔ 2 ^ s < 2 * r := by
      rw [div_lt_div_iff₀ (by norm_num) hgq]
      constructor <;> intro h'
      · have : (2 ^ s : ℚ) < r * 2 := by linarith
        have : 2 ^ s < r * 2 := by exact_mod_cast this
        omega
      · have : ((2 ^ s : ℕ) : ℚ) < ((2 * r : ℕ) : ℚ) := by exact_mod_cast h'
        push_cast at this; linarith
    simp only [c1, c2]
    split_ifs with h1 h2 h3
    · push_cast; ring
    · push_cast; ring
    · rw [show q % 2 = 0 by omega]; push_cast; ring
    · rw [show q % 2 = 1 by omega]; push_cast; ring

/-- The test in whole numbers is the comparison with the edge. -/
theorem rowKept_iff_edge {i a : ℕ} (hi : 2 ^ 53 ≤ i) (hi2 : i < 2 ^ 63)
    (h2 : 2 * i + 2 ≤ (a + 1) * (a + 2)) :
    RowKept i a ↔ 2 * F64.ofUsize i < F64.rowEdge i a * F64.rowEdge i a := by
  obtain ⟨m, t, T, u, P, m1, m2, t1, t2, hT, e1, e2, hl, hu, -⟩ :=
    F64.exists_edge_facts hi hi2 h2
  have hx : ((2 * round53 i : ℕ) : ℚ) = m * T := by
    push_cast; rw [← e1, ofUsize_round53]
  have hlog : Nat.log 2 (2 * round53 i) = t + 52 := by
    have : Int.log 2 (((2 * round53 i : ℕ)) : ℚ) = t + 52 := by rw [hx]; exact hl
    rw [Int.log_natCast] at this
    exact_mod_cast this
  have hk : ((t : ℤ) + 52) / 2 - 52 = -((52 - (t + 52) / 2 : ℕ) : ℤ) := by omega
  have hedge : F64.rowEdge i a = (a : ℚ) + 3 / 2 - u / 2 := by
    unfold F64.rowEdge; rw [e1, hl, hu]
  rw [hedge, e1, ← hx]
  unfold RowKept
  simp only
  rw [hlog]
  generalize 52 - (t + 52) / 2 = k at hk
  generalize 2 * round53 i = x
  rw [hu, hk, zpow_neg, zpow_natCast]
  have hp : (0 : ℚ) < 2 ^ k := by positivity
  have hge : 1 ≤ 2 ^ k * (2 * a + 3) := Nat.mul_pos (Nat.two_pow_pos k) (by omega)
  have key : ((a : ℚ) + 3 / 2 - (2 ^ k)⁻¹ / 2) * ((a : ℚ) + 3 / 2 - (2 ^ k)⁻¹ / 2) *
      (2 * 2 ^ k) ^ 2 = (2 ^ k * (2 * a + 3) - 1) ^ 2 := by
    field_simp
  have hcast : (((2 ^ k * (2 * a + 3) - 1 : ℕ)) : ℚ) = 2 ^ k * (2 * a + 3) - 1 := by
    rw [Nat.cast_sub hge]; push_cast; ring
  have hpos : (0 : ℚ) < (2 * 2 ^ k) ^ 2 := by positivity
  rw [← mul_lt_mul_iff_left₀ hpos, key, ← hcast]
  constructor
  · intro h; exact_mod_cast h
  · intro h; exact_mod_cast h

/-- Below `2^53` the row is always kept. -/
theorem rowKept_small {i a : ℕ} (hi : i < 2 ^ 53) (h1 : a * (a + 1) ≤ 2 * i)
    (h2 : 2 * i + 2 ≤ (a + 1) * (a + 2)) : RowKept i a := by
  unfold RowKept
  simp only
  rw [round53_small hi]
  set k := 52 - Nat.log 2 (2 * i) / 2 with hk
  have hlog : Nat.log 2 (2 * i) < 54 := Nat.log_lt_of_lt_pow' (by norm_num) (by omega)
  have hlt : 2 * i < 2 ^ (Nat.log 2 (2 * i) + 1) := Nat.lt_pow_succ_log_self (by norm_num) _
  have hz2' : 2 ≤ 2 ^ k := Nat.le_self_pow (by omega) 2
  have ha : a < 2 * 2 ^ k := by
    have h3 : 2 ^ (Nat.log 2 (2 * i) + 1) ≤ (2 * 2 ^ k) * (2 * 2 ^ k) := by
      rw [← pow_succ', ← pow_add]; exact Nat.pow_le_pow_right (by norm_num) (by omega)
    by_contra hc
    have hc' : (2 * 2 ^ k) * (2 * 2 ^ k) ≤ a * (a + 1) := Nat.mul_le_mul (by omega) (by omega)
    exact absurd (lt_of_lt_of_le hlt (h3.trans (hc'.trans h1))) (lt_irrefl _)
  have hk1 : 1 ≤ 2 ^ k * (2 * a + 3) := Nat.mul_pos (Nat.two_pow_pos k) (by omega)
  obtain ⟨y, hy⟩ : ∃ y, 2 ^ k * (2 * a + 3) = y + 1 := ⟨2 ^ k * (2 * a + 3) - 1, by omega⟩
  rw [hy, Nat.add_sub_cancel]
  obtain ⟨z, hz⟩ : ∃ z, 2 ^ k = z := ⟨_, rfl⟩
  rw [hz] at hy ha hz2' ⊢
  have hyz : (y : ℤ) = z * (2 * a + 3) - 1 := by
    have : ((y + 1 : ℕ) : ℤ) = z * (2 * a + 3) := by rw [← hy]; push_cast; ring
    push_cast at this; linarith
  have h2z : 2 * (i : ℤ) + 2 ≤ (a + 1) * (a + 2) := by exact_mod_cast h2
  have haz : (a : ℤ) + 1 ≤ 2 * z := by exact_mod_cast ha
  have hz2 : (2 : ℤ) ≤ z := by exact_mod_cast hz2'
  have ha0 : (0 : ℤ) ≤ a := Int.natCast_nonneg a
  have goal : 2 * (i : ℤ) * (2 * z) ^ 2 < y ^ 2 := by
    rw [hyz]
    have s1 : (2 * (i : ℤ) + 2) * (z * z) ≤ (a + 1) * (a + 2) * (z * z) :=
      mul_le_mul_of_nonneg_right h2z (by positivity)
    nlinarith [mul_nonneg (show (0 : ℤ) ≤ z by omega) (sub_nonneg.2 haz)]
  exact_mod_cast goal

/-- The row computed by the code, at every index. -/
theorem triRow_kept {i a : ℕ} (hi : i < 2 ^ 63) (h1 : a * (a + 1) ≤ 2 * i)
    (h2 : 2 * i + 2 ≤ (a + 1) * (a + 2)) :
    F64.triRow i = if RowKept i a then a else a + 1 := by
  rcases Nat.lt_or_ge i (2 ^ 53) with h | h
  · rw [if_pos (rowKept_small h h1 h2), F64.triRow_eq h h1 h2]
  · rw [F64.triRow_from h hi h1 h2]
    simp only [rowKept_iff_edge h hi h2]

theorem rowKept_of_gap {i a : ℕ} (hi : i < 2 ^ 63) (h1 : a * (a + 1) ≤ 2 * i)
    (h2 : 2 * i + 6 * 2 ^ (Nat.log 2 i - 52) ≤ (a + 1) * (a + 2)) : RowKept i a := by
  have hg : 1 ≤ 2 ^ (Nat.log 2 i - 52) := Nat.one_le_two_pow
  rcases Nat.lt_or_ge i (2 ^ 53) with h | h
  · exact rowKept_small h h1 (by omega)
  · exact (rowKept_iff_edge h hi (by omega)).2 (F64.edge_of_gap h hi h1 h2)

end Householder.Spec
