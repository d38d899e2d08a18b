import Verif.Lemmas.F64

/-! # The row computed through `f64`, for indices from `2^53` on -/

namespace Householder.F64

theorem roundHalfEven_near (q : ℚ) : q - 1 / 2 ≤ roundHalfEven q ∧ roundHalfEven q ≤ q + 1 / 2 := by
  have h1 := Int.floor_le q
  have h2 := Int.lt_floor_add_one q
  unfold roundHalfEven
  simp only
  split_ifs with h3 h4 h5 <;> push_cast <;> constructor <;> linarith

/-- Rounding moves by at most half a unit in the last place and keeps 53 bits. -/
theorem rne_near {x : ℚ} (hx : 0 < x) :
    ∃ (m : ℕ) (t : ℤ), 2 ^ 52 ≤ m ∧ m < 2 ^ 53 ∧ rne x = m * 2 ^ t ∧
      (t = Int.log 2 x - 52 ∨ t = Int.log 2 x - 51 ∧ m = 2 ^ 52) ∧
      x - 2 ^ (Int.log 2 x - 52) / 2 ≤ rne x ∧ rne x ≤ x + 2 ^ (Int.log 2 x - 52) / 2 := by
  obtain ⟨b1, b2⟩ := log_bounds hx
  set e := Int.log 2 x with he
  have hP : (0 : ℚ) < 2 ^ (e - 52) := by positivity
  have e1 : (2 : ℚ) ^ e = 2 ^ 52 * 2 ^ (e - 52) := by
    rw [← zpow_natCast (2 : ℚ) 52, ← zpow_add₀ (by norm_num : (2 : ℚ) ≠ 0)]
    congr 1; push_cast; ring
  have e2 : (2 : ℚ) ^ (e + 1) = 2 ^ 53 * 2 ^ (e - 52) := by
    rw [← zpow_natCast (2 : ℚ) 53, ← zpow_add₀ (by norm_num : (2 : ℚ) ≠ 0)]
    congr 1; push_cast; ring
  have hr : rne x = roundHalfEven (x / 2 ^ (e - 52)) * 2 ^ (e - 52) := by
    unfold rne ulp; rw [if_neg (not_le.2 hx)]
  set q := x / 2 ^ (e - 52) with hq
  have hxq : x = q * 2 ^ (e - 52) := by rw [hq]; field_simp
  set k := roundHalfEven q with hk
  obtain ⟨n1, n2⟩ := roundHalfEven_near q
  rw [← hk] at n1 n2
  have q1 : (2 : ℚ) ^ 52 ≤ q := by
    rw [hxq, e1] at b1
    exact le_of_mul_le_mul_right b1 hP
  have q2 : q < (2 : ℚ) ^ 53 := by
    rw [hxq, e2] at b2
    exact lt_of_mul_lt_mul_right b2 hP.le
  have k1 : (2 : ℤ) ^ 52 ≤ k := by
    have : ((2 : ℤ) ^ 52 : ℤ) - 1 < k := by
      have : (((2 : ℤ) ^ 52 - 1 : ℤ) : ℚ) < k := by push_cast; linarith
      exact_mod_cast this
    omega
  have k2 : k ≤ (2 : ℤ) ^ 53 := by
    have : k < (2 : ℤ) ^ 53 + 1 := by
      have : (k : ℚ) < (((2 : ℤ) ^ 53 + 1 : ℤ) : ℚ) := by push_cast; linarith
      exact_mod_cast this
    omega
  have near : x - 2 ^ (e - 52) / 2 ≤ rne x ∧ rne x ≤ x + 2 ^ (e - 52) / 2 := by
    rw [hr, hxq]
    constructor <;> nlinarith
  rcases lt_or_eq_of_le k2 with hlt | heq
  · refine ⟨k.toNat, e - 52, by omega, by omega, ?_, .inl rfl, near⟩
    rw [hr]
    congr 1
    have : ((k.toNat : ℤ) : ℚ) = (k : ℚ) := by rw [Int.toNat_of_nonneg (by omega)]
    exact_mod_cast this.symm
  · refine ⟨2 ^ 52, e - 51, le_refl _, by norm_num, ?_, .inr ⟨rfl, rfl⟩, near⟩
    rw [hr, heq, show e - 51 = 1 + (e - 52) by ring, zpow_add₀ (by norm_num : (2 : ℚ) ≠ 0)]
    push_cast; ring

/-- The addition of `0.25` is lost from `2^54` on. -/
theorem add_quarter_lost {m : ℕ} {t : ℤ} (h1 : 2 ^ 52 ≤ m) (h2 : m < 2 ^ 53) (ht : 2 ≤ t) :
    add (1 / 4) ((m : ℚ) * 2 ^ t) = m * 2 ^ t := by
  have h1q : (2 ^ 52 : ℚ) ≤ m := by exact_mod_cast h1
  have h2q : (m : ℚ) + 1 ≤ 2 ^ 53 := by exact_mod_cast h2
  have hT : (4 : ℚ) ≤ 2 ^ t := by
    have : (2 : ℚ) ^ (2 : ℤ) ≤ 2 ^ t := zpow_le_zpow_right₀ (by norm_num) ht
    norm_num at this ⊢; exact this
  unfold add
  set x : ℚ := 1 / 4 + m * 2 ^ t with hx
  have hxpos : 0 < x := by positivity
  have hl : Int.log 2 x = t + 52 := by
    apply log_eq
    · rw [zpow_add₀ (by norm_num : (2 : ℚ) ≠ 0), hx]
      norm_num
      nlinarith
    · rw [show t + 52 + 1 = t + 53 by ring, zpow_add₀ (by norm_num : (2 : ℚ) ≠ 0), hx]
      norm_num
      nlinarith
  unfold rne ulp
  rw [if_neg (not_le.2 hxpos), hl, show t + 52 - 52 = t by ring]
  generalize (2 : ℚ) ^ t = T at *
  have hT0 : T ≠ 0 := by linarith
  have e : x / T = ((m : ℤ) : ℚ) + 1 / (4 * T) := by
    rw [hx]; push_cast; field_simp; ring
  have f1 : (0 : ℚ) < 1 / (4 * T) := by positivity
  have f2 : 1 / (4 * T) < 1 / 2 := by
    rw [div_lt_div_iff₀ (by positivity) (by norm_num)]; linarith
  have hf : ⌊((m : ℤ) : ℚ) + 1 / (4 * T)⌋ = m := by
    rw [Int.floor_eq_iff]; constructor <;> push_cast <;> linarith
  have hr : roundHalfEven (((m : ℤ) : ℚ) + 1 / (4 * T)) = m := by
    unfold roundHalfEven
    rw [hf]
    simp only
    rw [if_pos (by push_cast; linarith)]
  rw [e, hr]
  push_cast; ring

/-- The argument of the square root from `2^53` on: the index rounded to 53 bits, doubled. -/
theorem sqrt_arg_from {i : ℕ} (hi : 2 ^ 53 ≤ i) :
    ∃ (m : ℕ) (t : ℤ), 2 ^ 52 ≤ m ∧ m < 2 ^ 53 ∧ 2 ≤ t ∧
      2 * ofUsize i = m * 2 ^ t ∧ add (1 / 4) (mul 2 (ofUsize i)) = m * 2 ^ t ∧
      (t = Int.log 2 (i : ℚ) - 51 ∨ t = Int.log 2 (i : ℚ) - 50 ∧ m = 2 ^ 52) ∧
      2 * (i : ℚ) - 2 ^ (Int.log 2 (i : ℚ) - 52) ≤ m * 2 ^ t ∧
      m * 2 ^ t ≤ 2 * (i : ℚ) + 2 ^ (Int.log 2 (i : ℚ) - 52) := by
  have hiq : (2 ^ 53 : ℚ) ≤ i := by exact_mod_cast hi
  have hpos : (0 : ℚ) < i := by linarith
  obtain ⟨m, t, m1, m2, hm, ht, b1, b2⟩ := rne_near hpos
  have hlog : 53 ≤ Int.log 2 (i : ℚ) := by
    have h := (log_bounds hpos).2
    have : (2 : ℚ) ^ (53 : ℤ) < 2 ^ (Int.log 2 (i : ℚ) + 1) := lt_of_le_of_lt (by exact_mod_cast hiq) h
    have := (zpow_lt_zpow_iff_right₀ (by norm_num : (1 : ℚ) < 2)).1 this
    omega
  have e1 : 2 * ofUsize i = m * 2 ^ (t + 1) := by
    unfold ofUsize
    rw [hm, zpow_add₀ (by norm_num : (2 : ℚ) ≠ 0)]; ring
  have e2 : mul 2 (ofUsize i) = m * 2 ^ (t + 1) := by
    unfold mul; rw [e1, rne_exact m2]
  have e3 : (m : ℚ) * 2 ^ (t + 1) = 2 * rne (i : ℚ) := by rw [← e1]; rfl
  refine ⟨m, t + 1, m1, m2, by omega, e1, ?_, by omega, ?_, ?_⟩
  · rw [e2, add_quarter_lost m1 m2 (by omega)]
  · rw [e3]; linarith
  · rw [e3]; linarith

/-- Half a unit in the last place of the rounded square root, below `a + 3/2`: the computed row
is `a` for arguments of the square root below the square of this number. -/
def rowEdge (i a : ℕ) : ℚ := (a : ℚ) + 3 / 2 - 2 ^ (Int.log 2 (2 * ofUsize i) / 2 - 52) / 2

theorem exists_edge_facts {i a : ℕ} (hi : 2 ^ 53 ≤ i) (hi2 : i < 2 ^ 63)
    (h2 : 2 * i + 2 ≤ (a + 1) * (a + 2)) :
    ∃ (m : ℕ) (t : ℕ) (T u P : ℚ), 2 ^ 52 ≤ m ∧ m < 2 ^ 53 ∧ 2 ≤ t ∧ t ≤ 12 ∧ T = 2 ^ t ∧
      2 * ofUsize i = m * T ∧ add (1 / 4) (mul 2 (ofUsize i)) = m * T ∧
      Int.log 2 ((m : ℚ) * T) = t + 52 ∧
      u = 2 ^ (((t : ℤ) + 52) / 2 - 52) ∧ 0 < u ∧ u * 2 ^ 20 ≤ 1 ∧
      T ≤ u * u * 2 ^ 53 ∧ u * u * 2 ^ 52 ≤ T ∧ 4 ≤ T ∧ T ≤ 2 ^ 12 ∧
      P = 2 ^ (Int.log 2 (i : ℚ) - 52) ∧ (P = T / 2 ∨ P = T / 4 ∧ m = 2 ^ 52) ∧
      2 * (i : ℚ) - P ≤ m * T ∧ m * T ≤ 2 * (i : ℚ) + P ∧ (2 ^ 27 : ℚ) ≤ a + 2 := by
  have hpos : (0 : ℚ) < i := by
    have : 0 < i := by omega
    exact_mod_cast this
  obtain ⟨m, t, m1, m2, t1, e1, e2, ht, b1, b2⟩ := sqrt_arg_from hi
  have hlog : Int.log 2 (i : ℚ) ≤ 62 := by
    have h := (log_bounds hpos).1
    have h' : (i : ℚ) < 2 ^ (63 : ℤ) := by exact_mod_cast hi2
    have := (zpow_lt_zpow_iff_right₀ (by norm_num : (1 : ℚ) < 2)).1 (lt_of_le_of_lt h h')
    omega
  obtain ⟨s, rfl⟩ : ∃ s : ℕ, t = s := ⟨t.toNat, by omega⟩
  have m1q : (2 ^ 52 : ℚ) ≤ m := by exact_mod_cast m1
  have m2q : (m : ℚ) < 2 ^ 53 := by exact_mod_cast m2
  have s2 : s ≤ 12 := by omega
  have s1 : 2 ≤ s := by omega
  have hT : (2 : ℚ) ^ (s : ℤ) = 2 ^ s := zpow_natCast _ _
  have T1 : (4 : ℚ) ≤ 2 ^ s := by
    have := pow_le_pow_right₀ (by norm_num : (1 : ℚ) ≤ 2) s1
    norm_num at this ⊢; exact this
  have T2 : (2 ^ s : ℚ) ≤ 2 ^ 12 := pow_le_pow_right₀ (by norm_num : (1 : ℚ) ≤ 2) s2
  have l1 : Int.log 2 ((m : ℚ) * 2 ^ s) = s + 52 := by
    apply log_eq
    · rw [zpow_add₀ (by norm_num : (2 : ℚ) ≠ 0), hT]
      norm_num
      nlinarith
    · rw [show (s : ℤ) + 52 + 1 = s + 53 by ring, zpow_add₀ (by norm_num : (2 : ℚ) ≠ 0), hT]
      norm_num
      nlinarith
  have uu : ∀ E : ℤ, (2 : ℚ) ^ (E - 52) * 2 ^ (E - 52) = 2 ^ (2 * E - 104) := fun E => by
    rw [← zpow_add₀ (by norm_num : (2 : ℚ) ≠ 0)]; congr 1; ring
  have hu2 : (2 : ℚ) ^ (((s : ℤ) + 52) / 2 - 52) * 2 ^ (((s : ℤ) + 52) / 2 - 52) * 2 ^ 52 = 2 ^ s ∨
      (2 : ℚ) ^ (((s : ℤ) + 52) / 2 - 52) * 2 ^ (((s : ℤ) + 52) / 2 - 52) * 2 ^ 53 = 2 ^ s := by
    rw [uu]
    rcases Nat.mod_two_eq_zero_or_one s with h | h
    · left
      rw [← hT, ← zpow_natCast (2 : ℚ) 52, ← zpow_add₀ (by norm_num : (2 : ℚ) ≠ 0)]
      congr 1; push_cast; omega
    · right
      rw [← hT, ← zpow_natCast (2 : ℚ) 53, ← zpow_add₀ (by norm_num : (2 : ℚ) ≠ 0)]
      congr 1; push_cast; omega
  have hu0 : (0 : ℚ) < 2 ^ (((s : ℤ) + 52) / 2 - 52) := by positivity
  have hu1 : (2 : ℚ) ^ (((s : ℤ) + 52) / 2 - 52) * 2 ^ 20 ≤ 1 := by
    rw [← zpow_natCast (2 : ℚ) 20, ← zpow_add₀ (by norm_num : (2 : ℚ) ≠ 0),
      ← zpow_zero (2 : ℚ)]
    exact zpow_le_zpow_right₀ (by norm_num) (by push_cast; omega)
  have ha : 2 ^ 27 ≤ a + 2 := by
    by_contra h
    have := Nat.mul_le_mul (show a + 1 ≤ 2 ^ 27 by omega) (show a + 2 ≤ 2 ^ 27 by omega)
    norm_num at this hi h2
    omega
  have hP : (2 : ℚ) ^ (Int.log 2 (i : ℚ) - 52) = 2 ^ s / 2 ∨
      (2 : ℚ) ^ (Int.log 2 (i : ℚ) - 52) = 2 ^ s / 4 ∧ m = 2 ^ 52 := by
    rcases ht with h | ⟨h, h'⟩
    · left
      rw [show Int.log 2 (i : ℚ) - 52 = s + -1 by omega, zpow_add₀ (by norm_num : (2 : ℚ) ≠ 0), hT]
      norm_num; ring
    · right
      refine ⟨?_, h'⟩
      rw [show Int.log 2 (i : ℚ) - 52 = s + -2 by omega, zpow_add₀ (by norm_num : (2 : ℚ) ≠ 0), hT]
      norm_num; ring
  rw [hT] at e1 e2 b1 b2
  refine ⟨m, s, 2 ^ s, _, _, m1, m2, s1, s2, rfl, e1, e2, l1, rfl, hu0, hu1, ?_, ?_, T1, T2, rfl,
    hP, b1, b2, by exact_mod_cast ha⟩
  · rcases hu2 with h | h
    · rw [← h]
      exact mul_le_mul_of_nonneg_left (by norm_num) (mul_pos hu0 hu0).le
    · exact le_of_eq h.symm
  · rcases hu2 with h | h
    · exact le_of_eq h
    · rw [← h]
      exact mul_le_mul_of_nonneg_left (by norm_num) (mul_pos hu0 hu0).le

/-- No argument of the square root lies exactly on the edge. -/
theorem edge_ne (N a k : ℕ) (hk : 1 ≤ k) :
    (N : ℚ) ≠ ((a : ℚ) + 3 / 2 - 1 / 2 ^ k / 2) * ((a : ℚ) + 3 / 2 - 1 / 2 ^ k / 2) := by
  intro h
  have hp : (0 : ℚ) < 2 ^ k := by positivity
  have h' : (N : ℚ) * (2 * 2 ^ k) * (2 * 2 ^ k) =
      (2 ^ k * (2 * a + 3) - 1) * (2 ^ k * (2 * a + 3) - 1) := by
    rw [h]; field_simp
  obtain ⟨j, rfl⟩ : ∃ j, k = j + 1 := ⟨k - 1, by omega⟩
  have h'' : (N : ℤ) * (2 * 2 ^ (j + 1)) * (2 * 2 ^ (j + 1)) =
      (2 ^ (j + 1) * (2 * a + 3) - 1) * (2 ^ (j + 1) * (2 * a + 3) - 1) := by exact_mod_cast h'
  rw [pow_succ] at h''
  generalize (2 : ℤ) ^ j = y at h''
  have : 2 * ((N : ℤ) * (y * 2) * (2 * (y * 2)) - 2 * (y * (2 * a + 3)) * (y * (2 * a + 3)) +
      2 * (y * (2 * a + 3))) = 1 := by linarith
  omega

/-- The row computed for an index from `2^53` on is the right one or the next one, and which of
the two is decided by comparing the rounded, doubled index with the square of the edge. -/
theorem triRow_from {i a : ℕ} (hi : 2 ^ 53 ≤ i) (hi2 : i < 2 ^ 63) (h1 : a * (a + 1) ≤ 2 * i)
    (h2 : 2 * i + 2 ≤ (a + 1) * (a + 2)) :
    triRow i = if 2 * ofUsize i < rowEdge i a * rowEdge i a then a else a + 1 := by
  obtain ⟨m, t, T, u, P, m1, m2, t1, t2, hT, e1, e2, hl, hu, u0, u1, u2, u3, T1, T2, -, hP, b1, b2,
    ha⟩ := exists_edge_facts hi hi2 h2
  have m1q : (2 ^ 52 : ℚ) ≤ m := by exact_mod_cast m1
  have h1q : (a : ℚ) * (a + 1) ≤ 2 * i := by exact_mod_cast h1
  have h2q : 2 * (i : ℚ) + 2 ≤ (a + 1) * (a + 2) := by exact_mod_cast h2
  have hPT : P ≤ T / 2 := by rcases hP with h | ⟨h, -⟩ <;> linarith
  have hedge : rowEdge i a = (a : ℚ) + 3 / 2 - u / 2 := by
    unfold rowEdge; rw [e1, hl, hu]
  have hx : (0 : ℚ) < m * T := by nlinarith
  have hE2 : ((t : ℤ) + 52) / 2 ≤ 51 := by omega
  have hv : (7 / 10) * T ≤ u * (a + 3 / 2) := by
    have s1 : (2 ^ 52 - 1) * T ≤ (a + 3 / 2) * (a + 3 / 2) := by nlinarith
    have s2 : T * ((2 ^ 52 - 1) * T) ≤ (u * u * 2 ^ 53) * ((a + 3 / 2) * (a + 3 / 2)) := by
      apply mul_le_mul u2 s1 <;> nlinarith
    have s3 : (7 / 10 * T) * (7 / 10 * T) ≤ (u * (a + 3 / 2)) * (u * (a + 3 / 2)) := by nlinarith
    have : 0 ≤ u * (a + 3 / 2) := by positivity
    exact le_of_not_gt fun hc => by nlinarith
  have hlow : ((a : ℚ) + 1 / 2 - u / 2) * ((a : ℚ) + 1 / 2 - u / 2) < m * T := by nlinarith
  have hupp : m * T < ((a + 1 : ℕ) + 3 / 2 - u / 2 : ℚ) * ((a + 1 : ℕ) + 3 / 2 - u / 2) := by
    push_cast
    nlinarith
  have hne : (m : ℚ) * T ≠ ((a : ℚ) + 3 / 2 - u / 2) * ((a : ℚ) + 3 / 2 - u / 2) := by
    obtain ⟨k, hk, hk1⟩ : ∃ k : ℕ, ((t : ℤ) + 52) / 2 - 52 = -k ∧ 1 ≤ k :=
      ⟨(52 - ((t : ℤ) + 52) / 2).toNat, by omega, by omega⟩
    have := edge_ne (m * 2 ^ t) a k hk1
    rw [hu, hk, zpow_neg, zpow_natCast, ← one_div, hT]
    exact_mod_cast this
  have htri : triRow i = floorToUsize (add (-1 / 2) (fsqrt (m * T))) := by
    unfold triRow; rw [e2]
  rw [htri, hedge, e1]
  split_ifs with h
  · exact floor_sqrt hx (by rw [hl]) hE2 (by rw [← hu]; exact hlow) (by rw [← hu]; exact h)
  · refine floor_sqrt hx (by rw [hl]) hE2 ?_ (by rw [← hu]; exact hupp)
    rw [← hu]
    push_cast
    have := lt_of_le_of_ne (not_lt.1 h) hne.symm
    calc _ = ((a : ℚ) + 3 / 2 - u / 2) * ((a : ℚ) + 3 / 2 - u / 2) := by ring
      _ < _ := this

/-- The computed row is right except possibly for the last `3 * 2^(log i - 52)` places of a row. -/
theorem edge_of_gap {i a : ℕ} (hi : 2 ^ 53 ≤ i) (hi2 : i < 2 ^ 63) (h1 : a * (a + 1) ≤ 2 * i)
    (h2 : 2 * i + 6 * 2 ^ (Nat.log 2 i - 52) ≤ (a + 1) * (a + 2)) :
    2 * ofUsize i < rowEdge i a * rowEdge i a := by
  have hg : 1 ≤ 2 ^ (Nat.log 2 i - 52) := Nat.one_le_two_pow
  obtain ⟨m, t, T, u, P, m1, m2, t1, t2, hT, e1, e2, hl, hu, u0, u1, u2, u3, T1, T2, hP', hP, b1,
    b2, ha⟩ := exists_edge_facts (a := a) hi hi2 (by omega)
  have hlog : 52 ≤ Nat.log 2 i := Nat.le_log_of_pow_le (by norm_num) (by omega)
  have hPn : P = ((2 ^ (Nat.log 2 i - 52) : ℕ) : ℚ) := by
    rw [hP', Int.log_natCast]
    push_cast
    rw [← zpow_natCast]
    congr 1
    omega
  have m2q : (m : ℚ) < 2 ^ 53 := by exact_mod_cast m2
  have h1q : (a : ℚ) * (a + 1) ≤ 2 * i := by exact_mod_cast h1
  have h2q : 2 * (i : ℚ) + 6 * P ≤ (a + 1) * (a + 2) := by rw [hPn]; exact_mod_cast h2
  have hedge : rowEdge i a = (a : ℚ) + 3 / 2 - u / 2 := by
    unfold rowEdge; rw [e1, hl, hu]
  rw [hedge, e1]
  have hP0 : 1 ≤ P := by rcases hP with h | ⟨h, -⟩ <;> linarith
  have hmT : m * T ≤ 2 ^ 54 * P := by
    rcases hP with h | ⟨h, h'⟩
    · rw [h]; nlinarith
    · rw [h, h']; push_cast; nlinarith
  have hTP : T ≤ 4 * P := by rcases hP with h | ⟨h, -⟩ <;> linarith
  have hv : u * (a + 1 / 2) ≤ 4 * P + 1 / 2 := by
    have s1 : ((a : ℚ) + 1 / 2) * (a + 1 / 2) ≤ m * T + P + 1 / 4 := by nlinarith
    have s2 : (u * u * 2 ^ 52) * (((a : ℚ) + 1 / 2) * (a + 1 / 2)) ≤ T * (m * T + P + 1 / 4) := by
      apply mul_le_mul u3 s1 <;> positivity
    have s3 : T * (m * T + P + 1 / 4) ≤ (4 * P) * (2 ^ 54 * P + P + 1 / 4) := by
      apply mul_le_mul hTP _ (by positivity) (by positivity)
      linarith
    have : 0 ≤ u * ((a : ℚ) + 1 / 2) := by positivity
    exact le_of_not_gt fun hc => by nlinarith
  nlinarith

end Householder.F64
