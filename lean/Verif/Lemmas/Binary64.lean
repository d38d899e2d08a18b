import Verif.Spec.Binary64
import Verif.Lemmas.F64Big
import Mathlib.Tactic.Linarith
import Mathlib.Tactic.Positivity

/-!
# Correct rounding

The result of `RoundsTo` is unique, and `rne` and `fsqrt` of `Model/F64.lean` satisfy it.
-/

namespace Householder.Spec

theorem binary64_neg {y : ℝ} (h : Binary64 y) : Binary64 (-y) := by
  obtain ⟨m, e, h1, h2, h3, rfl⟩ := h
  exact ⟨-m, e, by rwa [abs_neg], h2, h3, by push_cast; ring⟩

theorem even_neg {y : ℝ} (h : EvenSignificand y) : EvenSignificand (-y) := by
  obtain ⟨m, e, h1, h2, h3, h4, rfl, h5⟩ := h
  exact ⟨-m, e, by rwa [abs_neg], h2, h3, by rwa [abs_neg], by push_cast; ring, h5.neg⟩

theorem binary64_zero : Binary64 0 := ⟨0, 0, by simp, by norm_num, by norm_num, by simp⟩

/-- Between two different non-negative values with even significands there is another value. -/
theorem exists_between_pos {y y' : ℝ} (h : EvenSignificand y) (h' : EvenSignificand y') (h0 : 0 ≤ y)
    (hlt : y < y') : ∃ z, Binary64 z ∧ y < z ∧ z < y' := by
  obtain ⟨m, e, hm, he, he2, hc, rfl, hev⟩ := h
  obtain ⟨m', e', hm', he', he2', hc', rfl, hev'⟩ := h'
  have p : ∀ k : ℤ, (0 : ℝ) < 2 ^ k := fun k => by positivity
  have hm0 : 0 ≤ m := by
    by_contra hn
    have : (m : ℝ) < 0 := by exact_mod_cast not_le.mp hn
    nlinarith [p e]
  have hm0' : 0 < m' := by
    by_contra hn
    have : (m' : ℝ) ≤ 0 := by exact_mod_cast not_lt.mp hn
    nlinarith [p e']
  rw [abs_of_nonneg hm0] at hm hc
  rw [abs_of_pos hm0'] at hm' hc'
  have hmR : (m : ℝ) + 1 ≤ 2 ^ (53 : ℤ) := by
    have : m + 1 ≤ 2 ^ 53 := hm
    have : ((m + 1 : ℤ) : ℝ) ≤ ((2 ^ 53 : ℤ) : ℝ) := by exact_mod_cast this
    norm_num at this ⊢; linarith
  -- a value with exponent below `k` is below `2 ^ (53 + k - 1)`
  have below : ∀ k : ℤ, e + 1 ≤ k → (m : ℝ) * 2 ^ e < 2 ^ (52 + k) := fun k hk => by
    have h1 : (m : ℝ) * 2 ^ e < 2 ^ (53 : ℤ) * 2 ^ e := by
      have := p e; nlinarith
    rw [← zpow_add₀ (by norm_num)] at h1
    exact lt_of_lt_of_le h1 (zpow_le_zpow_right₀ (by norm_num) (by omega))
  rcases lt_trichotomy e e' with hee | hee | hee
  · have h52 : 2 ^ 52 ≤ m' := by
      rcases hc' with h | h
      · exact h
      · omega
    rcases eq_or_lt_of_le h52 with h52 | h52
    · -- the value below a power of two
      refine ⟨((2 ^ 53 - 1 : ℤ) : ℝ) * 2 ^ (e' - 1), ⟨_, _, by norm_num [abs_of_nonneg], by omega, by omega, rfl⟩, ?_, ?_⟩
      · rcases eq_or_lt_of_le (show e + 1 ≤ e' by omega) with h | h
        · obtain rfl : e = e' - 1 := by omega
          have : m < 2 ^ 53 - 1 := by
            rcases hev with ⟨k, rfl⟩
            omega
          have : (m : ℝ) < ((2 ^ 53 - 1 : ℤ) : ℝ) := by exact_mod_cast this
          exact mul_lt_mul_of_pos_right this (p _)
        · refine lt_of_lt_of_le (below (e' - 1) (by omega)) ?_
          rw [zpow_add₀ (by norm_num)]
          exact mul_le_mul_of_nonneg_right (by norm_num) (p _).le
      · rw [← h52, show e' = (e' - 1) + 1 by ring, zpow_add₀ (by norm_num : (2 : ℝ) ≠ 0)]
        simp only [add_sub_cancel_right, zpow_one]
        have := p (e' - 1)
        push_cast
        nlinarith
    · refine ⟨((m' - 1 : ℤ) : ℝ) * 2 ^ e', ⟨_, _, by rw [abs_of_nonneg (by omega)]; omega, he', he2', rfl⟩, ?_, ?_⟩
      · refine lt_of_lt_of_le (below e' (by omega)) ?_
        rw [zpow_add₀ (by norm_num)]
        refine mul_le_mul_of_nonneg_right ?_ (p _).le
        have : (2 : ℤ) ^ 52 ≤ m' - 1 := by omega
        have : (((2 : ℤ) ^ 52 : ℤ) : ℝ) ≤ ((m' - 1 : ℤ) : ℝ) := by exact_mod_cast this
        norm_num at this ⊢; linarith
      · have := p e'
        push_cast
        nlinarith
  · subst hee
    have h1 : (m : ℝ) < m' := lt_of_mul_lt_mul_right hlt (p e).le
    have h1 : m < m' := by exact_mod_cast h1
    have h2 : m + 1 < m' := by
      rcases hev with ⟨k, rfl⟩
      rcases hev' with ⟨k', rfl⟩
      omega
    refine ⟨((m + 1 : ℤ) : ℝ) * 2 ^ e, ⟨_, _, by rw [abs_of_nonneg (by omega)]; omega, he, he2, rfl⟩, ?_, ?_⟩
    · exact mul_lt_mul_of_pos_right (by push_cast; linarith) (p e)
    · exact mul_lt_mul_of_pos_right (by exact_mod_cast h2) (p e)
  · -- a larger exponent would need a larger value
    exfalso
    have h52 : 2 ^ 52 ≤ m := by
      rcases hc with h | h
      · exact h
      · omega
    have h1 : (m' : ℝ) * 2 ^ e' < 2 ^ (53 : ℤ) * 2 ^ e' := by
      have : (m' : ℝ) < 2 ^ (53 : ℤ) := by
        have : ((m' : ℤ) : ℝ) < ((2 ^ 53 : ℤ) : ℝ) := by exact_mod_cast hm'
        norm_num at this ⊢; linarith
      have := p e'; nlinarith
    rw [← zpow_add₀ (by norm_num)] at h1
    have h2 : (2 : ℝ) ^ (53 + e') ≤ 2 ^ (52 + e) := zpow_le_zpow_right₀ (by norm_num) (by omega)
    have h3 : (2 : ℝ) ^ (52 + e) ≤ m * 2 ^ e := by
      rw [zpow_add₀ (by norm_num)]
      refine mul_le_mul_of_nonneg_right ?_ (p _).le
      have : (((2 : ℤ) ^ 52 : ℤ) : ℝ) ≤ ((m : ℤ) : ℝ) := by exact_mod_cast h52
      norm_num at this ⊢; linarith
    linarith

theorem exists_between {y y' : ℝ} (h : EvenSignificand y) (h' : EvenSignificand y')
    (hlt : y < y') : ∃ z, Binary64 z ∧ y < z ∧ z < y' := by
  rcases le_or_gt 0 y with h0 | h0
  · exact exists_between_pos h h' h0 hlt
  rcases le_or_gt y' 0 with h1 | h1
  · obtain ⟨z, hz, h2, h3⟩ := exists_between_pos (even_neg h') (even_neg h) (by linarith)
      (by linarith : -y' < -y)
    exact ⟨-z, binary64_neg hz, by linarith, by linarith⟩
  · exact ⟨0, binary64_zero, h0, h1⟩

/-- The result of an operation is determined. -/
theorem RoundsTo.unique {x y y' : ℝ} (h : RoundsTo x y) (h' : RoundsTo x y') : y = y' := by
  by_contra hne
  have e1 : |x - y| = |x - y'| := le_antisymm (h.2.2.1 _ h'.2.1) (h'.2.2.1 _ h.2.1)
  have ev := h.2.2.2 _ h'.2.1 e1.symm (Ne.symm hne)
  have ev' := h'.2.2.2 _ h.2.1 e1 hne
  have hx : x - y = -(x - y') := by
    rcases abs_eq_abs.mp e1 with h | h
    · exact absurd (by linarith) hne
    · exact h
  wlog hlt : y < y' generalizing y y'
  · exact this h' h (Ne.symm hne) e1.symm ev' ev (by linarith)
      (lt_of_le_of_ne (not_lt.mp hlt) (Ne.symm hne))
  obtain ⟨z, hz, h1, h2⟩ := exists_between ev ev' hlt
  have := h.2.2.1 z hz
  have a1 : |x - y| = x - y := abs_of_nonneg (by linarith)
  have : |x - z| < x - y := abs_lt.mpr ⟨by linarith, by linarith⟩
  linarith

/-- Rounding respects bounds that are binary64 values. -/
theorem RoundsTo.le {x y z : ℝ} (h : RoundsTo x y) (hz : Binary64 z) (hx : x ≤ z) : y ≤ z := by
  by_contra hn
  have := h.2.2.1 z hz
  rw [abs_of_nonpos (by linarith), abs_of_nonpos (by linarith)] at this
  linarith

theorem RoundsTo.ge {x y z : ℝ} (h : RoundsTo x y) (hz : Binary64 z) (hx : z ≤ x) : z ≤ y := by
  by_contra hn
  have := h.2.2.1 z hz
  rw [abs_of_nonneg (by linarith), abs_of_nonneg (by linarith)] at this
  linarith

/-- A binary64 value rounds to itself. -/
theorem roundsTo_self {x : ℝ} (h : Binary64 x) : RoundsTo x x := by
  refine ⟨?_, h, fun z _ => by simp, fun z _ e hz => ?_⟩
  · obtain ⟨m, e, hm, -, he, rfl⟩ := h
    rw [abs_mul, abs_of_pos (by positivity : (0 : ℝ) < 2 ^ e)]
    have h1 : |(m : ℝ)| ≤ 2 ^ 53 - 1 := by
      have : |m| ≤ 2 ^ 53 - 1 := by omega
      exact_mod_cast this
    have h2 : (2 : ℝ) ^ e ≤ 2 ^ (971 : ℤ) := zpow_le_zpow_right₀ (by norm_num) he
    have h3 : |(m : ℝ)| * 2 ^ e ≤ (2 ^ 53 - 1) * 2 ^ (971 : ℤ) :=
      mul_le_mul h1 h2 (by positivity) (by norm_num)
    have h4 : ((2 : ℝ) ^ 53 - 1) * 2 ^ (971 : ℤ) < 2 ^ 1024 - 2 ^ 970 := by
      rw [show ((2 : ℝ) ^ (971 : ℤ)) = 2 ^ 970 * 2 from (zpow_natCast 2 971).trans (pow_succ 2 970),
        show ((2 : ℝ) ^ 1024) = 2 ^ 970 * 2 ^ 54 from pow_add 2 970 54]
      have : (0 : ℝ) < 2 ^ 970 := by positivity
      generalize (2 : ℝ) ^ 970 = B at *
      norm_num
      linarith
    exact lt_of_le_of_lt h3 h4
  · simp only [sub_self, abs_zero, abs_eq_zero] at e
    exact absurd (by linarith) hz

/-- The integer multiple of the unit in the last place that is nearest, ties to even, is the
correctly rounded result. -/
theorem roundsTo_of {x : ℝ} {e : ℤ} {n : ℕ} (h1 : 2 ^ e ≤ x) (h2 : x < 2 ^ (e + 1))
    (he : -1022 ≤ e) (he2 : e ≤ 1022) (hn : |x - n * 2 ^ (e - 52)| ≤ 2 ^ (e - 52) / 2)
    (hev : |x - n * 2 ^ (e - 52)| = 2 ^ (e - 52) / 2 → Even n) :
    RoundsTo x (n * 2 ^ (e - 52)) := by
  have p : ∀ k : ℤ, (0 : ℝ) < 2 ^ k := fun k => by positivity
  obtain ⟨u, hu⟩ : ∃ u : ℝ, u = 2 ^ (e - 52) := ⟨_, rfl⟩
  have hu0 : 0 < u := hu ▸ p _
  have e52 : (2 : ℝ) ^ e = 2 ^ 52 * u := by
    rw [hu, ← zpow_natCast, ← zpow_add₀ (by norm_num)]; congr 1; push_cast; ring
  have e53 : (2 : ℝ) ^ (e + 1) = 2 ^ 53 * u := by
    rw [hu, ← zpow_natCast, ← zpow_add₀ (by norm_num)]; congr 1; push_cast; ring
  rw [← hu] at hn hev ⊢
  rw [e52] at h1
  rw [e53] at h2
  have hn' := abs_le.mp hn
  -- the significand has 53 bits, or is the next power of two
  have n1 : 2 ^ 52 ≤ n := by
    have : (2 ^ 52 : ℝ) - 1 < n := by
      by_contra hc
      have : (n : ℝ) * u ≤ (2 ^ 52 - 1) * u := mul_le_mul_of_nonneg_right (not_lt.mp hc) hu0.le
      linarith
    have : (2 ^ 52 : ℝ) < n + 1 := by linarith
    have : 2 ^ 52 < n + 1 := by exact_mod_cast this
    omega
  have n2 : n ≤ 2 ^ 53 := by
    have : (n : ℝ) < 2 ^ 53 + 1 := by
      by_contra hc
      have : (2 ^ 53 + 1) * u ≤ (n : ℝ) * u := mul_le_mul_of_nonneg_right (not_lt.mp hc) hu0.le
      linarith
    have : n < 2 ^ 53 + 1 := by exact_mod_cast this
    omega
  -- the value as significand and exponent
  have val : ∃ m k : ℤ, |m| < 2 ^ 53 ∧ -1074 ≤ k ∧ k ≤ 971 ∧ 2 ^ 52 ≤ |m| ∧ (n : ℝ) * u = m * 2 ^ k ∧
      (Even n → Even m) := by
    rcases eq_or_lt_of_le n2 with h | h
    · refine ⟨2 ^ 52, e - 51, by norm_num [abs_of_nonneg], by omega, by omega,
        by norm_num [abs_of_nonneg], ?_, fun _ => by decide⟩
      rw [h, hu, show e - 51 = (e - 52) + 1 by ring, zpow_add₀ (by norm_num)]
      push_cast
      ring
    · refine ⟨n, e - 52, by rw [abs_of_nonneg (by omega)]; exact_mod_cast h, by omega, by omega,
        by rw [abs_of_nonneg (by omega)]; exact_mod_cast n1, by rw [hu]; push_cast; rfl,
        fun h => by exact_mod_cast h⟩
  obtain ⟨m, k, v1, v2, v3, v4, v5, v6⟩ := val
  -- other values are multiples of the unit, or further away than the power of two below
  have other : ∀ z, Binary64 z → |x - n * u| ≤ |x - z| ∧ (|x - z| = |x - n * u| → z ≠ n * u →
      |x - n * u| = u / 2) := by
    rintro z ⟨a, b, ha, hb, hb2, rfl⟩
    -- distances to multiples of the unit
    have mult : ∀ j : ℤ, (j : ℝ) ≠ n → u / 2 ≤ |x - j * u| := by
      intro j hj
      by_contra hc
      have hc' := abs_lt.mp (not_le.mp hc)
      have d1 : ((j : ℝ) - n) * u < 1 * u := by linarith
      have d2 : (-1 : ℝ) * u < ((j : ℝ) - n) * u := by linarith
      have d1 := lt_of_mul_lt_mul_right d1 hu0.le
      have d2 := lt_of_mul_lt_mul_right d2 hu0.le
      have d1 : (j - n : ℤ) < 1 := by exact_mod_cast d1
      have d2 : -1 < (j - n : ℤ) := by exact_mod_cast d2
      exact hj (by have : j = n := by omega
                   rw [this]; push_cast; rfl)
    by_cases hz : (2 : ℝ) ^ 52 * u ≤ a * 2 ^ b
    · have ha0 : 0 ≤ a := by
        by_contra hneg
        have : (a : ℝ) < 0 := by exact_mod_cast not_le.mp hneg
        have := p b
        have : (0 : ℝ) < 2 ^ 52 * u := by positivity
        nlinarith
      rw [abs_of_nonneg ha0] at ha
      have hbe : e - 52 ≤ b := by
        by_contra hlt
        have q1 : (a : ℝ) < 2 ^ (53 : ℤ) := by
          have : ((a : ℤ) : ℝ) < ((2 ^ 53 : ℤ) : ℝ) := by exact_mod_cast ha
          norm_num at this ⊢; linarith
        have q2 : (a : ℝ) * 2 ^ b < 2 ^ (53 : ℤ) * 2 ^ b := mul_lt_mul_of_pos_right q1 (p b)
        rw [← zpow_add₀ (by norm_num)] at q2
        have q3 : (2 : ℝ) ^ (53 + b) ≤ 2 ^ e := zpow_le_zpow_right₀ (by norm_num) (by omega)
        linarith
      obtain ⟨t, ht⟩ := Int.le.dest hbe
      have hz' : (a : ℝ) * 2 ^ b = ((a * 2 ^ t : ℤ) : ℝ) * u := by
        rw [← ht, zpow_add₀ (by norm_num), hu, zpow_natCast]
        push_cast
        ring
      rw [hz']
      by_cases hj : (((a * 2 ^ t : ℤ) : ℝ)) = n
      · rw [hj]
        exact ⟨le_refl _, fun _ h => absurd rfl h⟩
      · have := mult _ hj
        exact ⟨le_trans hn this, fun h _ => le_antisymm hn (h ▸ this)⟩
    · have hz := not_le.mp hz
      have q : |x - n * u| ≤ |x - ((2 ^ 52 : ℤ) : ℝ) * u| := by
        by_cases hj : (((2 ^ 52 : ℤ) : ℝ)) = n
        · rw [hj]
        · exact le_trans hn (mult _ hj)
      rw [show ((2 ^ 52 : ℤ) : ℝ) = 2 ^ 52 by norm_num] at q
      rw [abs_of_nonneg (by linarith : 0 ≤ x - 2 ^ 52 * u)] at q
      have : |x - a * 2 ^ b| = x - a * 2 ^ b := abs_of_nonneg (by linarith)
      rw [this]
      exact ⟨by linarith, fun h _ => by linarith⟩
  refine ⟨?_, ⟨m, k, v1, v2, v3, v5⟩, fun z hz => (other z hz).1, fun z hz h hne =>
    ⟨m, k, v1, v2, v3, .inl v4, v5, v6 (hev ((other z hz).2 h hne))⟩⟩
  rw [abs_of_nonneg (by have := p e; rw [e52] at this; linarith)]
  rw [← e53] at h2
  have q1 : (2 : ℝ) ^ (e + 1) ≤ 2 ^ (1023 : ℤ) := zpow_le_zpow_right₀ (by norm_num) (by omega)
  have q2 : (2 : ℝ) ^ (1023 : ℤ) ≤ 2 ^ 1024 - 2 ^ 970 := by
    rw [show ((2 : ℝ) ^ (1023 : ℤ)) = 2 ^ 970 * 2 ^ 53 from
        (zpow_natCast 2 1023).trans (pow_add 2 970 53),
      show ((2 : ℝ) ^ 1024) = 2 ^ 970 * 2 ^ 54 from pow_add 2 970 54]
    have : (0 : ℝ) < 2 ^ 970 := by positivity
    generalize (2 : ℝ) ^ 970 = B at *
    norm_num
    linarith
  exact lt_of_lt_of_le h2 (le_trans q1 q2)

/-! ## The operations of the model -/

open F64

theorem roundHalfEven_tie {q : ℚ} (h : |q - roundHalfEven q| = 1 / 2) : Even (roundHalfEven q) := by
  have hf := Int.floor_le q
  have hf' := Int.lt_floor_add_one q
  unfold roundHalfEven at h ⊢
  simp only at h ⊢
  split_ifs at h ⊢ with h1 h2 h3
  · rw [abs_of_nonneg (by linarith)] at h
    linarith
  · push_cast at h
    rw [abs_of_nonpos (by linarith)] at h
    linarith
  · exact Int.even_iff.mpr h3
  · exact Int.even_iff.mpr (by omega)

/-- `rne` rounds correctly, in the range of normal numbers. -/
theorem rne_roundsTo {x : ℚ} (h1 : 1 / 4 ≤ x) (h2 : x < 2 ^ 100) : RoundsTo x (rne x) := by
  have hx : 0 < x := by linarith
  obtain ⟨b1, b2⟩ := log_bounds hx
  obtain ⟨e, he⟩ : ∃ e, Int.log 2 x = e := ⟨_, rfl⟩
  rw [he] at b1 b2
  have c1 : (2 : ℝ) ^ e ≤ x := by
    have := (Rat.cast_le (K := ℝ)).mpr b1
    push_cast at this
    exact this
  have c2 : (x : ℝ) < 2 ^ (e + 1) := by
    have := (Rat.cast_lt (K := ℝ)).mpr b2
    push_cast at this
    exact this
  have e1 : -3 < e + 1 := by
    refine (zpow_lt_zpow_iff_right₀ (by norm_num : (1 : ℚ) < 2)).1 (lt_of_le_of_lt ?_ b2)
    norm_num at h1 ⊢
    linarith
  have e2 : e < 100 := by
    refine (zpow_lt_zpow_iff_right₀ (by norm_num : (1 : ℚ) < 2)).1 (lt_of_le_of_lt b1 ?_)
    exact_mod_cast h2
  have hu : (0 : ℚ) < 2 ^ (e - 52) := by positivity
  obtain ⟨q, hq⟩ : ∃ q, x / 2 ^ (e - 52) = q := ⟨_, rfl⟩
  have hxq : x = q * 2 ^ (e - 52) := by rw [← hq]; field_simp
  have near := roundHalfEven_near q
  have q0 : 0 < q := by rw [← hq]; positivity
  have hpos : 0 ≤ roundHalfEven q := by
    have : (-1 : ℚ) < roundHalfEven q := by linarith
    have : -1 < roundHalfEven q := by exact_mod_cast this
    omega
  obtain ⟨n, hn⟩ := Int.eq_ofNat_of_zero_le hpos
  have hr : rne x = (n : ℚ) * 2 ^ (e - 52) := by
    unfold rne ulp
    rw [if_neg (not_le.2 hx), he, hq, hn]
    push_cast
    rfl
  rw [hn] at near
  have hd : |x - (n : ℚ) * 2 ^ (e - 52)| = |q - n| * 2 ^ (e - 52) := by
    rw [hxq, ← sub_mul, abs_mul, abs_of_pos hu]
  have hdR : |(x : ℝ) - (n : ℝ) * 2 ^ (e - 52)| = ((|q - n| * 2 ^ (e - 52) : ℚ) : ℝ) := by
    rw [← hd]
    push_cast
    rfl
  rw [hr]
  have key := roundsTo_of (x := (x : ℝ)) (e := e) (n := n) c1 c2
    (by omega) (by omega)
    (by
      rw [hdR, show (2 : ℝ) ^ (e - 52) / 2 = ((2 ^ (e - 52) / 2 : ℚ) : ℝ) by push_cast; rfl]
      refine Rat.cast_le.mpr ?_
      have : |q - n| ≤ 1 / 2 := abs_le.mpr ⟨by push_cast at near; linarith, by push_cast at near; linarith⟩
      nlinarith)
    (by
      rw [hdR, show (2 : ℝ) ^ (e - 52) / 2 = ((2 ^ (e - 52) / 2 : ℚ) : ℝ) by push_cast; rfl]
      intro h
      have h := Rat.cast_injective h
      have h : |q - roundHalfEven q| = 1 / 2 := by
        rw [hn]
        push_cast
        have : |q - n| * 2 ^ (e - 52) = 1 / 2 * 2 ^ (e - 52) := by linarith
        exact mul_right_cancel₀ hu.ne' this
      have := roundHalfEven_tie h
      rw [hn] at this
      exact_mod_cast this)
  simpa using key

theorem rne_zero : rne 0 = 0 := by simp [rne]

/-- `fsqrt` rounds correctly. -/
theorem fsqrt_roundsTo {x : ℚ} (h1 : 1 / 4 ≤ x) (h2 : x < 2 ^ 100) :
    RoundsTo (√(x : ℝ)) (fsqrt x) := by
  have hx : 0 < x := by linarith
  obtain ⟨b1, b2⟩ := log_bounds hx
  obtain ⟨e, he⟩ : ∃ e, Int.log 2 x = e := ⟨_, rfl⟩
  rw [he] at b1 b2
  have c1 : (2 : ℝ) ^ e ≤ x := by
    have := (Rat.cast_le (K := ℝ)).mpr b1
    push_cast at this
    exact this
  have c2 : (x : ℝ) < 2 ^ (e + 1) := by
    have := (Rat.cast_lt (K := ℝ)).mpr b2
    push_cast at this
    exact this
  have e1 : -3 < e + 1 := by
    refine (zpow_lt_zpow_iff_right₀ (by norm_num : (1 : ℚ) < 2)).1 (lt_of_le_of_lt ?_ b2)
    norm_num at h1 ⊢
    linarith
  have e2 : e < 100 := by
    refine (zpow_lt_zpow_iff_right₀ (by norm_num : (1 : ℚ) < 2)).1 (lt_of_le_of_lt b1 ?_)
    exact_mod_cast h2
  obtain ⟨u, hu⟩ : ∃ u : ℚ, u = 2 ^ (e / 2 - 52) := ⟨_, rfl⟩
  have hu0 : 0 < u := by rw [hu]; positivity
  obtain ⟨q, hq⟩ : ∃ q, x / (u * u) = q := ⟨_, rfl⟩
  have hxq : x = q * (u * u) := by rw [← hq]; field_simp
  have q0 : 0 < q := by rw [← hq]; positivity
  obtain ⟨s, hs⟩ : ∃ s, Nat.sqrt ⌊q⌋₊ = s := ⟨_, rfl⟩
  have hs1 : (s : ℚ) * s ≤ q := by
    have h : s * s ≤ ⌊q⌋₊ := hs ▸ Nat.sqrt_le ⌊q⌋₊
    have h' : ((s * s : ℕ) : ℚ) ≤ q := (Nat.le_floor_iff q0.le).1 h
    simpa using h'
  have hs2 : q < ((s : ℚ) + 1) * (s + 1) := by
    have h : ⌊q⌋₊ < (s + 1) * (s + 1) := hs ▸ Nat.lt_succ_sqrt ⌊q⌋₊
    have h' := (Nat.floor_lt q0.le).1 h
    simpa using h'
  -- the same over the reals
  obtain ⟨r, hr⟩ : ∃ r : ℝ, √(q : ℝ) = r := ⟨_, rfl⟩
  have r0 : 0 ≤ r := hr ▸ Real.sqrt_nonneg _
  have rr : r * r = q := by rw [← hr]; exact Real.mul_self_sqrt (by exact_mod_cast q0.le)
  have huR : (u : ℝ) = 2 ^ (e / 2 - 52) := by rw [hu]; push_cast; rfl
  have huR0 : (0 : ℝ) < u := by exact_mod_cast hu0
  have hsq : √(x : ℝ) = r * u := by
    rw [hxq]
    push_cast
    rw [← rr, show r * r * (↑u * ↑u) = (r * u) * (r * u) by ring]
    exact Real.sqrt_mul_self (by positivity)
  have r1 : (s : ℝ) ≤ r := by
    have : (s : ℝ) * s ≤ r * r := by rw [rr]; exact_mod_cast hs1
    nlinarith
  have r2 : r < (s : ℝ) + 1 := by
    have : r * r < ((s : ℝ) + 1) * (s + 1) := by rw [rr]; exact_mod_cast hs2
    nlinarith
  obtain ⟨n, hn⟩ : ∃ n : ℕ, n = if q < ((s : ℚ) + 1 / 2) * ((s : ℚ) + 1 / 2) then s
      else if ((s : ℚ) + 1 / 2) * ((s : ℚ) + 1 / 2) < q then s + 1
      else if s % 2 = 0 then s else s + 1 := ⟨_, rfl⟩
  have hres : fsqrt x = (n : ℚ) * u := by
    unfold fsqrt
    simp only
    rw [he, ← hu, hq, hs, hn]
  have nn : |r - n| ≤ 1 / 2 ∧ (|r - n| = 1 / 2 → Even n) := by
    have c0 : ((((s : ℚ) + 1 / 2) * ((s : ℚ) + 1 / 2) : ℚ) : ℝ) = ((s : ℝ) + 1 / 2) * (s + 1 / 2) := by
      push_cast; ring
    split_ifs at hn with c1 c2 c3
    · have c1 : r * r < ((s : ℝ) + 1 / 2) * (s + 1 / 2) := by
        rw [rr, ← c0]; exact_mod_cast c1
      have : r < s + 1 / 2 := by nlinarith
      rw [hn, abs_of_nonneg (by linarith)]
      exact ⟨by linarith, fun _ => by linarith⟩
    · have c2 : ((s : ℝ) + 1 / 2) * (s + 1 / 2) < r * r := by
        rw [rr, ← c0]; exact_mod_cast c2
      have : s + 1 / 2 < r := by nlinarith
      rw [hn]
      push_cast
      rw [abs_of_nonpos (by linarith)]
      exact ⟨by linarith, fun _ => by linarith⟩
    all_goals
      have c : q = ((s : ℚ) + 1 / 2) * ((s : ℚ) + 1 / 2) := le_antisymm (not_lt.mp c2) (not_lt.mp c1)
      have c : r * r = ((s : ℝ) + 1 / 2) * (s + 1 / 2) := by rw [rr, ← c0, ← c]
      have : r = s + 1 / 2 := by nlinarith
    · rw [hn, this]
      refine ⟨by norm_num, fun _ => Nat.even_iff.mpr c3⟩
    · rw [hn, this]
      push_cast
      refine ⟨by norm_num [abs_le], fun _ => Nat.even_iff.mpr (by omega)⟩
  have hd : |√(x : ℝ) - n * u| = |r - n| * u := by
    rw [hsq, ← sub_mul, abs_mul, abs_of_pos huR0]
  have key := roundsTo_of (x := √(x : ℝ)) (e := e / 2) (n := n)
    (by
      refine Real.le_sqrt_of_sq_le ?_
      have : ((2 : ℝ) ^ (e / 2)) ^ 2 ≤ 2 ^ e := by
        rw [← zpow_natCast, ← zpow_mul]
        exact zpow_le_zpow_right₀ (by norm_num) (by push_cast; omega)
      exact le_trans this c1)
    (by
      refine (Real.sqrt_lt' (by positivity)).mpr ?_
      have : (2 : ℝ) ^ (e + 1) ≤ ((2 : ℝ) ^ (e / 2 + 1)) ^ 2 := by
        rw [← zpow_natCast, ← zpow_mul]
        exact zpow_le_zpow_right₀ (by norm_num) (by push_cast; omega)
      exact lt_of_lt_of_le c2 this)
    (by omega) (by omega)
    (by rw [← huR, hd]; nlinarith [nn.1])
    (by
      rw [← huR, hd]
      intro h
      refine nn.2 (mul_right_cancel₀ huR0.ne' ?_)
      linarith)
  rw [hres]
  push_cast
  rw [huR]
  exact key

end Householder.Spec
