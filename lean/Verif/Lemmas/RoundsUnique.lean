import Verif.Lemmas.Special

/-!
# Rounding is determined, in every format
-/

namespace Householder.Spec

namespace Format

variable (f : Format)

theorem even_neg {y : ℚ} (h : f.Even y) : f.Even (-y) := by
  obtain ⟨m, e, h1, h2, h3, h4, rfl, h5⟩ := h
  exact ⟨-m, e, by rwa [abs_neg], h2, h3, by rwa [abs_neg], by push_cast; ring, h5.neg⟩

/-- Between two different non-negative values with even significands there is another value. -/
theorem exists_between_pos {y y' : ℚ} (h : f.Even y) (h' : f.Even y') (h0 : 0 ≤ y)
    (hlt : y < y') : ∃ z, f.Value z ∧ y < z ∧ z < y' := by
  obtain ⟨m, e, hm, he, he2, hc, rfl, hev⟩ := h
  obtain ⟨m', e', hm', he', he2', hc', rfl, hev'⟩ := h'
  have p : ∀ k : ℤ, (0 : ℚ) < 2 ^ k := fun k => by positivity
  -- `P = 2^(p-1)`, so that `2^p = 2 P`
  obtain ⟨n, hn⟩ : ∃ n, f.p = n + 2 := ⟨f.p - 2, by have := f.two_le_p; omega⟩
  obtain ⟨P, hP⟩ : ∃ P : ℤ, P = 2 ^ (f.p - 1) := ⟨_, rfl⟩
  have hPp : (2 : ℤ) ^ f.p = 2 * P := by rw [hP, hn]; exact pow_succ' 2 (n + 1)
  have hP1 : 1 < P := by
    rw [hP, hn]
    show (1 : ℤ) < 2 ^ (n + 1)
    rw [pow_succ]
    have : (1 : ℤ) ≤ 2 ^ n := one_le_pow₀ (by norm_num)
    omega
  rw [hPp] at hm hm'
  rw [← hP] at hc hc'
  have hm0 : 0 ≤ m := by
    by_contra hn
    have : (m : ℚ) < 0 := by exact_mod_cast not_le.mp hn
    nlinarith [p e]
  have hm0' : 0 < m' := by
    by_contra hn
    have : (m' : ℚ) ≤ 0 := by exact_mod_cast not_lt.mp hn
    nlinarith [p e']
  rw [abs_of_nonneg hm0] at hm hc
  rw [abs_of_pos hm0'] at hm' hc'
  have mkValue : ∀ {k l : ℤ}, 0 ≤ k → k < 2 * P → f.lo ≤ l → l ≤ f.hi → f.Value ((k : ℚ) * 2 ^ l) :=
    fun {k l} h1 h2 h3 h4 => ⟨k, l, by rw [abs_of_nonneg h1, hPp]; exact h2, h3, h4, rfl⟩
  -- a value with exponent below `k` is below `P * 2^k`
  have below : ∀ k : ℤ, e + 1 ≤ k → (m : ℚ) * 2 ^ e < P * 2 ^ k := fun k hk => by
    have h1 : (m : ℚ) < 2 * P := by exact_mod_cast hm
    have h2 : (2 : ℚ) ^ (e + 1) ≤ 2 ^ k := zpow_le_zpow_right₀ (by norm_num) hk
    rw [zpow_add₀ (by norm_num : (2 : ℚ) ≠ 0), zpow_one] at h2
    have h3 : (0 : ℚ) < P := by exact_mod_cast (by omega : 0 < P)
    have := p e
    nlinarith
  rcases lt_trichotomy e e' with hee | hee | hee
  · have h52 : P ≤ m' := by
      rcases hc' with h | h
      · exact h
      · omega
    rcases eq_or_lt_of_le h52 with h52 | h52
    · -- the value below a power of two
      refine ⟨((2 * P - 1 : ℤ) : ℚ) * 2 ^ (e' - 1), mkValue (by omega) (by omega) (by omega) (by omega), ?_, ?_⟩
      · rcases eq_or_lt_of_le (show e + 1 ≤ e' by omega) with h | h
        · obtain rfl : e = e' - 1 := by omega
          have : m < 2 * P - 1 := by
            rcases hev with ⟨k, rfl⟩
            omega
          have : (m : ℚ) < ((2 * P - 1 : ℤ) : ℚ) := by exact_mod_cast this
          exact mul_lt_mul_of_pos_right this (p _)
        · refine lt_of_lt_of_le (below (e' - 1) (by omega)) ?_
          exact mul_le_mul_of_nonneg_right (by exact_mod_cast (by omega : P ≤ 2 * P - 1)) (p _).le
      · rw [← h52, show e' = (e' - 1) + 1 by ring, zpow_add₀ (by norm_num : (2 : ℚ) ≠ 0)]
        simp only [add_sub_cancel_right, zpow_one]
        have := p (e' - 1)
        push_cast
        nlinarith
    · refine ⟨((m' - 1 : ℤ) : ℚ) * 2 ^ e', mkValue (by omega) (by omega) he' he2', ?_, ?_⟩
      · refine lt_of_lt_of_le (below e' (by omega)) ?_
        exact mul_le_mul_of_nonneg_right (by exact_mod_cast (by omega : P ≤ m' - 1)) (p _).le
      · have := p e'
        push_cast
        nlinarith
  · subst hee
    have h1 : (m : ℚ) < m' := lt_of_mul_lt_mul_right hlt (p e).le
    have h1 : m < m' := by exact_mod_cast h1
    have h2 : m + 1 < m' := by
      rcases hev with ⟨k, rfl⟩
      rcases hev' with ⟨k', rfl⟩
      omega
    refine ⟨((m + 1 : ℤ) : ℚ) * 2 ^ e, mkValue (by omega) (by omega) he he2, ?_, ?_⟩
    · exact mul_lt_mul_of_pos_right (by push_cast; linarith) (p e)
    · exact mul_lt_mul_of_pos_right (by exact_mod_cast h2) (p e)
  · -- a larger exponent would need a larger value
    exfalso
    have h52 : P ≤ m := by
      rcases hc with h | h
      · exact h
      · omega
    have h1 : (m' : ℚ) < 2 * P := by exact_mod_cast hm'
    have h2 : (P : ℚ) ≤ m := by exact_mod_cast h52
    have h3 : (2 : ℚ) ^ (e' + 1) ≤ 2 ^ e := zpow_le_zpow_right₀ (by norm_num) (by omega)
    rw [zpow_add₀ (by norm_num : (2 : ℚ) ≠ 0), zpow_one] at h3
    have h4 : (0 : ℚ) < P := by exact_mod_cast (by omega : 0 < P)
    have := p e'
    nlinarith

theorem exists_between {y y' : ℚ} (h : f.Even y) (h' : f.Even y') (hlt : y < y') :
    ∃ z, f.Value z ∧ y < z ∧ z < y' := by
  rcases le_or_gt 0 y with h0 | h0
  · exact f.exists_between_pos h h' h0 hlt
  rcases le_or_gt y' 0 with h1 | h1
  · obtain ⟨z, hz, h2, h3⟩ := f.exists_between_pos (f.even_neg h') (f.even_neg h) (by linarith)
      (by linarith : -y' < -y)
    exact ⟨-z, f.value_neg hz, by linarith, by linarith⟩
  · exact ⟨0, f.value_zero, h0, h1⟩

/-- The result of an operation is determined. -/
theorem RoundsTo.unique {x y y' : ℚ} (h : f.RoundsTo x y) (h' : f.RoundsTo x y') : y = y' := by
  by_contra hne
  have e1 : |x - y| = |x - y'| := le_antisymm (h.2.1 _ h'.1) (h'.2.1 _ h.1)
  have ev := h.2.2 _ h'.1 e1.symm (Ne.symm hne)
  have ev' := h'.2.2 _ h.1 e1 hne
  have hx : x - y = -(x - y') := by
    rcases abs_eq_abs.mp e1 with h | h
    · exact absurd (by linarith) hne
    · exact h
  wlog hlt : y < y' generalizing y y'
  · exact this h' h (Ne.symm hne) e1.symm ev' ev (by linarith)
      (lt_of_le_of_ne (not_lt.mp hlt) (Ne.symm hne))
  obtain ⟨z, hz, h1, h2⟩ := f.exists_between ev ev' hlt
  have := h.2.1 z hz
  have a1 : |x - y| = x - y := abs_of_nonneg (by linarith)
  have : |x - z| < x - y := abs_lt.mpr ⟨by linarith, by linarith⟩
  linarith

/-- Rounding is odd. -/
theorem RoundsTo.neg {x y : ℚ} (h : f.RoundsTo x y) : f.RoundsTo (-x) (-y) := by
  have habs : ∀ a b : ℚ, |-a - b| = |a - -b| := fun a b => by rw [← abs_neg]; congr 1; ring
  refine ⟨f.value_neg h.1, fun z hz => ?_, fun z hz he hne => ?_⟩
  · rw [habs, habs, neg_neg]
    exact h.2.1 _ (f.value_neg hz)
  · rw [habs, habs, neg_neg] at he
    exact f.even_neg (h.2.2 _ (f.value_neg hz) he fun h => hne (by rw [← h, neg_neg]))

end Format

namespace Datum

variable {f : Format}

theorem Rounded.unique {s : Bool} {z : ℚ} {r r' : Datum} (h : Rounded f s z r) (h' : Rounded f s z r') :
    r = r' := by
  unfold Rounded at h h'
  by_cases hl : |z| < f.limit
  · rw [if_pos hl] at h h'
    obtain ⟨y, rfl, hy⟩ := h
    obtain ⟨y', rfl, hy'⟩ := h'
    rw [Format.RoundsTo.unique f hy hy']
  · rw [if_neg hl] at h h'
    rw [h, h']

/-- The sum is determined by the terms. -/
theorem Sum.unique {a b r r' : Datum} (h : Sum f a b r) (h' : Sum f a b r') : r = r' := by
  cases a <;> cases b <;> first
    | exact Rounded.unique h h'
    | exact Eq.trans h (Eq.symm h')

/-- The product is determined by the factors. -/
theorem Product.unique {a b r r' : Datum} (h : Product f a b r) (h' : Product f a b r') : r = r' := by
  cases a <;> cases b <;> first
    | exact Rounded.unique h h'
    | exact Eq.trans h (Eq.symm h')

theorem Sum.symm {a b r : Datum} (h : Sum f a b r) : Sum f b a r := by
  cases a with
  | nan => cases b <;> exact h
  | inf s =>
    cases b with
    | nan => exact h
    | fin t y => exact h
    | inf t =>
      simp only [Sum] at h ⊢
      by_cases e : s = t
      · subst e; exact h
      · rw [if_neg e] at h
        rw [if_neg (Ne.symm e)]
        exact h
  | fin s x =>
    cases b with
    | nan => exact h
    | inf t => exact h
    | fin t y =>
      simp only [Sum] at h ⊢
      rw [Bool.and_comm, add_comm]
      exact h

/-- Numbers of the format that are their own rounding. -/
theorem Rounded.of_value {s : Bool} {z : ℚ} (hz : f.Value z) (hs : z ≠ 0 → s = decide (z < 0)) :
    Rounded f s z (fin s z) := by
  unfold Rounded
  rw [if_pos (f.value_lt_limit hz)]
  refine ⟨z, ?_, hz, fun y _ => by simp, fun y _ he hne => ?_⟩
  · by_cases h : z = 0
    · rw [if_pos h]
    · rw [if_neg h, hs h]
  · rw [sub_self, abs_zero, abs_eq_zero, sub_eq_zero] at he
    exact absurd he.symm hne

end Datum

end Householder.Spec
