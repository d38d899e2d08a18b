import Verif.Lemmas.Binary64
import Verif.Lemmas.Out

/-!
# Property C09, the floating-point part

`F64.triRow`, with which `UpperTriangular::convert_1d_2d` is modelled, is what IEEE-754 prescribes.
-/

namespace Householder.Props

open Spec F64

theorem binary64_pow {k : ℕ} (hk : k ≤ 971) : Binary64 (2 ^ k) :=
  ⟨1, k, by norm_num, by omega, by omega, by simp⟩

/-- The model's results are the correctly rounded ones, and small. -/
theorem row_steps {i k : ℕ} (hk : k ≤ 32) (hi : i < 2 ^ (2 * k)) :
    RoundsTo (i : ℝ) (ofUsize i) ∧ RoundsTo (2 * (ofUsize i : ℝ)) (mul 2 (ofUsize i)) ∧
    RoundsTo (1 / 4 + (mul 2 (ofUsize i) : ℝ)) (add (1 / 4) (mul 2 (ofUsize i))) ∧
    RoundsTo (√(add (1 / 4) (mul 2 (ofUsize i)) : ℝ)) (fsqrt (add (1 / 4) (mul 2 (ofUsize i)))) ∧
    RoundsTo (-1 / 2 + (fsqrt (add (1 / 4) (mul 2 (ofUsize i))) : ℝ))
      (add (-1 / 2) (fsqrt (add (1 / 4) (mul 2 (ofUsize i))))) ∧
    add (-1 / 2) (fsqrt (add (1 / 4) (mul 2 (ofUsize i)))) ≤ (2 : ℚ) ^ (k + 1) := by
  have cast : ∀ {q : ℚ} {n : ℕ}, (q : ℝ) ≤ 2 ^ n → q ≤ 2 ^ n := fun {q n} h => by
    have : (q : ℝ) ≤ ((2 ^ n : ℚ) : ℝ) := by push_cast; exact h
    exact_mod_cast this
  have big : ∀ {n : ℕ}, n ≤ 66 → ∀ {q : ℚ}, q ≤ 2 ^ n → q < 2 ^ 100 := fun {n} hn {q} h =>
    lt_of_le_of_lt h (pow_lt_pow_right₀ (by norm_num) (by omega))
  have hiR : (i : ℝ) ≤ 2 ^ (2 * k) := by exact_mod_cast hi.le
  -- `index as f64`
  have s1 : RoundsTo (i : ℝ) (ofUsize i) := by
    rcases Nat.eq_zero_or_pos i with rfl | h
    · simpa [ofUsize, rne_zero] using roundsTo_self binary64_zero
    · have h1 : (1 : ℚ) ≤ i := by exact_mod_cast h
      have := rne_roundsTo (x := (i : ℚ)) (by linarith) (big (n := 2 * k) (by omega) (by exact_mod_cast hi.le))
      simpa [ofUsize] using this
  have u1 := s1.le (binary64_pow (k := 2 * k) (by omega)) hiR
  have l1 := s1.ge binary64_zero (by positivity)
  -- `2.0 * index`
  have u1' : 2 * ofUsize i ≤ (2 : ℚ) ^ (2 * k + 1) := by
    have := cast u1
    rw [pow_succ]; linarith
  have s2 : RoundsTo (2 * (ofUsize i : ℝ)) (mul 2 (ofUsize i)) := by
    rcases Nat.eq_zero_or_pos i with rfl | h
    · simpa [ofUsize, mul, rne_zero] using roundsTo_self binary64_zero
    · have h1 : (1 : ℝ) ≤ ofUsize i := s1.ge (by simpa using binary64_pow (k := 0) (by omega))
        (by exact_mod_cast h)
      have h1 : (1 : ℚ) ≤ ofUsize i := by exact_mod_cast h1
      have := rne_roundsTo (x := 2 * ofUsize i) (by linarith) (big (n := 2 * k + 1) (by omega) u1')
      simpa [mul] using this
  have u2 := s2.le (binary64_pow (k := 2 * k + 1) (by omega))
    (by have : ((2 * ofUsize i : ℚ) : ℝ) ≤ ((2 ^ (2 * k + 1) : ℚ) : ℝ) := Rat.cast_le.mpr u1'
        push_cast at this
        exact this)
  have l2 := s2.ge binary64_zero (by linarith)
  -- `0.25 + 2.0 * index`
  have u2' : 1 / 4 + mul 2 (ofUsize i) ≤ (2 : ℚ) ^ (2 * k + 2) := by
    have := cast u2
    have h1 : (1 : ℚ) ≤ 2 ^ (2 * k + 1) := one_le_pow₀ (by norm_num)
    rw [pow_succ]; linarith
  have l2' : (0 : ℚ) ≤ mul 2 (ofUsize i) := by exact_mod_cast l2
  have s3 : RoundsTo (1 / 4 + (mul 2 (ofUsize i) : ℝ)) (add (1 / 4) (mul 2 (ofUsize i))) := by
    have := rne_roundsTo (x := 1 / 4 + mul 2 (ofUsize i)) (by linarith)
      (big (n := 2 * k + 2) (by omega) u2')
    simpa [add] using this
  have u3 := s3.le (binary64_pow (k := 2 * k + 2) (by omega))
    (by have : ((1 / 4 + mul 2 (ofUsize i) : ℚ) : ℝ) ≤ ((2 ^ (2 * k + 2) : ℚ) : ℝ) := Rat.cast_le.mpr u2'
        push_cast at this
        exact this)
  have l3 : (1 / 4 : ℝ) ≤ add (1 / 4) (mul 2 (ofUsize i)) :=
    s3.ge ⟨1, -2, by norm_num, by norm_num, by norm_num, by norm_num⟩ (by linarith)
  obtain ⟨c, hc⟩ : ∃ c, add (1 / 4) (mul 2 (ofUsize i)) = c := ⟨_, rfl⟩
  rw [hc] at s3 u3 l3 ⊢
  have l3' : (1 / 4 : ℚ) ≤ c := by
    have : ((1 / 4 : ℚ) : ℝ) ≤ c := by push_cast; exact l3
    exact_mod_cast this
  -- the square root
  have s4 := fsqrt_roundsTo l3' (big (n := 2 * k + 2) (by omega) (cast u3))
  have u4 := s4.le (binary64_pow (k := k + 1) (by omega)) (Real.sqrt_le_iff.mpr ⟨by positivity, by
    rw [← pow_mul, show (k + 1) * 2 = 2 * k + 2 by ring]; exact u3⟩)
  have l4 : (1 / 2 : ℝ) ≤ fsqrt c :=
    s4.ge ⟨1, -1, by norm_num, by norm_num, by norm_num, by norm_num⟩
      (Real.le_sqrt_of_sq_le (by norm_num; linarith))
  obtain ⟨d, hd⟩ : ∃ d, fsqrt c = d := ⟨_, rfl⟩
  rw [hd] at s4 u4 l4 ⊢
  have l4' : (1 / 2 : ℚ) ≤ d := by
    have : ((1 / 2 : ℚ) : ℝ) ≤ d := by push_cast; exact l4
    exact_mod_cast this
  -- `-0.5 + sqrt`
  have s5 : RoundsTo (-1 / 2 + (d : ℝ)) (add (-1 / 2) d) := by
    rcases Nat.eq_zero_or_pos i with rfl | h
    · have hc4 : c = 1 / 4 := by
        rw [← hc]
        have h1 := s3.unique (y' := ((1 / 4 : ℚ) : ℝ)) (by
          have : (mul 2 (ofUsize 0) : ℝ) = 0 := by simp [ofUsize, mul, rne_zero]
          rw [this]
          push_cast
          rw [add_zero]
          exact roundsTo_self ⟨1, -2, by norm_num, by norm_num, by norm_num, by norm_num⟩)
        rw [hc]
        exact_mod_cast h1
      have hsq : √(c : ℝ) = 1 / 2 := by
        rw [hc4, show (((1 / 4 : ℚ)) : ℝ) = (1 / 2) * (1 / 2) by push_cast; norm_num]
        exact Real.sqrt_mul_self (by norm_num)
      rw [hsq] at s4
      have hd2 := s4.unique (roundsTo_self ⟨1, -1, by norm_num, by norm_num, by norm_num, by norm_num⟩)
      have hd2 : d = 1 / 2 := by
        have : (d : ℝ) = ((1 / 2 : ℚ) : ℝ) := by push_cast; exact hd2
        exact_mod_cast this
      subst hd2
      simpa [add, rne_zero, show (-1 / 2 + 1 / 2 : ℚ) = 0 by norm_num,
        show (-1 / 2 + 2⁻¹ : ℝ) = 0 by norm_num, show (-1 / 2 + 2⁻¹ : ℚ) = 0 by norm_num] using
        roundsTo_self binary64_zero
    · have one : Binary64 1 := by simpa using binary64_pow (k := 0) (by omega)
      have two : Binary64 2 := by simpa using binary64_pow (k := 1) (by omega)
      have h1 : (1 : ℝ) ≤ ofUsize i := s1.ge one (by exact_mod_cast h)
      have h2 : (2 : ℝ) ≤ mul 2 (ofUsize i) := s2.ge two (by linarith)
      have h3 : (2 : ℝ) ≤ c := s3.ge two (by linarith)
      have h4 : (1 : ℝ) ≤ d := s4.ge one (Real.le_sqrt_of_sq_le (by linarith))
      have h4 : (1 : ℚ) ≤ d := by exact_mod_cast h4
      have hub := cast u4
      have := rne_roundsTo (x := -1 / 2 + d) (by linarith)
        (big (n := k + 1) (by omega) (by linarith))
      simpa [add] using this
  refine ⟨s1, s2, s3, s4, s5, cast (s5.le (binary64_pow (by omega)) (by linarith))⟩

/-- **C09**: the row that the model finds for an index is the one that IEEE-754 arithmetic finds, for
every index and on every target; in particular no operation overflows or has a negative result, and
the cast does not saturate. -/
theorem C09_binary64 [Target] (i n : ℕ) (hi : i < W) : IeeeRow i n ↔ n = triRow i := by
  obtain ⟨k, hk, hW⟩ : ∃ k, k ≤ 32 ∧ W = 2 ^ (2 * k) ∧ 2 ^ (k + 1) < W := by
    rcases W_cases with h | h | h <;> rw [h.1]
    · exact ⟨8, by norm_num, by norm_num, by norm_num⟩
    · exact ⟨16, by norm_num, by norm_num, by norm_num⟩
    · exact ⟨32, by norm_num, by norm_num, by norm_num⟩
  obtain ⟨s1, s2, s3, s4, s5, u⟩ := row_steps hk (by rw [← hW.1]; exact hi)
  have hlt : triRow i ≤ W - 1 := by
    have : triRow i ≤ 2 ^ (k + 1) := Nat.floor_le_of_le (by push_cast; exact u)
    omega
  have fl : ⌊((add (-1 / 2) (fsqrt (add (1 / 4) (mul 2 (ofUsize i)))) : ℚ) : ℝ)⌋₊ = triRow i := by
    rw [triRow, floorToUsize]
    rw [← Int.floor_toNat, Rat.floor_cast, Int.floor_toNat]
  constructor
  · rintro ⟨a, b, c, d, p, t1, t2, t3, t4, t5, rfl⟩
    obtain rfl := t1.unique s1
    obtain rfl := t2.unique s2
    obtain rfl := t3.unique s3
    obtain rfl := t4.unique s4
    obtain rfl := t5.unique s5
    rw [fl]
    omega
  · rintro rfl
    exact ⟨_, _, _, _, _, s1, s2, s3, s4, s5, by rw [fl]; omega⟩

/-- Index 5 is in row 2 (counted from the bottom) on every target. -/
example [Target] : IeeeRow 5 2 :=
  (C09_binary64 5 2 (by have := W_ge; omega)).mpr (by decide +kernel)

/-- On a 64-bit target the standard itself gives the wrong row at index `2^53 + 2^26 - 1`, which is in
row `2^27 - 1`. -/
example : IeeeRow (2 ^ 53 + 2 ^ 26 - 1) (2 ^ 27) ∧ 2 ^ 53 + 2 ^ 26 - 1 < 2 ^ 27 * (2 ^ 27 + 1) / 2 :=
  ⟨(C09_binary64 _ _ (by decide)).mpr triRow_wrong.symm, by decide⟩

end Householder.Props
