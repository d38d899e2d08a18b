import Verif.Model.F64
import Mathlib.Tactic.Ring
import Mathlib.Tactic.Linarith
import Mathlib.Tactic.NormNum
import Mathlib.Tactic.Positivity
import Mathlib.Tactic.FieldSimp
import Mathlib.Tactic.LinearCombination
import Mathlib.Algebra.Order.Field.Power

/-! # Exactness lemmas for the binary64 model -/

namespace Householder.F64

theorem roundHalfEven_int (k : ℤ) : roundHalfEven (k : ℚ) = k := by
  simp [roundHalfEven]

/-- `log2` is determined by the enclosing powers. -/
theorem log_eq {x : ℚ} {e : ℤ} (h1 : (2 : ℚ) ^ e ≤ x) (h2 : x < (2 : ℚ) ^ (e + 1)) :
    Int.log 2 x = e := by
  have hx : 0 < x := lt_of_lt_of_le (by positivity) h1
  have b : (1 : ℕ) < 2 := by norm_num
  apply le_antisymm
  · have h3 : (2 : ℚ) ^ (Int.log 2 x) ≤ x := by simpa using Int.zpow_log_le_self b hx
    have h4 : (2 : ℚ) ^ (Int.log 2 x) < (2 : ℚ) ^ (e + 1) := lt_of_le_of_lt h3 h2
    have := (zpow_lt_zpow_iff_right₀ (by norm_num : (1 : ℚ) < 2)).1 h4
    omega
  · have h3 : x < (2 : ℚ) ^ (Int.log 2 x + 1) := by simpa using Int.lt_zpow_succ_log_self b x
    have h4 : (2 : ℚ) ^ e < (2 : ℚ) ^ (Int.log 2 x + 1) := lt_of_le_of_lt h1 h3
    have := (zpow_lt_zpow_iff_right₀ (by norm_num : (1 : ℚ) < 2)).1 h4
    omega

theorem log_bounds {x : ℚ} (hx : 0 < x) :
    (2 : ℚ) ^ (Int.log 2 x) ≤ x ∧ x < (2 : ℚ) ^ (Int.log 2 x + 1) := by
  have b : (1 : ℕ) < 2 := by norm_num
  exact ⟨by simpa using Int.zpow_log_le_self b hx, by simpa using Int.lt_zpow_succ_log_self b x⟩

/-- A number with at most 53 significant bits is not changed by rounding. -/
theorem rne_exact {m : ℕ} (hm : m < 2 ^ 53) (t : ℤ) : rne ((m : ℚ) * 2 ^ t) = (m : ℚ) * 2 ^ t := by
  rcases Nat.eq_zero_or_pos m with rfl | hpos
  · simp [rne]
  have hmq : (0 : ℚ) < m := by exact_mod_cast hpos
  have hx : (0 : ℚ) < (m : ℚ) * 2 ^ t := by positivity
  obtain ⟨h1, h2⟩ := log_bounds hmq
  set e := Int.log 2 (m : ℚ) with he
  have hlog : Int.log 2 ((m : ℚ) * 2 ^ t) = e + t := by
    apply log_eq
    · rw [zpow_add₀ (by norm_num)]
      exact mul_le_mul_of_nonneg_right h1 (by positivity)
    · rw [show e + t + 1 = (e + 1) + t by ring, zpow_add₀ (by norm_num)]
      exact mul_lt_mul_of_pos_right h2 (by positivity)
  have he52 : e ≤ 52 := by
    have : (2 : ℚ) ^ e < 2 ^ (53 : ℤ) := by
      refine lt_of_le_of_lt h1 ?_
      have : (m : ℚ) < 2 ^ (53 : ℕ) := by exact_mod_cast hm
      exact_mod_cast this
    have := (zpow_lt_zpow_iff_right₀ (by norm_num : (1 : ℚ) < 2)).1 this
    omega
  unfold rne ulp
  rw [if_neg (not_le.2 hx), hlog]
  obtain ⟨k, hk⟩ : ∃ k : ℕ, (52 : ℤ) - e = k := ⟨(52 - e).toNat, by omega⟩
  have hq : (m : ℚ) * 2 ^ t / 2 ^ (e + t - 52) = (((m * 2 ^ k : ℕ) : ℤ) : ℚ) := by
    rw [div_eq_iff (by positivity)]
    push_cast
    rw [← zpow_natCast (2 : ℚ) k, ← hk, mul_assoc, ← zpow_add₀ (by norm_num : (2 : ℚ) ≠ 0)]
    congr 2; ring
  rw [hq, roundHalfEven_int, ← hq]
  field_simp

theorem rne_nat {m : ℕ} (hm : m < 2 ^ 53) : rne (m : ℚ) = m := by
  have := rne_exact hm 0
  simpa using this

/-- The integer `fsqrt` computes, and the two-sided characterisation of "nearest". -/
theorem fsqrt_spec {x : ℚ} (hx : 0 < x) :
    ∃ (n : ℕ) (u q : ℚ), u = (2 : ℚ) ^ (Int.log 2 x / 2 - 52) ∧ q = x / (u * u) ∧
      fsqrt x = n * u ∧
      (∀ K : ℕ, ((K : ℚ) - 1 / 2) * ((K : ℚ) - 1 / 2) < q → 1 ≤ K → K ≤ n) ∧
      (∀ L : ℕ, q < ((L : ℚ) - 1 / 2) * ((L : ℚ) - 1 / 2) → 1 ≤ L → n + 1 ≤ L) := by
  refine ⟨_, _, _, rfl, rfl, rfl, ?_, ?_⟩
  all_goals
    set u : ℚ := (2 : ℚ) ^ (Int.log 2 x / 2 - 52) with hu
    have hupos : 0 < u := by positivity
    set q := x / (u * u) with hq
    have hqpos : 0 < q := by positivity
    set s := Nat.sqrt ⌊q⌋₊ with hs
    have hs1 : ((s : ℚ)) * s ≤ q := by
      have h : s * s ≤ ⌊q⌋₊ := Nat.sqrt_le ⌊q⌋₊
      have h' : ((s * s : ℕ) : ℚ) ≤ q := (Nat.le_floor_iff hqpos.le).1 h
      simpa using h'
    have hs2 : q < ((s : ℚ) + 1) * (s + 1) := by
      have h : ⌊q⌋₊ < (s + 1) * (s + 1) := Nat.lt_succ_sqrt ⌊q⌋₊
      have h' := (Nat.floor_lt hqpos.le).1 h
      simpa using h'
    intro K hK hK1
    have hKq : (1 : ℚ) ≤ K := by exact_mod_cast hK1
    have hs0 : (0 : ℚ) ≤ s := by positivity
  · rcases Nat.lt_or_ge s K with hlt | hge
    · have h1 : (K : ℚ) - 1 / 2 < s + 1 := by
        by_contra hcon
        rw [not_lt] at hcon
        nlinarith
      have h2 : K < s + 2 := by
        have : (K : ℚ) < ((s + 2 : ℕ) : ℚ) := by push_cast; linarith
        exact_mod_cast this
      have h3 : K = s + 1 := by omega
      subst h3
      push_cast at hK
      have h4 : ((s : ℚ) + 1 / 2) * (s + 1 / 2) < q := by
        have : ((s : ℚ) + 1 / 2) = s + 1 - 1 / 2 := by ring
        rw [this]; exact hK
      rw [if_neg (not_lt.2 h4.le), if_pos h4]
    · split_ifs <;> omega
  · have h1 : (s : ℚ) < K - 1 / 2 := by
      by_contra hcon
      rw [not_lt] at hcon
      nlinarith
    have h2 : s < K := by
      have : (s : ℚ) < K := by linarith
      exact_mod_cast this
    rcases Nat.lt_or_ge (s + 1) K with hlt | hge
    · split_ifs <;> omega
    · have h3 : K = s + 1 := by omega
      subst h3
      push_cast at hK
      have h4 : q < ((s : ℚ) + 1 / 2) * (s + 1 / 2) := by
        have : ((s : ℚ) + 1 / 2) = s + 1 - 1 / 2 := by ring
        rw [this]; exact hK
      rw [if_pos h4]

/-- The argument of the square root, for indices below `2^53`: exact for small
indices, and `0.25` is lost for large ones. -/
theorem sqrt_arg {i : ℕ} (hi : i < 2 ^ 53) :
    add (1 / 4) (mul 2 (ofUsize i)) = 2 * (i : ℚ) + (if i < 2 ^ 50 then 1 / 4 else 0) := by
  have h1 : ofUsize i = i := rne_nat hi
  have h2 : mul 2 (i : ℚ) = 2 * i := by
    have := rne_exact hi 1
    simp only [zpow_one] at this
    unfold mul
    rw [mul_comm 2 (i : ℚ), this]
  rw [h1, h2]
  unfold add
  split_ifs with h
  · have := rne_exact (m := 8 * i + 1) (by omega) (-2)
    have e : ((8 * i + 1 : ℕ) : ℚ) * 2 ^ (-2 : ℤ) = 1 / 4 + 2 * i := by
      push_cast; norm_num; ring
    rw [e] at this
    rw [this]; ring
  · have hiq : (2 ^ 50 : ℚ) ≤ i := by exact_mod_cast not_lt.1 h
    have hiq2 : (i : ℚ) + 1 ≤ 2 ^ 53 := by exact_mod_cast hi
    set x : ℚ := 1 / 4 + 2 * i with hx
    have hxpos : 0 < x := by positivity
    unfold rne
    rw [if_neg (not_le.2 hxpos)]
    rcases lt_or_ge i (2 ^ 51) with h51 | h51
    · -- ulp 1/2, tie
      have h51q : (i : ℚ) + 1 ≤ 2 ^ 51 := by exact_mod_cast h51
      have hl : Int.log 2 x = 51 := log_eq (by norm_num; linarith) (by norm_num; linarith)
      unfold ulp; rw [hl]
      have e : x / 2 ^ ((51 : ℤ) - 52) = ((4 * i : ℤ) : ℚ) + 1 / 2 := by
        rw [hx]; push_cast; norm_num; ring
      rw [e]
      have hf : ⌊((4 * i : ℤ) : ℚ) + 1 / 2⌋ = 4 * i := by
        rw [Int.floor_eq_iff]; constructor <;> push_cast <;> linarith
      have hr : roundHalfEven (((4 * i : ℤ) : ℚ) + 1 / 2) = 4 * i := by
        unfold roundHalfEven
        rw [hf]
        have e2 : ((4 * i : ℤ) : ℚ) + 1 / 2 - ((4 * i : ℤ) : ℚ) = 1 / 2 := by ring
        simp only [e2]
        rw [if_neg (by norm_num), if_neg (by norm_num), if_pos (by omega)]
      rw [hr]; push_cast; norm_num; ring
    · have h51q : (2 ^ 51 : ℚ) ≤ i := by exact_mod_cast h51
      rcases lt_or_ge i (2 ^ 52) with h52 | h52
      · have h52q : (i : ℚ) + 1 ≤ 2 ^ 52 := by exact_mod_cast h52
        have hl : Int.log 2 x = 52 := log_eq (by norm_num; linarith) (by norm_num; linarith)
        unfold ulp; rw [hl]
        have e : x / 2 ^ ((52 : ℤ) - 52) = ((2 * i : ℤ) : ℚ) + 1 / 4 := by
          rw [hx]; push_cast; norm_num; ring
        rw [e]
        have hf : ⌊((2 * i : ℤ) : ℚ) + 1 / 4⌋ = 2 * i := by
          rw [Int.floor_eq_iff]; constructor <;> push_cast <;> linarith
        have hr : roundHalfEven (((2 * i : ℤ) : ℚ) + 1 / 4) = 2 * i := by
          unfold roundHalfEven
          rw [hf]
          have e2 : ((2 * i : ℤ) : ℚ) + 1 / 4 - ((2 * i : ℤ) : ℚ) = 1 / 4 := by ring
          simp only [e2]
          rw [if_pos (by norm_num)]
        rw [hr]; push_cast; norm_num
      · have h52q : (2 ^ 52 : ℚ) ≤ i := by exact_mod_cast h52
        have hl : Int.log 2 x = 53 := log_eq (by norm_num; linarith) (by norm_num; linarith)
        unfold ulp; rw [hl]
        have e : x / 2 ^ ((53 : ℤ) - 52) = ((i : ℤ) : ℚ) + 1 / 8 := by
          rw [hx]; push_cast; norm_num; ring
        rw [e]
        have hf : ⌊((i : ℤ) : ℚ) + 1 / 8⌋ = i := by
          rw [Int.floor_eq_iff]; constructor <;> push_cast <;> linarith
        have hr : roundHalfEven (((i : ℤ) : ℚ) + 1 / 8) = i := by
          unfold roundHalfEven
          rw [hf]
          have e2 : ((i : ℤ) : ℚ) + 1 / 8 - ((i : ℤ) : ℚ) = 1 / 8 := by ring
          simp only [e2]
          rw [if_pos (by norm_num)]
        rw [hr]; push_cast; norm_num; ring

/-- If the argument of the square root is within half a unit in the last place (of the
root) of the interval `[(a+1/2)², (a+3/2)²)`, the computed row is `a`. -/
theorem floor_sqrt {x : ℚ} (hx : 0 < x) {a : ℕ} {E : ℤ} (hE : Int.log 2 x / 2 = E) (hE2 : E ≤ 51)
    (hlo : ((a : ℚ) + 1 / 2 - 2 ^ (E - 52) / 2) * ((a : ℚ) + 1 / 2 - 2 ^ (E - 52) / 2) < x)
    (hhi : x < ((a : ℚ) + 3 / 2 - 2 ^ (E - 52) / 2) * ((a : ℚ) + 3 / 2 - 2 ^ (E - 52) / 2)) :
    floorToUsize (add (-1 / 2) (fsqrt x)) = a := by
  obtain ⟨n, u, q, hu, hq, hn, hK, hL⟩ := fsqrt_spec hx
  rw [hE] at hu
  rw [← hu] at hlo hhi
  obtain ⟨j, hj⟩ : ∃ j : ℕ, (51 : ℤ) - E = j := ⟨(51 - E).toNat, by omega⟩
  have hupos : 0 < u := by rw [hu]; positivity
  have huj : u * (2 * 2 ^ j) = 1 := by
    rw [hu, ← zpow_natCast (2 : ℚ) j, ← hj,
      show (2 : ℚ) * 2 ^ ((51 : ℤ) - E) = 2 ^ ((52 : ℤ) - E) by
        rw [show (52 : ℤ) - E = 1 + (51 - E) by ring, zpow_add₀ (by norm_num), zpow_one],
      ← zpow_add₀ (by norm_num : (2 : ℚ) ≠ 0)]
    norm_num
  have hxq : x = q * (u * u) := by rw [hq]; field_simp
  have hj1 : 1 ≤ 2 ^ j := Nat.one_le_two_pow
  have k1 : (2 * a + 1) * 2 ^ j ≤ n := by
    apply hK
    · push_cast
      have e : ((2 * (a : ℚ) + 1) * 2 ^ j - 1 / 2) * u = (a : ℚ) + 1 / 2 - u / 2 := by
        linear_combination ((2 * (a : ℚ) + 1) / 2) * huj
      have e2 : (((2 * (a : ℚ) + 1) * 2 ^ j - 1 / 2) * ((2 * (a : ℚ) + 1) * 2 ^ j - 1 / 2)) * (u * u)
          < q * (u * u) := by
        have e3 : ∀ y : ℚ, y * y * (u * u) = (y * u) * (y * u) := fun y => by ring
        rw [← hxq, e3, e]; exact hlo
      exact lt_of_mul_lt_mul_right e2 (by positivity)
    · exact Nat.one_le_iff_ne_zero.2 (by positivity)
  have k2 : n + 1 ≤ (2 * a + 3) * 2 ^ j := by
    apply hL
    · push_cast
      have e : ((2 * (a : ℚ) + 3) * 2 ^ j - 1 / 2) * u = (a : ℚ) + 3 / 2 - u / 2 := by
        linear_combination ((2 * (a : ℚ) + 3) / 2) * huj
      have e2 : q * (u * u) <
          (((2 * (a : ℚ) + 3) * 2 ^ j - 1 / 2) * ((2 * (a : ℚ) + 3) * 2 ^ j - 1 / 2)) * (u * u) := by
        have e3 : ∀ y : ℚ, y * y * (u * u) = (y * u) * (y * u) := fun y => by ring
        rw [← hxq, e3, e]; exact hhi
      exact lt_of_mul_lt_mul_right e2 (by positivity)
    · exact Nat.one_le_iff_ne_zero.2 (by positivity)
  have k3 : n + 1 ≤ 2 ^ 53 + 1 := by
    apply hL
    · push_cast
      have h1 := (log_bounds hx).2
      have h2 : (2 : ℚ) ^ (Int.log 2 x + 1) ≤ 2 ^ (2 * E + 2) :=
        zpow_le_zpow_right₀ (by norm_num) (by omega)
      have h3 : (2 : ℚ) ^ (2 * E + 2) = 2 ^ 106 * (u * u) := by
        rw [hu, ← zpow_natCast (2 : ℚ) 106, ← zpow_add₀ (by norm_num : (2 : ℚ) ≠ 0),
          ← zpow_add₀ (by norm_num : (2 : ℚ) ≠ 0)]
        congr 1; push_cast; ring
      have h4 : q * (u * u) < 2 ^ 106 * (u * u) := by
        rw [← hxq, ← h3]; exact lt_of_lt_of_le h1 h2
      have h5 : q < 2 ^ 106 := lt_of_mul_lt_mul_right h4 (by positivity)
      refine lt_trans h5 (by norm_num)
    · norm_num
  have hnj : 2 ^ j ≤ n := le_trans (Nat.le_mul_of_pos_left _ (by omega)) k1
  have hsub : -1 / 2 + fsqrt x = ((n - 2 ^ j : ℕ) : ℚ) * 2 ^ (E - 52) := by
    rw [hn, ← hu, Nat.cast_sub hnj]; push_cast
    linear_combination (1 / 2 : ℚ) * huj
  unfold floorToUsize add
  rw [hsub, rne_exact (by omega), ← hu, Nat.floor_eq_iff (by positivity), Nat.cast_sub hnj]
  push_cast
  have k1q : ((2 * (a : ℚ) + 1) * 2 ^ j) ≤ n := by exact_mod_cast k1
  have k2q : (n : ℚ) + 1 ≤ (2 * (a : ℚ) + 3) * 2 ^ j := by exact_mod_cast k2
  constructor
  · have := mul_le_mul_of_nonneg_right k1q hupos.le
    have e : (2 * (a : ℚ) + 1) * 2 ^ j * u = (a : ℚ) + 2 ^ j * u := by
      linear_combination (a : ℚ) * huj
    rw [sub_mul]; linarith
  · have := mul_le_mul_of_nonneg_right k2q hupos.le
    have e : (2 * (a : ℚ) + 3) * 2 ^ j * u = (a : ℚ) + 1 + 2 ^ j * u := by
      linear_combination ((a : ℚ) + 1) * huj
    rw [sub_mul]; linarith

/-- Below `2^53` the row computed through `f64` is the correct one. -/
theorem triRow_eq {i a : ℕ} (hi : i < 2 ^ 53) (h1 : a * (a + 1) ≤ 2 * i)
    (h2 : 2 * i + 2 ≤ (a + 1) * (a + 2)) : triRow i = a := by
  unfold triRow
  rw [sqrt_arg hi]
  have h1q : (a : ℚ) * (a + 1) ≤ 2 * i := by exact_mod_cast h1
  have h2q : 2 * (i : ℚ) + 2 ≤ (a + 1) * (a + 2) := by exact_mod_cast h2
  have ha0 : (0 : ℚ) ≤ a := by positivity
  split_ifs with h50
  · have hx : (0 : ℚ) < 2 * i + 1 / 4 := by positivity
    have h50q : (i : ℚ) + 1 ≤ 2 ^ 50 := by exact_mod_cast h50
    set E := Int.log 2 (2 * (i : ℚ) + 1 / 4) / 2 with hE
    have hlog : Int.log 2 (2 * (i : ℚ) + 1 / 4) < 51 := by
      have hb := (log_bounds hx).1
      have : (2 : ℚ) ^ (Int.log 2 (2 * (i : ℚ) + 1 / 4)) < 2 ^ (51 : ℤ) := by
        refine lt_of_le_of_lt hb ?_
        norm_num; linarith
      exact (zpow_lt_zpow_iff_right₀ (by norm_num : (1 : ℚ) < 2)).1 this
    have hE25 : E ≤ 25 := by omega
    have hu : (2 : ℚ) ^ (E - 52) ≤ 1 / 2 ^ 27 := by
      have : (2 : ℚ) ^ (E - 52) ≤ 2 ^ (-27 : ℤ) := zpow_le_zpow_right₀ (by norm_num) (by omega)
      refine le_trans this (by norm_num)
    have hupos : (0 : ℚ) < 2 ^ (E - 52) := by positivity
    have ha : (a : ℚ) + 1 ≤ 2 ^ 26 := by
      have : a + 1 ≤ 2 ^ 26 := by
        by_contra hcon
        have hcon' : 2 ^ 26 ≤ a := by omega
        have := Nat.mul_le_mul hcon' hcon'
        rw [Nat.mul_add, Nat.mul_one] at h1
        omega
      exact_mod_cast this
    apply floor_sqrt hx hE.symm (by omega)
    · generalize (2 : ℚ) ^ (E - 52) = u at *
      nlinarith
    · generalize (2 : ℚ) ^ (E - 52) = u at *
      have : ((a : ℚ) + 3 / 2) * u ≤ 2 := by
        calc ((a : ℚ) + 3 / 2) * u ≤ (2 ^ 26 + 1) * (1 / 2 ^ 27) := by
              apply mul_le_mul _ hu hupos.le (by positivity); linarith
          _ ≤ 2 := by norm_num
      nlinarith
  · have h50q : (2 ^ 50 : ℚ) ≤ i := by exact_mod_cast not_lt.1 h50
    have hiq : (i : ℚ) + 1 ≤ 2 ^ 53 := by exact_mod_cast hi
    have hx : (0 : ℚ) < 2 * i + 0 := by linarith
    rcases lt_or_ge i (2 ^ 51) with h51 | h51
    · have h51q : (i : ℚ) + 1 ≤ 2 ^ 51 := by exact_mod_cast h51
      have hl : Int.log 2 (2 * (i : ℚ) + 0) = 51 :=
        log_eq (by norm_num; linarith) (by norm_num; linarith)
      have halo : (47453131 : ℚ) ≤ a := by
        have : 47453131 ≤ a := by
          by_contra hcon
          have hcon' : a + 1 ≤ 47453131 := by omega
          have := Nat.mul_le_mul hcon' (show a + 2 ≤ 47453132 by omega)
          omega
        exact_mod_cast this
      have ha : (a : ℚ) + 1 ≤ 2 ^ 26 := by
        have : a + 1 ≤ 2 ^ 26 := by
          by_contra hcon
          have hcon' : 2 ^ 26 ≤ a := by omega
          have := Nat.mul_le_mul hcon' hcon'
          rw [Nat.mul_add, Nat.mul_one] at h1
          omega
        exact_mod_cast this
      apply floor_sqrt hx (E := 25) (by rw [hl]; norm_num) (by norm_num)
      · norm_num; nlinarith
      · norm_num; nlinarith
    · have h51q : (2 ^ 51 : ℚ) ≤ i := by exact_mod_cast h51
      have hl : Int.log 2 (2 * (i : ℚ) + 0) / 2 = 26 := by
        rcases lt_or_ge i (2 ^ 52) with h52 | h52
        · have h52q : (i : ℚ) + 1 ≤ 2 ^ 52 := by exact_mod_cast h52
          rw [log_eq (e := 52) (by norm_num; linarith) (by norm_num; linarith)]; norm_num
        · have h52q : (2 ^ 52 : ℚ) ≤ i := by exact_mod_cast h52
          rw [log_eq (e := 53) (by norm_num; linarith) (by norm_num; linarith)]; norm_num
      have halo : (2 ^ 26 : ℚ) - 1 ≤ a := by
        have : 2 ^ 26 ≤ a + 1 := by
          by_contra hcon
          have hcon' : a + 2 ≤ 2 ^ 26 := by omega
          have := Nat.mul_le_mul (show a + 1 ≤ 2 ^ 26 - 1 by omega) hcon'
          omega
        have h' : (2 ^ 26 : ℚ) ≤ a + 1 := by exact_mod_cast this
        linarith
      have ha : a + 1 ≤ 2 ^ 27 := by
        by_contra hcon
        have hcon' : 2 ^ 27 ≤ a := by omega
        have := Nat.mul_le_mul hcon' hcon'
        rw [Nat.mul_add, Nat.mul_one] at h1
        omega
      apply floor_sqrt hx hl (by norm_num)
      · norm_num; nlinarith
      · rcases Nat.lt_or_ge (a + 1) (2 ^ 27) with hlt | hge
        · have haq : (a : ℚ) + 2 ≤ 2 ^ 27 := by exact_mod_cast hlt
          norm_num; nlinarith
        · have haq : (a : ℚ) + 1 = 2 ^ 27 := by
            have : a + 1 = 2 ^ 27 := by omega
            exact_mod_cast this
          have : (a : ℚ) = 2 ^ 27 - 1 := by linarith
          rw [this]; norm_num; linarith

/-! ## Just above `2^53` -/

/-- Between `2^53` and `2^54` the conversion rounds to a multiple of two, ties to a multiple
of four. -/
theorem ofUsize_big {i : ℕ} (h1 : 2 ^ 53 ≤ i) (h2 : i < 2 ^ 54) :
    ofUsize i = 2 * ((if i % 4 = 3 then i / 2 + 1 else i / 2 : ℕ) : ℚ) := by
  have h1q : (2 ^ 53 : ℚ) ≤ i := by exact_mod_cast h1
  have h2q : (i : ℚ) + 1 ≤ 2 ^ 54 := by exact_mod_cast h2
  have hx : (0 : ℚ) < i := by linarith
  have hl : Int.log 2 (i : ℚ) = 53 := log_eq (by norm_num; linarith) (by norm_num; linarith)
  unfold ofUsize rne
  rw [if_neg (not_le.2 hx)]
  unfold ulp; rw [hl]
  obtain ⟨d, hd⟩ : ∃ d, i / 2 = d := ⟨_, rfl⟩
  rw [hd]
  rcases Nat.mod_two_eq_zero_or_one i with hm | hm
  · have hi : i = 2 * d := by omega
    have e : (i : ℚ) / 2 ^ ((53 : ℤ) - 52) = ((d : ℤ) : ℚ) := by
      rw [hi]; push_cast; norm_num
    rw [e, roundHalfEven_int, if_neg (by omega)]
    push_cast; ring
  · have hi : i = 2 * d + 1 := by omega
    have e : (i : ℚ) / 2 ^ ((53 : ℤ) - 52) = ((d : ℤ) : ℚ) + 1 / 2 := by
      rw [hi]; push_cast; norm_num; ring
    rw [e]
    have hf : ⌊((d : ℤ) : ℚ) + 1 / 2⌋ = (d : ℤ) := by
      rw [Int.floor_eq_iff]; constructor <;> linarith
    unfold roundHalfEven
    rw [hf]
    have e2 : ((d : ℤ) : ℚ) + 1 / 2 - ((d : ℤ) : ℚ) = 1 / 2 := by ring
    simp only [e2]
    rw [if_neg (by norm_num), if_neg (by norm_num)]
    by_cases h4 : i % 4 = 3
    · rw [if_pos h4, if_neg (by omega)]; push_cast; ring
    · rw [if_neg h4, if_pos (by omega)]; push_cast; ring

/-- Just above `2^53` the addition of `0.25` is lost. -/
theorem sqrt_arg_big {k : ℕ} (h1 : 2 ^ 52 ≤ k) (h2 : k < 2 ^ 53) :
    add (1 / 4) (mul 2 (2 * (k : ℚ))) = 4 * (k : ℚ) := by
  have h1q : (2 ^ 52 : ℚ) ≤ k := by exact_mod_cast h1
  have h2q : (k : ℚ) + 1 ≤ 2 ^ 53 := by exact_mod_cast h2
  have hm : mul 2 (2 * (k : ℚ)) = 4 * k := by
    have := rne_exact h2 2
    unfold mul
    rw [show (2 : ℚ) * (2 * k) = k * 2 ^ (2 : ℤ) by norm_num; ring, this]
    norm_num; ring
  rw [hm]
  unfold add
  set x : ℚ := 1 / 4 + 4 * k with hx
  have hxpos : 0 < x := by positivity
  unfold rne
  rw [if_neg (not_le.2 hxpos)]
  have hl : Int.log 2 x = 54 := log_eq (by norm_num; linarith) (by norm_num; linarith)
  unfold ulp; rw [hl]
  have e : x / 2 ^ ((54 : ℤ) - 52) = ((k : ℤ) : ℚ) + 1 / 16 := by
    rw [hx]; push_cast; ring
  rw [e]
  have hf : ⌊((k : ℤ) : ℚ) + 1 / 16⌋ = k := by
    rw [Int.floor_eq_iff]; constructor <;> push_cast <;> linarith
  have hr : roundHalfEven (((k : ℤ) : ℚ) + 1 / 16) = k := by
    unfold roundHalfEven
    rw [hf]
    have e2 : ((k : ℤ) : ℚ) + 1 / 16 - ((k : ℤ) : ℚ) = 1 / 16 := by ring
    simp only [e2]
    rw [if_pos (by norm_num)]
  rw [hr]; push_cast; ring

/-- The computed row is still correct up to two positions before the end of row `2^27 - 1`. -/
theorem triRow_big {i : ℕ} (h1 : 2 ^ 53 ≤ i) (h2 : i < 2 ^ 53 + 2 ^ 26 - 1) :
    triRow i = 2 ^ 27 - 1 := by
  unfold triRow
  rw [ofUsize_big h1 (by omega)]
  set k : ℕ := if i % 4 = 3 then i / 2 + 1 else i / 2 with hk
  have hk1 : 2 ^ 52 ≤ k := by rw [hk]; split_ifs <;> omega
  have hk2 : k + 1 ≤ 2 ^ 52 + 2 ^ 25 := by rw [hk]; split_ifs <;> omega
  rw [sqrt_arg_big hk1 (by omega)]
  have h1q : (2 ^ 52 : ℚ) ≤ k := by exact_mod_cast hk1
  have h2q : (k : ℚ) + 1 ≤ 2 ^ 52 + 2 ^ 25 := by exact_mod_cast hk2
  have hl : Int.log 2 (4 * (k : ℚ)) = 54 := log_eq (by norm_num; linarith) (by norm_num; linarith)
  apply floor_sqrt (by linarith) (E := 27) (by rw [hl]; norm_num) (by norm_num)
  · norm_num; linarith
  · norm_num; linarith

/-- At the last position of row `2^27 - 1` the conversion to `f64` rounds up and the next
row is computed. -/
theorem triRow_wrong : triRow (2 ^ 53 + 2 ^ 26 - 1) = 2 ^ 27 := by
  unfold triRow
  rw [ofUsize_big (by norm_num) (by norm_num)]
  rw [show (if (2 ^ 53 + 2 ^ 26 - 1) % 4 = 3 then (2 ^ 53 + 2 ^ 26 - 1) / 2 + 1
      else (2 ^ 53 + 2 ^ 26 - 1) / 2 : ℕ) = 4503599660924928 by norm_num]
  rw [sqrt_arg_big (by norm_num) (by norm_num)]
  have hl : Int.log 2 (4 * ((4503599660924928 : ℕ) : ℚ)) = 54 :=
    log_eq (by norm_num) (by norm_num)
  apply floor_sqrt (by norm_num) (E := 27) (by rw [hl]; norm_num) (by norm_num)
  · norm_num
  · norm_num

end Householder.F64
