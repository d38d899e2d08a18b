import Verif.Spec.Ieee
import Verif.Lemmas.Binary64
import Mathlib.Tactic.Linarith
import Mathlib.Tactic.Positivity
import Mathlib.Tactic.GCongr
import Mathlib.Tactic.Ring

/-!
# Correct rounding in a format

A function that rounds correctly, from which the size of rounding errors follows, and the laws of
trees of rounded operations.
-/

namespace Householder.Spec

open F64 (roundHalfEven)

namespace Format

variable (f : Format)

/-- The exponent of the last digit of values near `x`. -/
def expo (x : ℚ) : ℤ := max (Int.log 2 |x| - f.p + 1) f.lo

/-- The correctly rounded value. -/
def nearest (x : ℚ) : ℚ := roundHalfEven (x / 2 ^ f.expo x) * 2 ^ f.expo x

theorem two_zpow_pos (e : ℤ) : (0 : ℚ) < 2 ^ e := by positivity

theorem eta_pos : 0 < f.eta := two_zpow_pos _

theorem u_pos : 0 < f.u := two_zpow_pos _

theorem limit_pos : 0 < f.limit := by
  unfold limit
  have : (1 : ℚ) ≤ 2 ^ f.p := one_le_pow₀ (by norm_num)
  have : (0 : ℚ) < 2 ^ f.p - 1 / 2 := by linarith
  have := two_zpow_pos f.hi
  positivity

theorem value_zero : f.Value 0 := ⟨0, 0, by simp, f.lo_le, by have := f.le_hi; omega, by simp⟩

theorem value_neg {y : ℚ} (h : f.Value y) : f.Value (-y) := by
  obtain ⟨m, e, h1, h2, h3, rfl⟩ := h
  exact ⟨-m, e, by rwa [abs_neg], h2, h3, by push_cast; ring⟩

/-- A whole multiple of a power of two with at most `2^p` as factor. -/
theorem value_of {n e : ℤ} (hn : |n| ≤ 2 ^ f.p) (h1 : f.lo ≤ e) (h2 : e ≤ f.hi)
    (h3 : |n| = 2 ^ f.p → e < f.hi) : f.Value (n * 2 ^ e) := by
  rcases eq_or_lt_of_le hn with h | h
  · have hp : (2 : ℤ) ^ f.p = 2 ^ (f.p - 1) * 2 := by
      rw [← pow_succ]; congr 1; have := f.two_le_p; omega
    have hpos : (0 : ℤ) < 2 ^ (f.p - 1) := by positivity
    have hk : ∀ s : ℤ, |s| = 1 → n = s * 2 ^ f.p → f.Value (n * 2 ^ e) := by
      intro s hs hns
      refine ⟨s * 2 ^ (f.p - 1), e + 1, ?_, by omega, by have := h3 h; omega, ?_⟩
      · rw [abs_mul, hs, abs_of_pos hpos, hp]; omega
      · rw [hns, hp, zpow_add₀ (by norm_num)]; push_cast; ring
    rcases abs_eq_abs.1 (h.trans (abs_of_pos (by positivity : (0 : ℤ) < 2 ^ f.p)).symm) with e1 | e1
    · exact hk 1 (by simp) (by rw [e1]; ring)
    · exact hk (-1) (by simp) (by rw [e1]; ring)
  · exact ⟨n, e, h, h1, h2, rfl⟩

theorem value_lt_limit {y : ℚ} (h : f.Value y) : |y| < f.limit := by
  obtain ⟨m, e, h1, h2, h3, rfl⟩ := h
  rw [abs_mul, abs_of_pos (two_zpow_pos e)]
  have a1 : |(m : ℚ)| ≤ 2 ^ f.p - 1 := by
    have : |m| ≤ 2 ^ f.p - 1 := by omega
    exact_mod_cast this
  have a2 : (2 : ℚ) ^ e ≤ 2 ^ f.hi := zpow_le_zpow_right₀ (by norm_num) h3
  have a3 : |(m : ℚ)| * 2 ^ e ≤ (2 ^ f.p - 1) * 2 ^ f.hi :=
    mul_le_mul a1 a2 (two_zpow_pos e).le ((abs_nonneg _).trans a1)
  refine lt_of_le_of_lt a3 ?_
  unfold limit
  have := two_zpow_pos f.hi
  nlinarith

theorem log_le {x : ℚ} (hx : x ≠ 0) : (2 : ℚ) ^ Int.log 2 |x| ≤ |x| := by
  exact_mod_cast Int.zpow_log_le_self (b := 2) (by norm_num) (abs_pos.2 hx)

theorem lt_log (x : ℚ) : |x| < (2 : ℚ) ^ (Int.log 2 |x| + 1) := by
  exact_mod_cast Int.lt_zpow_succ_log_self (b := 2) (by norm_num) |x|

theorem half_even_error (q : ℚ) : |q - roundHalfEven q| ≤ 1 / 2 := by
  have hf := Int.floor_le q
  have hf' := Int.lt_floor_add_one q
  unfold roundHalfEven
  simp only
  split_ifs with h1 h2 h3
  · rw [abs_of_nonneg (by linarith)]; linarith
  · push_cast; rw [abs_of_nonpos (by linarith)]; linarith
  · rw [abs_of_nonneg (by linarith)]; linarith
  · push_cast; rw [abs_of_nonpos (by linarith)]; linarith

theorem nearest_error (x : ℚ) : |x - f.nearest x| ≤ 2 ^ f.expo x / 2 := by
  have hp := two_zpow_pos (f.expo x)
  have h := half_even_error (x / 2 ^ f.expo x)
  have e : x - f.nearest x = (x / 2 ^ f.expo x - roundHalfEven (x / 2 ^ f.expo x)) * 2 ^ f.expo x := by
    unfold nearest
    rw [sub_mul, div_mul_cancel₀ _ hp.ne']
  rw [e, abs_mul, abs_of_pos hp]
  nlinarith

theorem lo_le_expo (x : ℚ) : f.lo ≤ f.expo x := le_max_right _ _

/-- Near `x` the values have at most `p` digits. -/
theorem lt_expo (x : ℚ) : |x| < 2 ^ f.p * 2 ^ f.expo x := by
  refine (lt_log x).trans_le ?_
  rw [← zpow_natCast, ← zpow_add₀ (by norm_num)]
  refine zpow_le_zpow_right₀ (by norm_num) ?_
  have : Int.log 2 |x| - f.p + 1 ≤ f.expo x := le_max_left _ _
  omega

theorem expo_le_hi {x : ℚ} (hx : x ≠ 0) (h : |x| < f.limit) : f.expo x ≤ f.hi := by
  refine max_le ?_ (by have := f.lo_le; have := f.le_hi; omega)
  have h1 := (log_le hx).trans_lt h
  have h2 : f.limit < 2 ^ ((f.p : ℤ) + f.hi) := by
    unfold limit
    rw [zpow_add₀ (by norm_num), zpow_natCast]
    have := two_zpow_pos f.hi
    nlinarith
  have h3 := (zpow_lt_zpow_iff_right₀ (by norm_num : (1 : ℚ) < 2)).1 (h1.trans h2)
  omega

theorem int_near {q : ℚ} {b : ℤ} (hq : |q| < b) : |roundHalfEven q| ≤ b := by
  have h := half_even_error q
  have h1 : |(roundHalfEven q : ℚ)| < b + 1 := by
    have : (roundHalfEven q : ℚ) = q - (q - roundHalfEven q) := by ring
    rw [this]
    exact (abs_sub _ _).trans_lt (by linarith)
  have h2 : |roundHalfEven q| < b + 1 := by exact_mod_cast h1
  omega

theorem near_lt {x : ℚ} (h : |x| < 2 ^ f.p * 2 ^ f.expo x) :
    |roundHalfEven (x / 2 ^ f.expo x)| ≤ 2 ^ f.p := by
  have hp := two_zpow_pos (f.expo x)
  refine int_near ?_
  rw [abs_div, abs_of_pos hp, div_lt_iff₀ hp]
  exact_mod_cast h

theorem near_lt_top {x : ℚ} (hx : x ≠ 0) (h : |x| < f.limit)
    (hn : |roundHalfEven (x / 2 ^ f.expo x)| = 2 ^ f.p) : f.expo x < f.hi := by
  have hp := two_zpow_pos (f.expo x)
  rcases eq_or_lt_of_le (f.expo_le_hi hx h) with e | e
  · exfalso
    have h1 : |x / 2 ^ f.expo x| < 2 ^ f.p - 1 / 2 := by
      rw [abs_div, abs_of_pos hp, div_lt_iff₀ hp]
      rw [limit, ← e] at h
      exact h
    have h2 := half_even_error (x / 2 ^ f.expo x)
    have h3 : |(roundHalfEven (x / 2 ^ f.expo x) : ℚ)| = 2 ^ f.p := by exact_mod_cast hn
    have h4 : |(roundHalfEven (x / 2 ^ f.expo x) : ℚ)| ≤
        |x / 2 ^ f.expo x| + |x / 2 ^ f.expo x - roundHalfEven (x / 2 ^ f.expo x)| := by
      have : (roundHalfEven (x / 2 ^ f.expo x) : ℚ) =
        x / 2 ^ f.expo x - (x / 2 ^ f.expo x - roundHalfEven (x / 2 ^ f.expo x)) := by ring
      calc _ = |x / 2 ^ f.expo x - (x / 2 ^ f.expo x - roundHalfEven (x / 2 ^ f.expo x))| := by
            rw [← this]
        _ ≤ _ := abs_sub _ _
    linarith
  · exact e

theorem nearest_zero : f.nearest 0 = 0 := by simp [nearest, roundHalfEven]

theorem nearest_value {x : ℚ} (h : |x| < f.limit) : f.Value (f.nearest x) := by
  by_cases hx : x = 0
  · rw [hx, nearest_zero]; exact f.value_zero
  · exact f.value_of (f.near_lt (f.lt_expo x)) (f.lo_le_expo x) (f.expo_le_hi hx h)
      (f.near_lt_top hx h)

/-- Whole multiples of the last digit are no nearer, and as near only in case of a tie. -/
theorem nearest_multiple {x : ℚ} (j : ℤ) :
    |x - f.nearest x| ≤ |x - j * 2 ^ f.expo x| ∧
    (|x - j * 2 ^ f.expo x| = |x - f.nearest x| → (j * 2 ^ f.expo x : ℚ) ≠ f.nearest x →
      _root_.Even (roundHalfEven (x / 2 ^ f.expo x))) := by
  have hp := two_zpow_pos (f.expo x)
  set w : ℚ := 2 ^ f.expo x with hw
  set n := roundHalfEven (x / w) with hn
  have hnear : f.nearest x = n * w := by rw [nearest, ← hw, ← hn]
  have herr := f.nearest_error x
  rw [← hw] at herr
  by_cases hj : j = n
  · rw [hnear, hj]
    exact ⟨le_rfl, fun _ h => absurd rfl h⟩
  · have hfar : w / 2 ≤ |x - j * w| := by
      have h1 : (1 : ℚ) ≤ |(j : ℚ) - n| := by
        have : 1 ≤ |j - n| := Int.one_le_abs (sub_ne_zero.2 hj)
        exact_mod_cast this
      have h2 : w ≤ |(n * w : ℚ) - j * w| := by
        rw [← sub_mul, abs_mul, abs_of_pos hp, abs_sub_comm]
        nlinarith
      have h3 : (n * w : ℚ) - j * w = (x - j * w) - (x - n * w) := by ring
      rw [h3] at h2
      have h4 := h2.trans (abs_sub _ _)
      rw [hnear] at herr
      linarith
    refine ⟨herr.trans hfar, fun h _ => ?_⟩
    refine roundHalfEven_tie ?_
    rw [← hn]
    have h5 : |x - n * w| = w / 2 := by rw [← hnear]; exact le_antisymm herr (h ▸ hfar)
    have h6 : x / w - n = (x - n * w) / w := by rw [sub_div, mul_div_cancel_right₀ _ hp.ne']
    rw [h6, abs_div, abs_of_pos hp, h5]
    field_simp

/-- `nearest` rounds correctly. -/
theorem nearest_roundsTo {x : ℚ} (h : |x| < f.limit) : f.RoundsTo x (f.nearest x) := by
  by_cases hx : x = 0
  · subst hx
    rw [nearest_zero]
    refine ⟨f.value_zero, fun z _ => by simp, fun z _ e hz => ?_⟩
    simp at e
    exact absurd e hz
  have hw := two_zpow_pos (f.expo x)
  have hpp : (2 : ℚ) ^ f.p = 2 ^ (f.p - 1) * 2 := by
    rw [← pow_succ]; congr 1; have := f.two_le_p; omega
  -- the power of two below `|x|` is a multiple of the last digit
  have big : f.lo < f.expo x → (2 : ℚ) ^ (f.p - 1) * 2 ^ f.expo x ≤ |x| := by
    intro hlt
    have he : f.expo x = Int.log 2 |x| - f.p + 1 := by
      rcases max_choice (Int.log 2 |x| - f.p + 1) f.lo with e | e
      · exact e
      · unfold expo at hlt; rw [e] at hlt; omega
    refine le_trans (le_of_eq ?_) (log_le hx)
    rw [he, ← zpow_natCast, ← zpow_add₀ (by norm_num)]
    congr 1
    have := f.two_le_p
    push_cast [Nat.cast_sub (show 1 ≤ f.p by omega)]
    ring
  -- every value is a multiple of the last digit, or farther away than that power of two
  have other : ∀ z, f.Value z → |x - f.nearest x| ≤ |x - z| ∧
      (|x - z| = |x - f.nearest x| → z ≠ f.nearest x →
        _root_.Even (roundHalfEven (x / 2 ^ f.expo x))) := by
    rintro z ⟨m, e, hm, he, -, rfl⟩
    by_cases hle : f.expo x ≤ e
    · obtain ⟨t, ht⟩ := Int.le.dest hle
      have : (m * 2 ^ e : ℚ) = ((m * 2 ^ t : ℤ) : ℚ) * 2 ^ f.expo x := by
        rw [← ht, zpow_add₀ (by norm_num), zpow_natCast]; push_cast; ring
      rw [this]
      exact f.nearest_multiple _
    · have hb := big (by omega)
      have hz : |(m * 2 ^ e : ℚ)| < 2 ^ (f.p - 1) * 2 ^ f.expo x := by
        rw [abs_mul, abs_of_pos (two_zpow_pos e)]
        have h1 : |(m : ℚ)| < 2 ^ f.p := by exact_mod_cast hm
        have h2 : (2 : ℚ) ^ e * 2 ≤ 2 ^ f.expo x := by
          rw [← zpow_add_one₀ (by norm_num)]
          exact zpow_le_zpow_right₀ (by norm_num) (by omega)
        calc |(m : ℚ)| * 2 ^ e < 2 ^ f.p * 2 ^ e := mul_lt_mul_of_pos_right h1 (two_zpow_pos e)
          _ = 2 ^ (f.p - 1) * (2 ^ e * 2) := by rw [hpp]; ring
          _ ≤ _ := by gcongr
      have far : |x - f.nearest x| < |x - m * 2 ^ e| := by
        rcases lt_or_gt_of_ne hx with hneg | hpos
        · have h1 := (f.nearest_multiple (x := x) (-2 ^ (f.p - 1))).1
          rw [abs_of_neg hneg] at hb
          push_cast at h1
          rw [abs_of_nonpos (by linarith : x - -2 ^ (f.p - 1) * 2 ^ f.expo x ≤ 0)] at h1
          have h2 := (abs_lt.1 hz).1
          rw [abs_of_nonpos (by linarith : x - m * 2 ^ e ≤ 0)]
          linarith
        · have h1 := (f.nearest_multiple (x := x) (2 ^ (f.p - 1))).1
          rw [abs_of_pos hpos] at hb
          push_cast at h1
          rw [abs_of_nonneg (by linarith : 0 ≤ x - 2 ^ (f.p - 1) * 2 ^ f.expo x)] at h1
          have h2 := (abs_lt.1 hz).2
          rw [abs_of_nonneg (by linarith : 0 ≤ x - m * 2 ^ e)]
          linarith
      exact ⟨far.le, fun h _ => absurd h far.ne'⟩
  refine ⟨f.nearest_value h, fun z hz => (other z hz).1, fun z hz e hne => ?_⟩
  have hev := (other z hz).2 e hne
  have hle := f.near_lt (f.lt_expo x)
  rcases eq_or_lt_of_le hle with heq | hlt
  · -- the next power of two
    have htop := f.near_lt_top hx h heq
    have hpi : (2 : ℤ) ^ f.p = 2 ^ (f.p - 1) * 2 := by exact_mod_cast hpp
    have hpos : (0 : ℤ) < 2 ^ (f.p - 1) := by positivity
    have hk : ∀ s : ℤ, |s| = 1 → roundHalfEven (x / 2 ^ f.expo x) = s * 2 ^ f.p →
        f.Even (f.nearest x) := by
      intro s hs hns
      refine ⟨s * 2 ^ (f.p - 1), f.expo x + 1, ?_, ?_, by omega, .inl ?_, ?_, ?_⟩
      · rw [abs_mul, hs, abs_of_pos hpos, hpi]; omega
      · have := f.lo_le_expo x; omega
      · rw [abs_mul, hs, abs_of_pos hpos]; omega
      · rw [nearest, hns, hpi, zpow_add₀ (by norm_num)]; push_cast; ring
      · refine Even.mul_left ?_ s
        exact (even_two).pow_of_ne_zero (by have := f.two_le_p; omega)
    rcases abs_eq_abs.1 (heq.trans (abs_of_pos (by positivity : (0 : ℤ) < 2 ^ f.p)).symm) with e1 | e1
    · exact hk 1 (by simp) (by rw [e1]; ring)
    · exact hk (-1) (by simp) (by rw [e1]; ring)
  · refine ⟨_, _, hlt, f.lo_le_expo x, f.expo_le_hi hx h, ?_, rfl, hev⟩
    by_cases hlo : f.expo x = f.lo
    · exact .inr hlo
    · left
      have hb := big (lt_of_le_of_ne (f.lo_le_expo x) (Ne.symm hlo))
      have h1 : (2 : ℚ) ^ (f.p - 1) ≤ |x / 2 ^ f.expo x| := by
        rw [abs_div, abs_of_pos hw, le_div_iff₀ hw]; exact hb
      have h2 := half_even_error (x / 2 ^ f.expo x)
      have h3 : (2 : ℚ) ^ (f.p - 1) - 1 < |(roundHalfEven (x / 2 ^ f.expo x) : ℚ)| := by
        have := abs_sub_abs_le_abs_sub (x / 2 ^ f.expo x) (roundHalfEven (x / 2 ^ f.expo x) : ℚ)
        linarith
      have h4 : (2 : ℤ) ^ (f.p - 1) - 1 < |roundHalfEven (x / 2 ^ f.expo x)| := by exact_mod_cast h3
      omega

/-- The error of a correctly rounded result: relative, or that of underflow. -/
theorem RoundsTo.error {x y : ℚ} (hr : f.RoundsTo x y) (h : |x| < f.limit) :
    |y - x| ≤ f.u * |x| ∨ |y - x| ≤ f.eta ∧ |x| < 2 ^ f.p * 2 ^ f.lo := by
  by_cases hx : x = 0
  · left
    have := hr.2.1 0 f.value_zero
    subst hx
    simpa using this
  have h1 := (hr.2.1 _ (f.nearest_value h)).trans (f.nearest_error x)
  rw [abs_sub_comm] at h1
  rcases le_total (Int.log 2 |x| - f.p + 1) f.lo with hm | hm
  · right
    have he : f.expo x = f.lo := max_eq_right hm
    have h2 := f.lt_expo x
    rw [he] at h1 h2
    refine ⟨h1.trans (le_of_eq ?_), h2⟩
    rw [eta, zpow_sub_one₀ (by norm_num)]
    ring
  · left
    have he : f.expo x = Int.log 2 |x| - f.p + 1 := max_eq_left hm
    refine h1.trans ?_
    have e : (2 : ℚ) ^ f.expo x / 2 = f.u * 2 ^ Int.log 2 |x| := by
      rw [he, u, ← zpow_add₀ (by norm_num), div_eq_mul_inv, ← zpow_neg_one, ← zpow_add₀ (by norm_num)]
      congr 1
      ring
    rw [e]
    exact mul_le_mul_of_nonneg_left (log_le hx) f.u_pos.le

/-- A value rounds to itself. -/
theorem RoundsTo.self {x y : ℚ} (hr : f.RoundsTo x y) (h : f.Value x) : y = x := by
  have := hr.2.1 x h
  simp only [sub_self, abs_zero, abs_nonpos_iff] at this
  linarith

/-- Sums do not underflow. -/
theorem RoundsTo.add_error {x y z : ℚ} (hr : f.RoundsTo (x + y) z) (h : |x + y| < f.limit)
    (hx : f.Value x) (hy : f.Value y) : |z - (x + y)| ≤ f.u * |x + y| := by
  rcases RoundsTo.error f hr h with e | ⟨-, e⟩
  · exact e
  · have hv : f.Value (x + y) := by
      obtain ⟨m, a, -, ha, -, rfl⟩ := hx
      obtain ⟨n, b, -, hb, -, rfl⟩ := hy
      obtain ⟨s, hs⟩ := Int.le.dest ha
      obtain ⟨t, ht⟩ := Int.le.dest hb
      have hp := two_zpow_pos f.lo
      have e1 : (m * 2 ^ a + n * 2 ^ b : ℚ) = ((m * 2 ^ s + n * 2 ^ t : ℤ) : ℚ) * 2 ^ f.lo := by
        rw [← hs, ← ht, zpow_add₀ (by norm_num), zpow_add₀ (by norm_num), zpow_natCast, zpow_natCast]
        push_cast
        ring
      rw [e1] at e ⊢
      rw [abs_mul, abs_of_pos hp] at e
      have e2 := lt_of_mul_lt_mul_right e hp.le
      exact ⟨_, _, by exact_mod_cast e2, le_rfl, by have := f.lo_le; have := f.le_hi; omega, rfl⟩
    rw [RoundsTo.self f hr hv, sub_self, abs_zero]
    have := f.u_pos
    positivity

theorem RoundsTo.sub_error {x y z : ℚ} (hr : f.RoundsTo (x - y) z) (h : |x - y| < f.limit)
    (hx : f.Value x) (hy : f.Value y) : |z - (x - y)| ≤ f.u * |x - y| := by
  rw [sub_eq_add_neg x y] at hr h ⊢
  exact hr.add_error f h hx (f.value_neg hy)

/-- Whole numbers up to `2^p` are values. -/
theorem value_int {n : ℤ} (h : |n| ≤ 2 ^ f.p) : f.Value n := by
  have := f.value_of (e := 0) h f.lo_le (by have := f.le_hi; omega) (fun _ => by have := f.le_hi; omega)
  simpa using this

end Format

end Householder.Spec
