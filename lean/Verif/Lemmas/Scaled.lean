import Verif.Spec.Scaled
import Verif.Lemmas.Fp
import Verif.Lemmas.F64
import Verif.Lemmas.RoundsUnique

/-!
# Multiplying floating-point numbers by powers of two
-/

namespace Householder.Spec

open F64 (roundHalfEven)

namespace Format

variable (f : Format)

/-- Rounding to `p` digits with unbounded exponents. -/
def wide (x : ℚ) : ℚ :=
  roundHalfEven (x / 2 ^ (Int.log 2 |x| - f.p + 1)) * 2 ^ (Int.log 2 |x| - f.p + 1)

theorem wide_zero : f.wide 0 = 0 := by
  have : roundHalfEven ((0 : ℤ) : ℚ) = 0 := F64.roundHalfEven_int 0
  simp only [Int.cast_zero] at this
  simp [wide, this]

theorem log_scale {x : ℚ} (hx : x ≠ 0) (k : ℤ) : Int.log 2 |2 ^ k * x| = k + Int.log 2 |x| := by
  have h : 0 < |x| := abs_pos.2 hx
  have hk : (0 : ℚ) < 2 ^ k := by positivity
  have b : (1 : ℕ) < 2 := by norm_num
  have h1 := Int.zpow_log_le_self b h
  have h2 := Int.lt_zpow_succ_log_self b |x|
  rw [abs_mul, abs_of_pos hk]
  refine F64.log_eq ?_ ?_
  · rw [zpow_add₀ (by norm_num)]
    exact mul_le_mul_of_nonneg_left (by exact_mod_cast h1) hk.le
  · rw [add_assoc, zpow_add₀ (by norm_num)]
    exact mul_lt_mul_of_pos_left (by exact_mod_cast h2) hk

theorem wide_scale (x : ℚ) (k : ℤ) : f.wide (2 ^ k * x) = 2 ^ k * f.wide x := by
  by_cases hx : x = 0
  · subst hx; rw [mul_zero, wide_zero, mul_zero]
  · unfold wide
    rw [log_scale hx k]
    have e : k + Int.log 2 |x| - f.p + 1 = k + (Int.log 2 |x| - f.p + 1) := by ring
    rw [e, zpow_add₀ (by norm_num), mul_div_mul_left _ _ (by positivity)]
    ring

theorem nearest_wide {x : ℚ} (h : f.Retains x) : f.nearest x = f.wide x := by
  by_cases hl : f.lo ≤ Int.log 2 |x| - f.p + 1
  · simp only [nearest, expo, wide, max_eq_left hl]
  · push Not at hl
    have exact : ∀ e : ℤ, e ≤ f.lo → ∀ n : ℤ, x = n * 2 ^ f.lo →
        (roundHalfEven (x / 2 ^ e) : ℚ) * 2 ^ e = x := by
      intro e he n hn
      obtain ⟨s, hs⟩ := Int.le.dest he
      have hp : (2 : ℚ) ^ e ≠ 0 := by positivity
      have h1 : x / 2 ^ e = ((n * 2 ^ s : ℤ) : ℚ) := by
        rw [hn, ← hs, zpow_add₀ (by norm_num), zpow_natCast]
        push_cast
        field_simp
      rw [h1, F64.roundHalfEven_int, ← h1, div_mul_cancel₀ _ hp]
    rcases h with ⟨n, hn⟩ | h
    · have h1 := exact _ le_rfl n hn
      have h2 := exact _ hl.le n hn
      simp only [nearest, expo, wide, max_eq_right hl.le]
      rw [h1, h2]
    · exfalso
      have h0 : 0 < |x| := lt_of_lt_of_le (by positivity) h
      have b : (1 : ℕ) < 2 := by norm_num
      have := (Int.zpow_le_iff_le_log b h0).1 (by exact_mod_cast h)
      omega

/-- Rounding commutes with multiplying by a power of two. -/
theorem RoundsTo.scaled {x y y' : ℚ} {k : ℤ} (h : f.RoundsTo x y) (h' : f.RoundsTo (2 ^ k * x) y')
    (hl : |x| < f.limit) (hl' : |2 ^ k * x| < f.limit) (hr : f.Retains x) (hr' : f.Retains (2 ^ k * x)) :
    y' = 2 ^ k * y := by
  rw [RoundsTo.unique f h (f.nearest_roundsTo hl), RoundsTo.unique f h' (f.nearest_roundsTo hl'),
    f.nearest_wide hr, f.nearest_wide hr', wide_scale]

theorem retains_value {x : ℚ} (h : f.Value x) : ∃ n : ℤ, x = n * 2 ^ f.lo := by
  obtain ⟨m, a, -, ha, -, rfl⟩ := h
  obtain ⟨s, hs⟩ := Int.le.dest ha
  refine ⟨m * 2 ^ s, ?_⟩
  rw [← hs, zpow_add₀ (by norm_num), zpow_natCast]
  push_cast
  ring

theorem retains_add {x y : ℚ} (hx : f.Value x) (hy : f.Value y) : f.Retains (x + y) := by
  obtain ⟨m, hm⟩ := f.retains_value hx
  obtain ⟨n, hn⟩ := f.retains_value hy
  exact .inl ⟨m + n, by rw [hm, hn]; push_cast; ring⟩

theorem retains_sub {x y : ℚ} (hx : f.Value x) (hy : f.Value y) : f.Retains (x - y) := by
  rw [sub_eq_add_neg]
  exact f.retains_add hx (f.value_neg hy)

end Format

/-- The exponent of the factor of numbers of this kind. -/
def Made.power (m n : ℤ) : Made → ℤ
  | .scalar => 0
  | .row => m
  | .column => n
  | .term => m + n

theorem Made.power_times {m n : ℤ} {i j k : Made} (h : i.times j = some k) :
    k.power m n = i.power m n + j.power m n := by
  cases i <;> cases j <;> simp [times] at h <;> subst h <;> simp [power, add_comm]

variable {F : Type} [Add F] [Sub F] [Mul F] {f : Format}

theorem Ieee.scaled_add (R : Ieee f F) {a b a' b' : F} {k : ℤ} {r r' x y x' y' : ℚ}
    (ha : R.val a = some x) (hb : R.val b = some y) (ha' : R.val a' = some x') (hb' : R.val b' = some y')
    (hr : f.RoundsTo (x + y) r) (hr' : f.RoundsTo (x' + y') r') (hl : |x + y| < f.limit) (hl' : |x' + y'| < f.limit)
    (hx : x' = 2 ^ k * x) (hy : y' = 2 ^ k * y) : r' = 2 ^ k * r := by
  have h1 := f.retains_add (R.format _ _ ha) (R.format _ _ hb)
  have h2 := f.retains_add (R.format _ _ ha') (R.format _ _ hb')
  rw [hx, hy, ← mul_add] at hr' hl' h2
  exact hr.scaled f hr' hl hl' h1 h2

theorem Ieee.scaled_sub (R : Ieee f F) {a b a' b' : F} {k : ℤ} {r r' x y x' y' : ℚ}
    (ha : R.val a = some x) (hb : R.val b = some y) (ha' : R.val a' = some x') (hb' : R.val b' = some y')
    (hr : f.RoundsTo (x - y) r) (hr' : f.RoundsTo (x' - y') r') (hl : |x - y| < f.limit) (hl' : |x' - y'| < f.limit)
    (hx : x' = 2 ^ k * x) (hy : y' = 2 ^ k * y) : r' = 2 ^ k * r := by
  have h1 := f.retains_sub (R.format _ _ ha) (R.format _ _ hb)
  have h2 := f.retains_sub (R.format _ _ ha') (R.format _ _ hb')
  rw [hx, hy, ← mul_sub] at hr' hl' h2
  exact hr.scaled f hr' hl hl' h1 h2

namespace Fp

/-- Multiplying the operands by powers of two multiplies the result by the power of its kind. -/
theorem scaled (R : Ieee f F) {m n : ℤ} {v v' : Operand → F}
    (hv : ∀ o k, o.Is k → R.Times (k.power m n) (v o) (v' o))
    (t : Fp Operand) (k : Made) (hk : t.Is k) (hr : (t.fill v).Retains R) (hr' : (t.fill v').Retains R) {x x' : ℚ}
    (hx : R.val ((t.fill v).run R) = some x) (hx' : R.val ((t.fill v').run R) = some x') :
    x' = 2 ^ k.power m n * x := by
  induction t generalizing k x x' with
  | lit o => exact hv o k hk x x' hx hx'
  | add s t ihs iht =>
    obtain ⟨a, b, ha, hb, hl, hq⟩ := result_finite (g := (· + ·)) (R.add_result _ _) hx
    obtain ⟨a', b', ha', hb', hl', hq'⟩ := result_finite (g := (· + ·)) (R.add_result _ _) hx'
    exact R.scaled_add ha hb ha' hb' hq hq' hl hl' (ihs k hk.1 hr.1 hr'.1 ha ha') (iht k hk.2 hr.2 hr'.2 hb hb')
  | sub s t ihs iht =>
    obtain ⟨a, b, ha, hb, hl, hq⟩ := result_finite (g := (· - ·)) (R.sub_result _ _) hx
    obtain ⟨a', b', ha', hb', hl', hq'⟩ := result_finite (g := (· - ·)) (R.sub_result _ _) hx'
    exact R.scaled_sub ha hb ha' hb' hq hq' hl hl' (ihs k hk.1 hr.1 hr'.1 ha ha') (iht k hk.2 hr.2 hr'.2 hb hb')
  | mul s t ihs iht =>
    obtain ⟨i, j, hij, hi, hj⟩ := hk
    obtain ⟨a, b, ha, hb, hl, hq⟩ := result_finite (g := (· * ·)) (R.mul_result _ _) hx
    obtain ⟨a', b', ha', hb', hl', hq'⟩ := result_finite (g := (· * ·)) (R.mul_result _ _) hx'
    have h1 := hr.2.2 a b ha hb
    have h2 := hr'.2.2 a' b' ha' hb'
    have e : a' * b' = 2 ^ k.power m n * (a * b) := by
      rw [ihs i hi hr.1 hr'.1 ha ha', iht j hj hr.2.1 hr'.2.1 hb hb', Made.power_times hij,
        zpow_add₀ (by norm_num)]
      ring
    simp only [e] at hq' hl' h2
    exact hq.scaled f hq' hl hl' h1 h2
  | fma s t r ihs iht ihr =>
    obtain ⟨⟨i, j, hij, hi, hj⟩, hk⟩ := hk
    obtain ⟨a, b, c, ha, hb, hc, hl, hq⟩ := result_finite3 (R.fma_result _ _ _) hx
    obtain ⟨a', b', c', ha', hb', hc', hl', hq'⟩ := result_finite3 (R.fma_result _ _ _) hx'
    have h1 := hr.2.2.2 a b c ha hb hc
    have h2 := hr'.2.2.2 a' b' c' ha' hb' hc'
    have e : a' * b' + c' = 2 ^ k.power m n * (a * b + c) := by
      rw [ihs i hi hr.1 hr'.1 ha ha', iht j hj hr.2.1 hr'.2.1 hb hb', ihr k hk hr.2.2.1 hr'.2.2.1 hc hc',
        mul_add, Made.power_times hij, zpow_add₀ (by norm_num)]
      ring
    rw [e] at hq' hl' h2
    exact hq.scaled f hq' hl hl' h1 h2

end Fp

end Householder.Spec
