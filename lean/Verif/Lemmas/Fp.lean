import Verif.Lemmas.Ieee
import Mathlib.Data.List.Perm.Basic
import Mathlib.Algebra.BigOperators.Group.List.Basic
import Mathlib.Algebra.Order.BigOperators.Group.List

/-!
# Trees of rounded operations
-/

namespace Householder.Spec

variable {F : Type} [Add F] [Sub F] [Mul F] {f : Format}

namespace Fp

/-! ## Results of operations -/

theorem result_finite {r : Option ℚ} {x y : Option ℚ} {g : ℚ → ℚ → ℚ} {q : ℚ}
    (h : f.Result r (do return g (← x) (← y))) (hr : r = some q) :
    ∃ a b, x = some a ∧ y = some b ∧ |g a b| < f.limit ∧ f.RoundsTo (g a b) q := by
  cases x with
  | none => simp [Format.Result, hr] at h
  | some a =>
    cases y with
    | none => simp [Format.Result, hr] at h
    | some b =>
      simp only [Format.Result, Option.bind_eq_bind, Option.bind_some, Option.pure_def] at h
      split at h
      · rename_i hl
        obtain ⟨y, e, hy⟩ := h
        rw [hr, Option.some.injEq] at e
        exact ⟨a, b, rfl, rfl, hl, e ▸ hy⟩
      · simp [hr] at h

theorem result_finite3 {r : Option ℚ} {x y z : Option ℚ} {q : ℚ}
    (h : f.Result r (do return (← x) * (← y) + (← z))) (hr : r = some q) :
    ∃ a b c, x = some a ∧ y = some b ∧ z = some c ∧ |a * b + c| < f.limit ∧
      f.RoundsTo (a * b + c) q := by
  cases x with
  | none => simp [Format.Result, hr] at h
  | some a =>
    cases y with
    | none => simp [Format.Result, hr] at h
    | some b =>
      cases z with
      | none => simp [Format.Result, hr] at h
      | some c =>
        simp only [Format.Result, Option.bind_eq_bind, Option.bind_some, Option.pure_def] at h
        split at h
        · rename_i hl
          obtain ⟨y, e, hy⟩ := h
          rw [hr, Option.some.injEq] at e
          exact ⟨a, b, c, rfl, rfl, rfl, hl, e ▸ hy⟩
        · simp [hr] at h

theorem result_ok {r : Option ℚ} {x : ℚ} (h : f.Result r (some x)) (hl : |x| < f.limit) :
    ∃ y, r = some y ∧ f.RoundsTo x y := by
  simpa [Format.Result, hl] using h

/-! ## Bounds -/

theorem magnitude_nonneg (R : Ieee f F) (t : Fp F) : 0 ≤ t.magnitude R := by
  induction t with
  | lit a => exact abs_nonneg _
  | add s t h1 h2 => exact add_nonneg h1 h2
  | sub s t h1 h2 => exact add_nonneg h1 h2
  | mul s t h1 h2 => exact mul_nonneg h1 h2
  | fma s t r h1 h2 h3 => exact add_nonneg (mul_nonneg h1 h2) h3

theorem exact_le (R : Ieee f F) (t : Fp F) : |t.exact R| ≤ t.magnitude R := by
  induction t with
  | lit a => exact le_rfl
  | add s t h1 h2 => exact (abs_add_le _ _).trans (add_le_add h1 h2)
  | sub s t h1 h2 => exact (abs_sub _ _).trans (add_le_add h1 h2)
  | mul s t h1 h2 =>
    simp only [exact, magnitude, abs_mul]
    exact mul_le_mul h1 h2 (abs_nonneg _) (magnitude_nonneg R s)
  | fma s t r h1 h2 h3 =>
    refine (abs_add_le _ _).trans (add_le_add ?_ h3)
    rw [abs_mul]
    exact mul_le_mul h1 h2 (abs_nonneg _) (magnitude_nonneg R s)

theorem magnitude_le (R : Ieee f F) (t : Fp F) : t.magnitude R ≤ t.reach R := by
  have he := f.eta_pos
  induction t with
  | lit a => exact le_rfl
  | add s t h1 h2 => exact add_le_add h1 h2
  | sub s t h1 h2 => exact add_le_add h1 h2
  | mul s t h1 h2 =>
    have := mul_le_mul h1 h2 (magnitude_nonneg R t) ((magnitude_nonneg R s).trans h1)
    simp only [magnitude, reach]; linarith
  | fma s t r h1 h2 h3 =>
    have := mul_le_mul h1 h2 (magnitude_nonneg R t) ((magnitude_nonneg R s).trans h1)
    simp only [magnitude, reach]; linarith

theorem reach_nonneg (R : Ieee f F) (t : Fp F) : 0 ≤ t.reach R :=
  (magnitude_nonneg R t).trans (magnitude_le R t)

theorem one_le_factor (f : Format) (n : ℕ) : 1 ≤ (1 + f.u) ^ n :=
  one_le_pow₀ (by have := f.u_pos; linarith)

theorem factor_mono (f : Format) {m n : ℕ} (h : m ≤ n) : (1 + f.u) ^ m ≤ (1 + f.u) ^ n :=
  pow_le_pow_right₀ (by have := f.u_pos; linarith) h

/-- One rounding. -/
theorem rounded {x y m T G eta : ℚ} (hT : |x| ≤ G * T) {ex : ℚ} (hex : |x - ex| ≤ G * T - m)
    (h : |y - x| ≤ f.u * |x| + eta) : |y - ex| ≤ G * (1 + f.u) * T + eta - m := by
  have hu := f.u_pos
  have e : y - ex = (y - x) + (x - ex) := by ring
  rw [e]
  calc _ ≤ |y - x| + |x - ex| := abs_add_le _ _
    _ ≤ f.u * (G * T) + eta + (G * T - m) :=
      add_le_add (h.trans (add_le_add (mul_le_mul_of_nonneg_left hT hu.le) le_rfl)) hex
    _ = _ := by ring

/-- From the distance to the exact result to a bound of the result. -/
theorem bounded {x ex m B : ℚ} (hex : |x - ex| ≤ B - m) (hm : |ex| ≤ m) : |x| ≤ B := by
  have e : x = (x - ex) + ex := by ring
  rw [e]
  exact (abs_add_le _ _).trans (by linarith)

theorem mul_error {a b x y m n A B : ℚ} (hx : |x| ≤ m) (hy : |y| ≤ n) (ha : |a - x| ≤ A - m)
    (hb : |b - y| ≤ B - n) : |a * b - x * y| ≤ A * B - m * n := by
  have hm := (abs_nonneg _).trans hx
  have hn := (abs_nonneg _).trans hy
  have hA := (abs_nonneg _).trans ha
  have e : a * b - x * y = (a - x) * (b - y) + (a - x) * y + x * (b - y) := by ring
  rw [e]
  have e1 : |(a - x) * (b - y)| ≤ (A - m) * (B - n) := by
    rw [abs_mul]; exact mul_le_mul ha hb (abs_nonneg _) hA
  have e2 : |(a - x) * y| ≤ (A - m) * n := by
    rw [abs_mul]; exact mul_le_mul ha hy (abs_nonneg _) hA
  have e3 : |x * (b - y)| ≤ m * (B - n) := by
    rw [abs_mul]; exact mul_le_mul hx hb (abs_nonneg _) hm
  calc _ ≤ |(a - x) * (b - y) + (a - x) * y| + |x * (b - y)| := abs_add_le _ _
    _ ≤ |(a - x) * (b - y)| + |(a - x) * y| + |x * (b - y)| := add_le_add (abs_add_le _ _) le_rfl
    _ ≤ _ := by linarith

theorem error_le_eta (f : Format) {x y : ℚ} (hr : f.RoundsTo x y) (h : |x| < f.limit) :
    |y - x| ≤ f.u * |x| + f.eta := by
  have := f.eta_pos
  have hu : 0 ≤ f.u * |x| := mul_nonneg f.u_pos.le (abs_nonneg _)
  rcases Format.RoundsTo.error f hr h with e | ⟨e, -⟩ <;> linarith

/-- The step of a sum, before rounding. -/
theorem add_before {a b x y m n G1 G2 S T : ℚ} {k l : ℕ} (hS : 0 ≤ S) (hT : 0 ≤ T)
    (h1 : G1 = (1 + f.u) ^ k) (h2 : G2 = (1 + f.u) ^ l)
    (ha : |a - x| ≤ G1 * S - m) (hb : |b - y| ≤ G2 * T - n) :
    |a + b - (x + y)| ≤ (1 + f.u) ^ max k l * (S + T) - (m + n) := by
  have e : a + b - (x + y) = (a - x) + (b - y) := by ring
  rw [e]
  have g1 := mul_le_mul_of_nonneg_right (factor_mono f (le_max_left k l)) hS
  have g2 := mul_le_mul_of_nonneg_right (factor_mono f (le_max_right k l)) hT
  rw [h1] at ha
  rw [h2] at hb
  calc _ ≤ |a - x| + |b - y| := abs_add_le _ _
    _ ≤ _ := by linarith

/-- The step of a difference, before rounding. -/
theorem sub_before {a b x y m n G1 G2 S T : ℚ} {k l : ℕ} (hS : 0 ≤ S) (hT : 0 ≤ T)
    (h1 : G1 = (1 + f.u) ^ k) (h2 : G2 = (1 + f.u) ^ l)
    (ha : |a - x| ≤ G1 * S - m) (hb : |b - y| ≤ G2 * T - n) :
    |a - b - (x - y)| ≤ (1 + f.u) ^ max k l * (S + T) - (m + n) := by
  have e : a - b - (x - y) = a + -b - (x + -y) := by ring
  rw [e]
  refine add_before hS hT h1 h2 ha ?_
  rw [show -b - -y = -(b - y) by ring, abs_neg]
  exact hb

/-- Before the last rounding: sums, products and fused products. -/
theorem mul_before {a b x y m n S T : ℚ} {k l : ℕ} (hx : |x| ≤ m) (hy : |y| ≤ n)
    (ha : |a - x| ≤ (1 + f.u) ^ k * S - m) (hb : |b - y| ≤ (1 + f.u) ^ l * T - n) :
    |a * b - x * y| ≤ (1 + f.u) ^ (k + l) * (S * T) - m * n := by
  have := mul_error hx hy ha hb
  rw [pow_add]
  linarith [mul_mul_mul_comm ((1 + f.u) ^ k) S ((1 + f.u) ^ l) T]

/-- **The error of a tree**: if the result is finite it differs from the exact result by at most
`(1 + u)^roundings * reach - magnitude`. -/
theorem error (R : Ieee f F) (t : Fp F) (q : ℚ) (h : R.val (t.run R) = some q) :
    |q - t.exact R| ≤ (1 + f.u) ^ t.roundings * t.reach R - t.magnitude R := by
  induction t generalizing q with
  | lit a =>
    simp only [run] at h
    simp [exact, roundings, reach, magnitude, h]
  | add s t ihs iht =>
    obtain ⟨a, b, ha, hb, hl, hr⟩ := result_finite (g := (· + ·)) (R.add_result _ _) h
    have h1 := add_before (reach_nonneg R s) (reach_nonneg R t) rfl rfl (ihs a ha) (iht b hb)
    have h2 := bounded h1 (exact_le R (add s t))
    have h3 := rounded (eta := 0) h2 h1 (by
      rw [add_zero]; exact Format.RoundsTo.add_error f hr hl (R.format _ _ ha) (R.format _ _ hb))
    simpa only [roundings, reach, magnitude, exact, pow_succ, add_zero] using h3
  | sub s t ihs iht =>
    obtain ⟨a, b, ha, hb, hl, hr⟩ := result_finite (g := (· - ·)) (R.sub_result _ _) h
    have h1 := sub_before (reach_nonneg R s) (reach_nonneg R t) rfl rfl (ihs a ha) (iht b hb)
    have h2 := bounded h1 (exact_le R (sub s t))
    have h3 := rounded (eta := 0) h2 h1 (by
      rw [add_zero]; exact Format.RoundsTo.sub_error f hr hl (R.format _ _ ha) (R.format _ _ hb))
    simpa only [roundings, reach, magnitude, exact, pow_succ, add_zero] using h3
  | mul s t ihs iht =>
    obtain ⟨a, b, ha, hb, hl, hr⟩ := result_finite (g := (· * ·)) (R.mul_result _ _) h
    have h1 := mul_before (exact_le R s) (exact_le R t) (ihs a ha) (iht b hb)
    have h2 := bounded h1 (exact_le R (mul s t))
    have h3 := rounded h2 h1 (error_le_eta f hr hl)
    refine h3.trans ?_
    simp only [roundings, reach, magnitude, pow_succ]
    have := le_mul_of_one_le_left f.eta_pos.le (one_le_factor f (s.roundings + t.roundings + 1))
    rw [pow_succ] at this
    linarith
  | fma s t r ihs iht ihr =>
    obtain ⟨a, b, c, ha, hb, hc, hl, hr⟩ := result_finite3 (R.fma_result _ _ _) h
    have h0 := mul_before (exact_le R s) (exact_le R t) (ihs a ha) (iht b hb)
    have h1 := add_before (mul_nonneg (reach_nonneg R s) (reach_nonneg R t)) (reach_nonneg R r) rfl rfl
      h0 (ihr c hc)
    have h2 := bounded h1 (exact_le R (fma s t r))
    have h3 := rounded h2 h1 (error_le_eta f hr hl)
    refine h3.trans ?_
    simp only [roundings, reach, magnitude, pow_succ]
    have := le_mul_of_one_le_left f.eta_pos.le
      (one_le_factor f (max (s.roundings + t.roundings) r.roundings + 1))
    rw [pow_succ] at this
    linarith

/-- If the result is finite, so were all scalars. -/
theorem finite_of_result (R : Ieee f F) (t : Fp F) (q : ℚ) (h : R.val (t.run R) = some q) :
    t.Finite R := by
  induction t generalizing q with
  | lit a => simp only [run] at h; simp [Literals, h]
  | add s t ihs iht =>
    obtain ⟨a, b, ha, hb, -⟩ := result_finite (g := (· + ·)) (R.add_result _ _) h
    exact ⟨ihs a ha, iht b hb⟩
  | sub s t ihs iht =>
    obtain ⟨a, b, ha, hb, -⟩ := result_finite (g := (· - ·)) (R.sub_result _ _) h
    exact ⟨ihs a ha, iht b hb⟩
  | mul s t ihs iht =>
    obtain ⟨a, b, ha, hb, -⟩ := result_finite (g := (· * ·)) (R.mul_result _ _) h
    exact ⟨ihs a ha, iht b hb⟩
  | fma s t r ihs iht ihr =>
    obtain ⟨a, b, c, ha, hb, hc, -⟩ := result_finite3 (R.fma_result _ _ _) h
    exact ⟨ihs a ha, iht b hb, ihr c hc⟩

/-- **No overflow**: the result is finite if the scalars are and no operation can reach the limit. -/
theorem finite (R : Ieee f F) (t : Fp F) (hf : t.Finite R)
    (h : t.Every fun s => (1 + f.u) ^ s.roundings * s.reach R < f.limit) :
    ∃ q, R.val (t.run R) = some q := by
  have grow : ∀ {n : ℕ} {T : ℚ}, 0 ≤ T → (1 + f.u) ^ n * T ≤ (1 + f.u) ^ (n + 1) * T :=
    fun hT => mul_le_mul_of_nonneg_right (factor_mono f (Nat.le_succ _)) hT
  have more : ∀ {n : ℕ} {T : ℚ}, (1 + f.u) ^ n * T ≤ (1 + f.u) ^ n * (T + f.eta) := fun {n T} =>
    mul_le_mul_of_nonneg_left (by have := f.eta_pos; linarith) (by have := one_le_factor f n; linarith)
  induction t with
  | lit a => exact Option.isSome_iff_exists.1 hf
  | add s t ihs iht =>
    obtain ⟨h0, h1, h2⟩ := h
    obtain ⟨a, ha⟩ := ihs hf.1 h1
    obtain ⟨b, hb⟩ := iht hf.2 h2
    have e := add_before (reach_nonneg R s) (reach_nonneg R t) rfl rfl (error R s a ha) (error R t b hb)
    have e2 := bounded e (exact_le R (add s t))
    have hR := R.add_result (s.run R) (t.run R)
    simp only [ha, hb, Option.bind_eq_bind, Option.bind_some, Option.pure_def] at hR
    obtain ⟨y, hy, -⟩ := result_ok hR
      ((e2.trans (grow (add_nonneg (reach_nonneg R s) (reach_nonneg R t)))).trans_lt h0)
    exact ⟨y, hy⟩
  | sub s t ihs iht =>
    obtain ⟨h0, h1, h2⟩ := h
    obtain ⟨a, ha⟩ := ihs hf.1 h1
    obtain ⟨b, hb⟩ := iht hf.2 h2
    have e := sub_before (reach_nonneg R s) (reach_nonneg R t) rfl rfl (error R s a ha) (error R t b hb)
    have e2 := bounded e (exact_le R (sub s t))
    have hR := R.sub_result (s.run R) (t.run R)
    simp only [ha, hb, Option.bind_eq_bind, Option.bind_some, Option.pure_def] at hR
    obtain ⟨y, hy, -⟩ := result_ok hR
      ((e2.trans (grow (add_nonneg (reach_nonneg R s) (reach_nonneg R t)))).trans_lt h0)
    exact ⟨y, hy⟩
  | mul s t ihs iht =>
    obtain ⟨h0, h1, h2⟩ := h
    obtain ⟨a, ha⟩ := ihs hf.1 h1
    obtain ⟨b, hb⟩ := iht hf.2 h2
    have e := mul_before (exact_le R s) (exact_le R t) (error R s a ha) (error R t b hb)
    have e2 := bounded e (exact_le R (mul s t))
    have hR := R.mul_result (s.run R) (t.run R)
    simp only [ha, hb, Option.bind_eq_bind, Option.bind_some, Option.pure_def] at hR
    obtain ⟨y, hy, -⟩ := result_ok hR
      (((e2.trans (grow (mul_nonneg (reach_nonneg R s) (reach_nonneg R t)))).trans more).trans_lt h0)
    exact ⟨y, hy⟩
  | fma s t r ihs iht ihr =>
    obtain ⟨h0, h1, h2, h3⟩ := h
    obtain ⟨a, ha⟩ := ihs hf.1 h1
    obtain ⟨b, hb⟩ := iht hf.2.1 h2
    obtain ⟨c, hc⟩ := ihr hf.2.2 h3
    have e0 := mul_before (exact_le R s) (exact_le R t) (error R s a ha) (error R t b hb)
    have e := add_before (mul_nonneg (reach_nonneg R s) (reach_nonneg R t)) (reach_nonneg R r) rfl rfl
      e0 (error R r c hc)
    have e2 := bounded e (exact_le R (fma s t r))
    have hR := R.fma_result (s.run R) (t.run R) (r.run R)
    simp only [ha, hb, hc, Option.bind_eq_bind, Option.bind_some, Option.pure_def] at hR
    obtain ⟨y, hy, -⟩ := result_ok hR
      (((e2.trans (grow (add_nonneg (mul_nonneg (reach_nonneg R s) (reach_nonneg R t))
        (reach_nonneg R r)))).trans more).trans_lt h0)
    exact ⟨y, hy⟩

/-- **No rounding**: if the exact result of every operation is a value of the format, the result is
exact. -/
theorem run_exact (R : Ieee f F) (t : Fp F) (hf : t.Finite R)
    (h : t.Every fun s => f.Value (s.exact R)) : R.val (t.run R) = some (t.exact R) := by
  induction t with
  | lit a =>
    obtain ⟨x, hx⟩ := Option.isSome_iff_exists.1 hf
    simp [run, exact, hx]
  | add s t ihs iht =>
    obtain ⟨h0, h1, h2⟩ := h
    have hR := R.add_result (s.run R) (t.run R)
    simp only [ihs hf.1 h1, iht hf.2 h2, Option.bind_eq_bind, Option.bind_some, Option.pure_def] at hR
    obtain ⟨y, hy, hr⟩ := result_ok hR (f.value_lt_limit h0)
    simp only [run]
    rw [hy, Format.RoundsTo.self f hr h0]
    rfl
  | sub s t ihs iht =>
    obtain ⟨h0, h1, h2⟩ := h
    have hR := R.sub_result (s.run R) (t.run R)
    simp only [ihs hf.1 h1, iht hf.2 h2, Option.bind_eq_bind, Option.bind_some, Option.pure_def] at hR
    obtain ⟨y, hy, hr⟩ := result_ok hR (f.value_lt_limit h0)
    simp only [run]
    rw [hy, Format.RoundsTo.self f hr h0]
    rfl
  | mul s t ihs iht =>
    obtain ⟨h0, h1, h2⟩ := h
    have hR := R.mul_result (s.run R) (t.run R)
    simp only [ihs hf.1 h1, iht hf.2 h2, Option.bind_eq_bind, Option.bind_some, Option.pure_def] at hR
    obtain ⟨y, hy, hr⟩ := result_ok hR (f.value_lt_limit h0)
    simp only [run]
    rw [hy, Format.RoundsTo.self f hr h0]
    rfl
  | fma s t r ihs iht ihr =>
    obtain ⟨h0, h1, h2, h3⟩ := h
    have hR := R.fma_result (s.run R) (t.run R) (r.run R)
    simp only [ihs hf.1 h1, iht hf.2.1 h2, ihr hf.2.2 h3, Option.bind_eq_bind, Option.bind_some,
      Option.pure_def] at hR
    obtain ⟨y, hy, hr⟩ := result_ok hR (f.value_lt_limit h0)
    simp only [run]
    rw [hy, Format.RoundsTo.self f hr h0]
    rfl

omit [Add F] [Sub F] [Mul F] in
theorem Every.mono {P Q : Fp F → Prop} (h : ∀ s, P s → Q s) {t : Fp F} (ht : t.Every P) :
    t.Every Q := by
  induction t with
  | lit a => trivial
  | add s t ihs iht => exact ⟨h _ ht.1, ihs ht.2.1, iht ht.2.2⟩
  | sub s t ihs iht => exact ⟨h _ ht.1, ihs ht.2.1, iht ht.2.2⟩
  | mul s t ihs iht => exact ⟨h _ ht.1, ihs ht.2.1, iht ht.2.2⟩
  | fma s t r ihs iht ihr => exact ⟨h _ ht.1, ihs ht.2.1, iht ht.2.2.1, ihr ht.2.2.2⟩

theorem whole_exact {R : Ieee f F} {t : Fp F} (h : t.Whole R) : ∃ n : ℤ, t.exact R = n := by
  induction t with
  | lit a => obtain ⟨n, e⟩ := h; exact ⟨n, by simp [Fp.exact, e]⟩
  | add s t ihs iht =>
    obtain ⟨m, e1⟩ := ihs h.1
    obtain ⟨n, e2⟩ := iht h.2
    exact ⟨m + n, by simp [Fp.exact, e1, e2]⟩
  | sub s t ihs iht =>
    obtain ⟨m, e1⟩ := ihs h.1
    obtain ⟨n, e2⟩ := iht h.2
    exact ⟨m - n, by simp [Fp.exact, e1, e2]⟩
  | mul s t ihs iht =>
    obtain ⟨m, e1⟩ := ihs h.1
    obtain ⟨n, e2⟩ := iht h.2
    exact ⟨m * n, by simp [Fp.exact, e1, e2]⟩
  | fma s t r ihs iht ihr =>
    obtain ⟨m, e1⟩ := ihs h.1
    obtain ⟨n, e2⟩ := iht h.2.1
    obtain ⟨k, e3⟩ := ihr h.2.2
    exact ⟨m * n + k, by simp [Fp.exact, e1, e2, e3]⟩

theorem whole_finite {R : Ieee f F} {t : Fp F} (h : t.Whole R) : t.Finite R := by
  induction t with
  | lit a => obtain ⟨n, e⟩ := h; simp [Fp.Literals, e]
  | add s t ihs iht => exact ⟨ihs h.1, iht h.2⟩
  | sub s t ihs iht => exact ⟨ihs h.1, iht h.2⟩
  | mul s t ihs iht => exact ⟨ihs h.1, iht h.2⟩
  | fma s t r ihs iht ihr => exact ⟨ihs h.1, iht h.2.1, ihr h.2.2⟩

theorem whole_value (R : Ieee f F) {s : Fp F} (hw : s.Whole R) (h : s.magnitude R ≤ 2 ^ f.p) :
    f.Value (s.exact R) := by
  obtain ⟨n, e⟩ := whole_exact hw
  have h1 := (exact_le R s).trans h
  rw [e] at h1 ⊢
  exact f.value_int (by exact_mod_cast h1)

/-- **Whole numbers** up to `2^p` are computed exactly. -/
theorem run_whole (R : Ieee f F) (t : Fp F) (hw : t.Whole R)
    (h : t.Every fun s => s.magnitude R ≤ 2 ^ f.p) : R.val (t.run R) = some (t.exact R) := by
  refine run_exact R t (whole_finite hw) ?_
  induction t with
  | lit a => trivial
  | add s t ihs iht => exact ⟨whole_value R hw h.1, ihs hw.1 h.2.1, iht hw.2 h.2.2⟩
  | sub s t ihs iht => exact ⟨whole_value R hw h.1, ihs hw.1 h.2.1, iht hw.2 h.2.2⟩
  | mul s t ihs iht => exact ⟨whole_value R hw h.1, ihs hw.1 h.2.1, iht hw.2 h.2.2⟩
  | fma s t r ihs iht ihr =>
    exact ⟨whole_value R hw h.1, ihs hw.1 h.2.1, iht hw.2.1 h.2.2.1, ihr hw.2.2 h.2.2.2⟩

omit [Add F] [Sub F] [Mul F] in
theorem Literals.mono {P Q : F → Prop} (h : ∀ a, P a → Q a) {t : Fp F} (ht : t.Literals P) :
    t.Literals Q := by
  induction t with
  | lit a => exact h a ht
  | add s t ihs iht => exact ⟨ihs ht.1, iht ht.2⟩
  | sub s t ihs iht => exact ⟨ihs ht.1, iht ht.2⟩
  | mul s t ihs iht => exact ⟨ihs ht.1, iht ht.2⟩
  | fma s t r ihs iht ihr => exact ⟨ihs ht.1, iht ht.2.1, ihr ht.2.2⟩

end Fp

/-! ## Sums of products -/

/-- The exact sum of products. -/
def dotSum (R : Ieee f F) (ps : List (F × F)) : ℚ :=
  (ps.map fun p => (R.val p.1).getD 0 * (R.val p.2).getD 0).sum

/-- The same with absolute values. -/
def dotSize (R : Ieee f F) (ps : List (F × F)) : ℚ :=
  (ps.map fun p => |(R.val p.1).getD 0| * |(R.val p.2).getD 0|).sum

/-- The sum of the absolute values of the second factors. -/
def factorSize (R : Ieee f F) (ps : List (F × F)) : ℚ := (ps.map fun p => |(R.val p.2).getD 0|).sum

theorem dotSize_nonneg (R : Ieee f F) (ps : List (F × F)) : 0 ≤ dotSize R ps :=
  List.sum_nonneg (by simp only [List.mem_map]; rintro _ ⟨p, -, rfl⟩; positivity)

theorem factorSize_nonneg (R : Ieee f F) (ps : List (F × F)) : 0 ≤ factorSize R ps :=
  List.sum_nonneg (by simp only [List.mem_map]; rintro _ ⟨p, -, rfl⟩; positivity)

theorem dotSum_append (R : Ieee f F) (ps qs : List (F × F)) :
    dotSum R (ps ++ qs) = dotSum R ps + dotSum R qs := by simp [dotSum]

theorem dotSize_append (R : Ieee f F) (ps qs : List (F × F)) :
    dotSize R (ps ++ qs) = dotSize R ps + dotSize R qs := by simp [dotSize]

theorem factorSize_append (R : Ieee f F) (ps qs : List (F × F)) :
    factorSize R (ps ++ qs) = factorSize R ps + factorSize R qs := by simp [factorSize]

theorem dotSum_perm (R : Ieee f F) {ps qs : List (F × F)} (h : ps.Perm qs) :
    dotSum R ps = dotSum R qs := (h.map _).sum_eq

theorem dotSize_perm (R : Ieee f F) {ps qs : List (F × F)} (h : ps.Perm qs) :
    dotSize R ps = dotSize R qs := (h.map _).sum_eq

theorem factorSize_perm (R : Ieee f F) {ps qs : List (F × F)} (h : ps.Perm qs) :
    factorSize R ps = factorSize R qs := (h.map _).sum_eq

theorem SumOf.exact {R : Ieee f F} {ps : List (F × F)} {t : Fp F} (h : SumOf R ps t) :
    t.exact R = dotSum R ps ∧ t.magnitude R = dotSize R ps := by
  induction h with
  | empty hz => simp [Fp.exact, Fp.magnitude, dotSum, dotSize, hz]
  | one => simp [Fp.exact, Fp.magnitude, dotSum, dotSize]
  | fused _ ih => simp only [Fp.exact, Fp.magnitude, ih]; simp [dotSum, dotSize]
  | sum _ _ _ _ ih1 ih2 => simp [Fp.exact, Fp.magnitude, ih1, ih2, dotSum_append, dotSize_append]
  | order hp _ ih => rw [ih.1, ih.2, dotSum_perm R hp, dotSize_perm R hp]; exact ⟨rfl, rfl⟩

theorem SumOf.bounds {R : Ieee f F} {ps : List (F × F)} {t : Fp F} (h : SumOf R ps t) :
    t.roundings ≤ ps.length ∧ t.reach R ≤ dotSize R ps + ps.length * f.eta := by
  have he := f.eta_pos
  induction h with
  | empty hz => simp [Fp.roundings, Fp.reach, dotSize, hz]
  | one => simp [Fp.roundings, Fp.reach, dotSize]
  | @fused ps t a b _ ih =>
    refine ⟨by simp only [Fp.roundings, List.length_cons]; omega, ?_⟩
    simp only [Fp.reach, dotSize, List.map_cons, List.sum_cons, List.length_cons] at ih ⊢
    push_cast
    linarith [ih.2]
  | @sum ps qs s t h1 h2 _ _ ih1 ih2 =>
    have := List.length_pos_iff.2 h1
    have := List.length_pos_iff.2 h2
    refine ⟨by simp only [Fp.roundings, List.length_append]; omega, ?_⟩
    simp only [Fp.reach, dotSize_append, List.length_append]
    push_cast
    linarith [ih1.2, ih2.2]
  | order hp _ ih => rw [← hp.length_eq, ← dotSize_perm R hp]; exact ih

/-- What is known of the operations of a sum of products. -/
def SumPart (R : Ieee f F) (ps : List (F × F)) (s : Fp F) : Prop :=
  s.roundings ≤ ps.length ∧ s.reach R ≤ dotSize R ps + ps.length * f.eta ∧
    s.magnitude R ≤ dotSize R ps

theorem SumPart.left {R : Ieee f F} {ps : List (F × F)} (qs : List (F × F)) {s : Fp F}
    (h : SumPart R ps s) : SumPart R (ps ++ qs) s := by
  have he := f.eta_pos
  have hd := dotSize_nonneg R qs
  obtain ⟨h1, h2, h3⟩ := h
  have : (0 : ℚ) ≤ qs.length * f.eta := by positivity
  refine ⟨by simp only [List.length_append]; omega, ?_, by rw [dotSize_append]; linarith⟩
  rw [dotSize_append, List.length_append]
  push_cast
  linarith

theorem SumPart.perm {R : Ieee f F} {ps qs : List (F × F)} (hp : ps.Perm qs) {s : Fp F}
    (h : SumPart R ps s) : SumPart R qs s := by
  unfold SumPart
  rw [← hp.length_eq, ← dotSize_perm R hp]
  exact h

theorem SumPart.right {R : Ieee f F} {qs : List (F × F)} (ps : List (F × F)) {s : Fp F}
    (h : SumPart R qs s) : SumPart R (ps ++ qs) s := (h.left ps).perm List.perm_append_comm

theorem SumOf.part {R : Ieee f F} {ps : List (F × F)} {t : Fp F} (h : SumOf R ps t) :
    SumPart R ps t := ⟨h.bounds.1, h.bounds.2, h.exact.2.le⟩

theorem SumOf.every {R : Ieee f F} {ps : List (F × F)} {t : Fp F} (h : SumOf R ps t) :
    t.Every (SumPart R ps) := by
  induction h with
  | empty hz => trivial
  | one => exact ⟨SumOf.one.part, trivial, trivial⟩
  | @fused ps t a b h ih => exact ⟨h.fused.part, trivial, trivial, ih.mono fun s hs => hs.right [(a, b)]⟩
  | @sum ps qs s t h1 h2 hs ht ih1 ih2 =>
    exact ⟨(hs.sum h1 h2 ht).part, ih1.mono fun s h => h.left qs, ih2.mono fun s h => h.right ps⟩
  | order hp _ ih => exact ih.mono fun s h => h.perm hp

theorem SumOf.literals {R : Ieee f F} {ps : List (F × F)} {t : Fp F} (h : SumOf R ps t) :
    t.Literals fun a => R.val a = some 0 ∨ ∃ p ∈ ps, a = p.1 ∨ a = p.2 := by
  have mono : ∀ {ps qs : List (F × F)} {t : Fp F}, (∀ p ∈ ps, p ∈ qs) →
      (t.Literals fun a => R.val a = some 0 ∨ ∃ p ∈ ps, a = p.1 ∨ a = p.2) →
      t.Literals fun a => R.val a = some 0 ∨ ∃ p ∈ qs, a = p.1 ∨ a = p.2 := fun hs h =>
    h.mono fun a ha => ha.imp_right fun ⟨p, hp, e⟩ => ⟨p, hs p hp, e⟩
  induction h with
  | empty hz => exact .inl hz
  | @one a b => exact ⟨.inr ⟨(a, b), by simp, .inl rfl⟩, .inr ⟨(a, b), by simp, .inr rfl⟩⟩
  | @fused ps t a b h ih =>
    exact ⟨.inr ⟨(a, b), by simp, .inl rfl⟩, .inr ⟨(a, b), by simp, .inr rfl⟩,
      mono (fun p hp => by simp [hp]) ih⟩
  | @sum ps qs s t h1 h2 hs ht ih1 ih2 =>
    exact ⟨mono (fun p hp => by simp [hp]) ih1, mono (fun p hp => by simp [hp]) ih2⟩
  | order hp _ ih => exact mono (fun p h => hp.mem_iff.1 h) ih

/-! ## Products -/

/-- The bound of the magnitude of a product with underflow. -/
def productReach (R : Ieee f F) (alpha beta c : F) (ps : List (F × F)) : ℚ :=
  |(R.val alpha).getD 0| * dotSize R ps + |(R.val beta).getD 0| * |(R.val c).getD 0| +
    (1 + ps.length * (1 + |(R.val alpha).getD 0|) + factorSize R ps) * f.eta

theorem productReach_perm (R : Ieee f F) (alpha beta c : F) {ps qs : List (F × F)} (h : ps.Perm qs) :
    productReach R alpha beta c ps = productReach R alpha beta c qs := by
  unfold productReach
  rw [dotSize_perm R h, factorSize_perm R h, h.length_eq]

theorem productReach_append (R : Ieee f F) (alpha beta c : F) (ps qs : List (F × F)) :
    productReach R alpha beta c (ps ++ qs) = productReach R alpha beta c ps +
      |(R.val alpha).getD 0| * dotSize R qs +
      (qs.length * (1 + |(R.val alpha).getD 0|) + factorSize R qs) * f.eta := by
  unfold productReach
  rw [dotSize_append, factorSize_append, List.length_append]
  push_cast
  ring

theorem ProductOf.exact {R : Ieee f F} {alpha beta c : F} {ps : List (F × F)} {t : Fp F}
    (h : ProductOf R alpha beta c ps t) :
    t.exact R = (R.val alpha).getD 0 * dotSum R ps + (R.val beta).getD 0 * (R.val c).getD 0 ∧
    t.magnitude R = |(R.val alpha).getD 0| * dotSize R ps +
      |(R.val beta).getD 0| * |(R.val c).getD 0| := by
  induction h with
  | scaled => simp [Fp.exact, Fp.magnitude, dotSum, dotSize]
  | scaled' => simp [Fp.exact, Fp.magnitude, dotSum, dotSize, mul_comm]
  | cleared h hz => simp [Fp.exact, Fp.magnitude, dotSum, dotSize, h, hz]
  | kept h => simp [Fp.exact, Fp.magnitude, dotSum, dotSize, h]
  | block _ _ ht ih =>
    simp only [Fp.exact, Fp.magnitude, ih, ht.exact, dotSum_append, dotSize_append]
    constructor <;> ring
  | blockFused _ _ ht ih =>
    simp only [Fp.exact, Fp.magnitude, ih, ht.exact, dotSum_append, dotSize_append]
    constructor <;> ring
  | blockPlain _ h1 _ ht ih =>
    simp only [Fp.exact, Fp.magnitude, ih, ht.exact, dotSum_append, dotSize_append, h1,
      Option.getD_some, abs_one]
    constructor <;> ring
  | term _ ih =>
    simp only [Fp.exact, Fp.magnitude, ih, dotSum_append, dotSize_append]
    simp only [dotSum, dotSize, List.map_cons, List.map_nil, List.sum_cons, List.sum_nil]
    constructor <;> ring
  | termFused _ ih =>
    simp only [Fp.exact, Fp.magnitude, ih, dotSum_append, dotSize_append]
    simp only [dotSum, dotSize, List.map_cons, List.map_nil, List.sum_cons, List.sum_nil]
    constructor <;> ring
  | order hp _ ih => rw [ih.1, ih.2, dotSum_perm R hp, dotSize_perm R hp]; exact ⟨rfl, rfl⟩

theorem ProductOf.bounds {R : Ieee f F} {alpha beta c : F} {ps : List (F × F)} {t : Fp F}
    (h : ProductOf R alpha beta c ps t) :
    t.roundings ≤ ps.length + 2 ∧ t.reach R ≤ productReach R alpha beta c ps := by
  have he := f.eta_pos
  have blk : ∀ {ps qs : List (F × F)} {s t : Fp F}, qs ≠ [] → SumOf R qs t →
      (s.roundings ≤ ps.length + 2 ∧ s.reach R ≤ productReach R alpha beta c ps) →
      max (t.roundings + 1) s.roundings + 1 ≤ (ps ++ qs).length + 2 ∧
      s.reach R + |(R.val alpha).getD 0| * t.reach R + f.eta ≤
        productReach R alpha beta c (ps ++ qs) := by
    intro ps qs s t hq ht ih
    have hlen := List.length_pos_iff.2 hq
    obtain ⟨b1, b2⟩ := ht.bounds
    refine ⟨by rw [List.length_append]; omega, ?_⟩
    rw [productReach_append]
    have h1 := mul_le_mul_of_nonneg_left b2 (abs_nonneg ((R.val alpha).getD 0))
    have h2 : f.eta ≤ qs.length * f.eta := le_mul_of_one_le_left he.le (by exact_mod_cast hlen)
    have h3 := mul_nonneg (factorSize_nonneg R qs) he.le
    have h4 := ih.2
    ring_nf at h1 h2 h3 ⊢
    linarith
  have trm : ∀ {ps : List (F × F)} {s : Fp F} (a b : F),
      (s.roundings ≤ ps.length + 2 ∧ s.reach R ≤ productReach R alpha beta c ps) →
      max 2 s.roundings + 1 ≤ (ps ++ [(a, b)]).length + 2 ∧
      s.reach R + ((|(R.val alpha).getD 0| * |(R.val a).getD 0| + f.eta) * |(R.val b).getD 0| + f.eta) ≤
        productReach R alpha beta c (ps ++ [(a, b)]) := by
    intro ps s a b ih
    refine ⟨by rw [List.length_append, List.length_singleton]; omega, ?_⟩
    rw [productReach_append]
    have h1 := mul_nonneg (abs_nonneg ((R.val alpha).getD 0)) he.le
    have h4 := ih.2
    simp only [dotSize, factorSize, List.map_cons, List.map_nil, List.sum_cons, List.sum_nil,
      List.length_singleton, Nat.cast_one] at h4 ⊢
    ring_nf at h1 ⊢
    linarith
  induction h with
  | scaled => simp [Fp.roundings, Fp.reach, productReach, dotSize, factorSize]
  | scaled' => simp [Fp.roundings, Fp.reach, productReach, dotSize, factorSize, mul_comm]
  | cleared h hz => simp [Fp.roundings, Fp.reach, productReach, dotSize, factorSize, h, hz, he.le]
  | kept h => simp [Fp.roundings, Fp.reach, productReach, dotSize, factorSize, h, he.le]
  | @block ps qs s t hq _ ht ih =>
    obtain ⟨b1, b2⟩ := blk hq ht ih
    refine ⟨le_trans ?_ b1, le_trans (le_of_eq ?_) b2⟩
    · simp only [Fp.roundings]; omega
    · simp only [Fp.reach]; ring
  | @blockFused ps qs s t hq _ ht ih =>
    obtain ⟨b1, b2⟩ := blk hq ht ih
    refine ⟨le_trans ?_ b1, le_trans (le_of_eq ?_) b2⟩
    · simp only [Fp.roundings]; omega
    · simp only [Fp.reach]; ring
  | @blockPlain ps qs s t hq h1 _ ht ih =>
    obtain ⟨b1, b2⟩ := blk hq ht ih
    simp only [h1, Option.getD_some, abs_one, one_mul] at b2
    refine ⟨le_trans ?_ b1, le_trans ?_ b2⟩
    · simp only [Fp.roundings]; omega
    · simp only [Fp.reach]; linarith
  | @term ps s a b _ ih =>
    obtain ⟨b1, b2⟩ := trm a b ih
    refine ⟨le_trans ?_ b1, le_trans (le_of_eq ?_) b2⟩
    · simp only [Fp.roundings]; omega
    · simp only [Fp.reach]
  | @termFused ps s a b _ ih =>
    obtain ⟨b1, b2⟩ := trm a b ih
    refine ⟨le_trans ?_ b1, le_trans (le_of_eq ?_) b2⟩
    · simp only [Fp.roundings]; omega
    · simp only [Fp.reach]; ring
  | order hp _ ih => rw [← hp.length_eq, ← productReach_perm R _ _ _ hp]; exact ih

/-- What is known of the operations of a product. -/
def ProductPart (R : Ieee f F) (alpha beta c : F) (ps : List (F × F)) (s : Fp F) : Prop :=
  s.roundings ≤ ps.length + 2 ∧
    (s.reach R ≤ dotSize R ps + ps.length * f.eta ∧ s.magnitude R ≤ dotSize R ps ∨
      s.reach R ≤ productReach R alpha beta c ps ∧
        s.magnitude R ≤ |(R.val alpha).getD 0| * dotSize R ps +
          |(R.val beta).getD 0| * |(R.val c).getD 0| ∨
      ∃ p ∈ ps, s.reach R ≤ |(R.val alpha).getD 0| * |(R.val p.1).getD 0| + f.eta ∧
        s.magnitude R ≤ |(R.val alpha).getD 0| * |(R.val p.1).getD 0|)

theorem ProductPart.perm {R : Ieee f F} {alpha beta c : F} {ps qs : List (F × F)} (hp : ps.Perm qs)
    {s : Fp F} (h : ProductPart R alpha beta c ps s) : ProductPart R alpha beta c qs s := by
  unfold ProductPart at h ⊢
  rw [← hp.length_eq, ← dotSize_perm R hp, ← productReach_perm R _ _ _ hp]
  exact ⟨h.1, h.2.imp_right (Or.imp_right fun ⟨p, hm, hh⟩ => ⟨p, hp.mem_iff.1 hm, hh⟩)⟩

theorem ProductPart.left {R : Ieee f F} {alpha beta c : F} {ps : List (F × F)} (qs : List (F × F))
    {s : Fp F} (h : ProductPart R alpha beta c ps s) : ProductPart R alpha beta c (ps ++ qs) s := by
  have he := f.eta_pos
  have hd := dotSize_nonneg R qs
  have hf := factorSize_nonneg R qs
  have ha := abs_nonneg ((R.val alpha).getD 0)
  obtain ⟨h0, h1⟩ := h
  refine ⟨by rw [List.length_append]; omega, ?_⟩
  rw [productReach_append, dotSize_append, List.length_append]
  rcases h1 with ⟨h1, h2⟩ | ⟨h1, h2⟩ | ⟨p, hp, h1⟩
  · left
    have : (0 : ℚ) ≤ qs.length * f.eta := by positivity
    push_cast
    exact ⟨by linarith, by linarith⟩
  · right; left
    have h3 : 0 ≤ |(R.val alpha).getD 0| * dotSize R qs := by positivity
    have h4 : 0 ≤ (qs.length * (1 + |(R.val alpha).getD 0|) + factorSize R qs) * f.eta := by positivity
    exact ⟨by linarith, by linarith⟩
  · exact .inr (.inr ⟨p, by simp [hp], h1⟩)

theorem SumPart.product {R : Ieee f F} (alpha beta c : F) {qs : List (F × F)} (ps : List (F × F))
    {s : Fp F} (h : SumPart R qs s) : ProductPart R alpha beta c (ps ++ qs) s := by
  have := h.right ps
  exact ⟨by have := this.1; omega, .inl this.2⟩

theorem ProductOf.part {R : Ieee f F} {alpha beta c : F} {ps : List (F × F)} {t : Fp F}
    (h : ProductOf R alpha beta c ps t) : ProductPart R alpha beta c ps t :=
  ⟨h.bounds.1, .inr (.inl ⟨h.bounds.2, h.exact.2.le⟩)⟩

theorem ProductOf.every {R : Ieee f F} {alpha beta c : F} {ps : List (F × F)} {t : Fp F}
    (h : ProductOf R alpha beta c ps t) : t.Every (ProductPart R alpha beta c ps) := by
  have he := f.eta_pos
  have ha := abs_nonneg ((R.val alpha).getD 0)
  have hbc : 0 ≤ |(R.val beta).getD 0| * |(R.val c).getD 0| := by positivity
  have base : ∀ ps : List (F × F), 0 ≤ |(R.val alpha).getD 0| * dotSize R ps ∧
      |(R.val beta).getD 0| * |(R.val c).getD 0| + f.eta ≤ productReach R alpha beta c ps := by
    intro ps
    have h1 := dotSize_nonneg R ps
    have h2 := factorSize_nonneg R ps
    have h3 : 0 ≤ |(R.val alpha).getD 0| * dotSize R ps := by positivity
    have h4 : 0 ≤ (ps.length * (1 + |(R.val alpha).getD 0|) + factorSize R ps) * f.eta := by positivity
    refine ⟨h3, ?_⟩
    unfold productReach
    linarith
  induction h with
  | scaled => exact ⟨ProductOf.scaled.part, trivial, trivial⟩
  | scaled' => exact ⟨ProductOf.scaled'.part, trivial, trivial⟩
  | cleared h hz => trivial
  | kept h => trivial
  | @block ps qs s t hq hs ht ih =>
    refine ⟨(hs.block hq ht).part, ih.mono fun s h => h.left qs, ⟨?_, ?_⟩, trivial,
      ht.every.mono fun s h => h.product alpha beta c ps⟩
    · obtain ⟨b1, -⟩ := ht.bounds
      simp only [Fp.roundings, List.length_append]
      omega
    · right; left
      obtain ⟨-, b2⟩ := ht.bounds
      have hlen : (1 : ℚ) ≤ qs.length := by exact_mod_cast List.length_pos_iff.2 hq
      obtain ⟨g1, g2⟩ := base ps
      have h1 := mul_le_mul_of_nonneg_left b2 ha
      have h2 : f.eta ≤ qs.length * f.eta := le_mul_of_one_le_left he.le hlen
      have h3 := mul_nonneg (factorSize_nonneg R qs) he.le
      rw [productReach_append, dotSize_append]
      simp only [Fp.reach, Fp.magnitude, ht.exact]
      constructor
      · ring_nf at h1 h2 h3 g2 ⊢
        linarith
      · linarith
  | @blockFused ps qs s t hq hs ht ih =>
    exact ⟨(hs.blockFused hq ht).part, trivial, ht.every.mono fun s h => h.product alpha beta c ps,
      ih.mono fun s h => h.left qs⟩
  | @blockPlain ps qs s t hq h1 hs ht ih =>
    exact ⟨(hs.blockPlain hq h1 ht).part, ih.mono fun s h => h.left qs,
      ht.every.mono fun s h => h.product alpha beta c ps⟩
  | @term ps s a b hs ih =>
    refine ⟨hs.term.part, ih.mono fun s h => h.left _, ⟨?_, ?_⟩, ⟨⟨?_, ?_⟩, trivial, trivial⟩, trivial⟩
    · simp only [Fp.roundings, List.length_append, List.length_singleton]; omega
    · right; left
      obtain ⟨g1, g2⟩ := base ps
      rw [productReach_append, dotSize_append]
      simp only [Fp.reach, Fp.magnitude, dotSize, factorSize, List.map_cons, List.map_nil,
        List.sum_cons, List.sum_nil, List.length_singleton, Nat.cast_one] at g1 g2 ⊢
      have h1 := mul_nonneg ha he.le
      constructor
      · ring_nf at h1 g2 ⊢
        linarith
      · ring_nf at g1 ⊢
        linarith
    · simp only [Fp.roundings, List.length_append, List.length_singleton]; omega
    · exact .inr (.inr ⟨(a, b), by simp, le_rfl, le_rfl⟩)
  | @termFused ps s a b hs ih =>
    refine ⟨hs.termFused.part, ⟨⟨?_, ?_⟩, trivial, trivial⟩, trivial, ih.mono fun s h => h.left _⟩
    · simp only [Fp.roundings, List.length_append, List.length_singleton]; omega
    · exact .inr (.inr ⟨(a, b), by simp, le_rfl, le_rfl⟩)
  | order hp _ ih => exact ih.mono fun s h => h.perm hp

theorem ProductOf.literals {R : Ieee f F} {alpha beta c : F} {ps : List (F × F)} {t : Fp F}
    (h : ProductOf R alpha beta c ps t) :
    t.Literals fun a => R.val a = some 0 ∨ a = alpha ∨ a = beta ∨ a = c ∨
      ∃ p ∈ ps, a = p.1 ∨ a = p.2 := by
  have mono : ∀ {ps qs : List (F × F)} {t : Fp F}, (∀ p ∈ ps, p ∈ qs) →
      (t.Literals fun a => R.val a = some 0 ∨ a = alpha ∨ a = beta ∨ a = c ∨
        ∃ p ∈ ps, a = p.1 ∨ a = p.2) →
      t.Literals fun a => R.val a = some 0 ∨ a = alpha ∨ a = beta ∨ a = c ∨
        ∃ p ∈ qs, a = p.1 ∨ a = p.2 := fun hs h =>
    h.mono fun a ha => ha.imp_right (Or.imp_right (Or.imp_right (Or.imp_right
      fun ⟨p, hp, e⟩ => ⟨p, hs p hp, e⟩)))
  have sum : ∀ {ps qs : List (F × F)} {t : Fp F}, SumOf R qs t →
      t.Literals fun a => R.val a = some 0 ∨ a = alpha ∨ a = beta ∨ a = c ∨
        ∃ p ∈ ps ++ qs, a = p.1 ∨ a = p.2 := fun h =>
    h.literals.mono fun a ha => ha.imp_right fun ⟨p, hp, e⟩ =>
      .inr (.inr (.inr ⟨p, by simp [hp], e⟩))
  induction h with
  | scaled => exact ⟨.inr (.inr (.inl rfl)), .inr (.inr (.inr (.inl rfl)))⟩
  | scaled' => exact ⟨.inr (.inr (.inr (.inl rfl))), .inr (.inr (.inl rfl))⟩
  | cleared h hz => exact .inl hz
  | kept h => exact .inr (.inr (.inr (.inl rfl)))
  | block hq hs ht ih => exact ⟨mono (fun p hp => by simp [hp]) ih, .inr (.inl rfl), sum ht⟩
  | blockFused hq hs ht ih => exact ⟨.inr (.inl rfl), sum ht, mono (fun p hp => by simp [hp]) ih⟩
  | blockPlain hq h1 hs ht ih => exact ⟨mono (fun p hp => by simp [hp]) ih, sum ht⟩
  | @term ps s a b hs ih =>
    exact ⟨mono (fun p hp => by simp [hp]) ih, ⟨.inr (.inl rfl),
      .inr (.inr (.inr (.inr ⟨(a, b), by simp, .inl rfl⟩)))⟩,
      .inr (.inr (.inr (.inr ⟨(a, b), by simp, .inr rfl⟩)))⟩
  | @termFused ps s a b hs ih =>
    exact ⟨⟨.inr (.inl rfl), .inr (.inr (.inr (.inr ⟨(a, b), by simp, .inl rfl⟩)))⟩,
      .inr (.inr (.inr (.inr ⟨(a, b), by simp, .inr rfl⟩))), mono (fun p hp => by simp [hp]) ih⟩
  | order hp _ ih => exact mono (fun p h => hp.mem_iff.1 h) ih

end Householder.Spec
