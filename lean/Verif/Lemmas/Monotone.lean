import Verif.Spec.Monotone
import Verif.Lemmas.Signs

/-!
# Rounded operations are monotone
-/

namespace Householder.Spec

open Datum

variable {f : Format}

theorem Format.RoundsTo.mono {x x' y y' : ℚ} (h : f.RoundsTo x y) (h' : f.RoundsTo x' y') (hx : x ≤ x') :
    y ≤ y' := by
  rcases hx.eq_or_lt with rfl | hx
  · exact (Format.RoundsTo.unique f h h').le
  by_contra hn
  rw [not_le] at hn
  have h1 := h.2.1 _ h'.1
  have h2 := h'.2.1 _ h.1
  rcases abs_cases (x - y) with ⟨e1, g1⟩ | ⟨e1, g1⟩ <;> rcases abs_cases (x - y') with ⟨e2, g2⟩ | ⟨e2, g2⟩ <;>
    rcases abs_cases (x' - y) with ⟨e3, g3⟩ | ⟨e3, g3⟩ <;>
    rcases abs_cases (x' - y') with ⟨e4, g4⟩ | ⟨e4, g4⟩ <;> linarith

theorem rounded_mono {s s' : Bool} {x x' : ℚ} {r r' : Datum} (h : Rounded f s x r) (h' : Rounded f s' x' r')
    (hx : x ≤ x') : r.Le r' := by
  unfold Rounded at h h'
  have hl := f.limit_pos
  by_cases h1 : |x| < f.limit
  · rw [if_pos h1] at h
    obtain ⟨y, rfl, hy⟩ := h
    by_cases h2 : |x'| < f.limit
    · rw [if_pos h2] at h'
      obtain ⟨y', rfl, hy'⟩ := h'
      exact hy.mono hy' hx
    · rw [if_neg h2] at h'
      rw [abs_lt] at h1
      have : ¬ x' < 0 := fun hn => h2 (abs_lt.2 ⟨by linarith, by linarith⟩)
      rw [h', decide_eq_false this]
      trivial
  · rw [if_neg h1] at h
    by_cases hn : x < 0
    · rw [h, decide_eq_true hn]
      have : r' ≠ nan := (rounded_sign (f := f) (s := s') (z := x') (by unfold Rounded; exact h')).1
      cases r' with
      | nan => exact absurd rfl this
      | inf t => cases t <;> trivial
      | fin t y => trivial
    · have hx0 : f.limit ≤ x := by
        rw [not_lt] at hn
        rwa [abs_of_nonneg hn, not_lt] at h1
      have h2 : ¬ |x'| < f.limit := by
        rw [abs_of_nonneg (by linarith)]
        linarith
      rw [if_neg h2, decide_eq_false (by linarith)] at h'
      rw [h, decide_eq_false hn, h']
      trivial

namespace Datum

theorem Le.refl {a : Datum} (h : a ≠ nan) : a.Le a := by
  cases a with
  | nan => exact absurd rfl h
  | inf s => cases s <;> trivial
  | fin s x => exact le_refl x

theorem Le.left {a b : Datum} (h : a.Le b) : a ≠ nan := by
  rintro rfl
  exact h

theorem Le.right {a b : Datum} (h : a.Le b) : b ≠ nan := by
  rintro rfl
  cases a with
  | nan => exact h
  | inf s => cases s <;> exact h
  | fin s x => exact h

theorem Le.bottom {b : Datum} (h : b ≠ nan) : (inf true).Le b := by
  cases b with
  | nan => exact absurd rfl h
  | inf s => cases s <;> trivial
  | fin s x => trivial

theorem Le.top {a : Datum} (h : a ≠ nan) : a.Le (inf false) := by
  cases a with
  | nan => exact absurd rfl h
  | inf s => cases s <;> trivial
  | fin s x => trivial

/-- Between two data that are not the extreme infinities there are only numbers. -/
theorem Le.finite {a b : Datum} (h : a.Le b) (ha : a ≠ inf true) (hb : b ≠ inf false) :
    ∃ s x t y, a = fin s x ∧ b = fin t y ∧ x ≤ y := by
  cases a with
  | nan => exact absurd rfl h.left
  | inf s =>
    cases s
    · cases b with
      | nan => exact absurd rfl h.right
      | inf t =>
        cases t
        · exact absurd rfl hb
        · exact h.elim
      | fin t y => exact h.elim
    · exact absurd rfl ha
  | fin s x =>
    cases b with
    | nan => exact absurd rfl h.right
    | inf t =>
      cases t
      · exact absurd rfl hb
      · exact h.elim
    | fin t y => exact ⟨s, x, t, y, rfl, rfl, h⟩

/-- It is enough to look at results that are numbers. -/
theorem upTo_of {r r' : Datum} (h : r ≠ nan → r' ≠ nan → r ≠ inf true → r' ≠ inf false → r.Le r') : r.UpTo r' := by
  by_cases h1 : r = nan
  · exact .inl h1
  by_cases h2 : r' = nan
  · exact .inr (.inl h2)
  by_cases h3 : r = inf true
  · rw [h3]; exact .inr (.inr (Le.bottom h2))
  by_cases h4 : r' = inf false
  · rw [h4]; exact .inr (.inr (Le.top h1))
  exact .inr (.inr (h h1 h2 h3 h4))

theorem sum_upTo {a a' b b' r r' : Datum} (h : Datum.Sum f a b r) (h' : Datum.Sum f a' b' r') (ha : a.UpTo a')
    (hb : b.UpTo b') : r.UpTo r' := by
  rcases ha with rfl | rfl | ha
  · exact .inl (sum_nan_left h)
  · exact .inr (.inl (sum_nan_left h'))
  rcases hb with rfl | rfl | hb
  · exact .inl (sum_nan_right h)
  · exact .inr (.inl (sum_nan_right h'))
  refine upTo_of fun n1 n2 n3 n4 => ?_
  obtain ⟨s, x, t, y, rfl, rfl, hx⟩ := ha.finite
    (fun e => (sum_inf_left h (.inr e)).elim n1 n3) (fun e => (sum_inf_left h' (.inr e)).elim n2 n4)
  obtain ⟨u, z, v, w, rfl, rfl, hz⟩ := hb.finite
    (fun e => (sum_inf_right h (.inr e)).elim n1 n3) (fun e => (sum_inf_right h' (.inr e)).elim n2 n4)
  exact rounded_mono h h' (by linarith)

theorem product_nan_left {b r : Datum} (h : Product f nan b r) : r = nan := by cases b <;> exact h

theorem product_nan_right {a r : Datum} (h : Product f a nan r) : r = nan := by cases a <;> exact h

/-- Products with a factor, by its sign. -/
theorem product_upTo {k a a' r r' : Datum} (hk : k.Proper f) (hpa : a.Proper f) (hpa' : a'.Proper f)
    (h : Product f k a r) (h' : Product f k a' r') (ha : a.UpTo a') :
    if k.negative then r'.UpTo r else r.UpTo r' := by
  have nl : ∀ {p q : Datum}, p = nan → (if k.negative then q.UpTo p else p.UpTo q) := by
    rintro p q rfl
    split_ifs
    · exact .inr (.inl rfl)
    · exact .inl rfl
  have nr : ∀ {p q : Datum}, q = nan → (if k.negative then q.UpTo p else p.UpTo q) := by
    rintro p q rfl
    split_ifs
    · exact .inl rfl
    · exact .inr (.inl rfl)
  rcases ha with rfl | rfl | ha
  · exact nl (product_nan_right h)
  · exact nr (product_nan_right h')
  cases k with
  | nan => exact nl (product_nan_left h)
  | inf s =>
    by_cases n1 : r = nan
    · exact nl n1
    by_cases n2 : r' = nan
    · exact nr n2
    have e : ∀ {b q : Datum}, Product f (inf s) b q → q ≠ nan → q = inf (s != b.negative) := by
      intro b q hq hn
      cases b with
      | nan => exact absurd hq hn
      | inf t => exact hq
      | fin t y =>
        simp only [Product] at hq
        by_cases hy : y = 0
        · rw [if_pos hy] at hq; exact absurd hq hn
        · rwa [if_neg hy] at hq
    have z : ∀ {b q : Datum}, Product f (inf s) b q → q ≠ nan → ∀ t y, b = fin t y → y ≠ 0 := by
      rintro b q hq hn t y rfl rfl
      simp only [Product, if_true] at hq
      exact hn hq
    rw [e h n1, e h' n2]
    have hord : a'.negative = true → a.negative = true := by
      intro hn
      cases a with
      | nan => exact absurd rfl ha.left
      | inf t =>
        cases t
        · cases a' with
          | nan => exact absurd rfl ha.right
          | inf t' => cases t' <;> [cases hn; exact ha.elim]
          | fin t' y => exact ha.elim
        · rfl
      | fin t x =>
        cases a' with
        | nan => exact absurd rfl ha.right
        | inf t' => cases t' <;> [cases hn; exact ha.elim]
        | fin t' y =>
          obtain rfl : t' = true := hn
          have hy := z h' n2 _ _ rfl
          have hx := z h n1 _ _ rfl
          have hxy : x ≤ y := ha
          have := Fit.nonpos hpa'.fit
          exact hpa.fit.1 (lt_of_le_of_ne (by linarith) hx)
    cases s <;> cases h1 : a.negative <;> cases h2 : a'.negative <;> first
      | (rw [h2, h1] at hord; exact absurd (hord rfl) (by decide))
      | exact .inr (.inr trivial)
  | fin s x =>
    have hs := hk.fit
    have key : ∀ {b q : Datum}, Product f (fin s x) b q → ∀ t, b = inf t → q = nan ∨ q = inf (s != t) := by
      rintro b q hq t rfl
      simp only [Product] at hq
      by_cases hx : x = 0
      · rw [if_pos hx] at hq; exact .inl hq
      · rw [if_neg hx] at hq; exact .inr hq
    cases s
    · show r.UpTo r'
      refine upTo_of fun n1 n2 n3 n4 => ?_
      obtain ⟨t, y, t', y', rfl, rfl, hy⟩ := ha.finite
        (fun e => (key h _ e).elim n1 n3) (fun e => (key h' _ e).elim n2 n4)
      exact rounded_mono h h' (mul_le_mul_of_nonneg_left hy hs.nonneg)
    · show r'.UpTo r
      refine upTo_of fun n1 n2 n3 n4 => ?_
      obtain ⟨t, y, t', y', rfl, rfl, hy⟩ := ha.finite
        (fun e => (key h _ e).elim n2 n4) (fun e => (key h' _ e).elim n1 n3)
      exact rounded_mono h' h (mul_le_mul_of_nonpos_left hy hs.nonpos)

/-! ### Numbers that are not negative -/

theorem Between.of {r r' : Datum} (h0 : r ≠ nan → (fin false 0).Le r)
    (h : r ≠ nan → r' ≠ nan → r' ≠ inf false → r.Le r') : r.Between r' := by
  by_cases h1 : r = nan
  · exact .inl h1
  by_cases h2 : r' = nan
  · exact .inr (.inl h2)
  by_cases h3 : r' = inf false
  · rw [h3]; exact .inr (.inr ⟨h0 h1, Le.top h1⟩)
  exact .inr (.inr ⟨h0 h1, h h1 h2 h3⟩)

theorem Le.nonneg {a : Datum} (h : (fin false 0).Le a) : a = inf false ∨ ∃ s x, a = fin s x ∧ 0 ≤ x := by
  cases a with
  | nan => exact h.elim
  | inf s => cases s <;> [exact .inl rfl; exact h.elim]
  | fin s x => exact .inr ⟨s, x, rfl, h⟩

theorem Le.numbers {a a' : Datum} (h0 : (fin false 0).Le a) (h : a.Le a') (hn : a' ≠ inf false) :
    ∃ s x t y, a = fin s x ∧ a' = fin t y ∧ 0 ≤ x ∧ x ≤ y := by
  obtain ⟨s, x, t, y, rfl, rfl, hx⟩ := h.finite (by rintro rfl; exact h0) hn
  exact ⟨s, x, t, y, rfl, rfl, h0, hx⟩

theorem rounded_nonneg {s : Bool} {z : ℚ} {r : Datum} (h : Rounded f s z r) (hz : 0 ≤ z) : (fin false 0).Le r :=
  rounded_mono (Rounded.of_value (f := f) f.value_zero (s := false) fun h => absurd rfl h) h hz

theorem sum_between {a a' b b' r r' : Datum} (h : Datum.Sum f a b r) (h' : Datum.Sum f a' b' r')
    (ha : a.Between a') (hb : b.Between b') : r.Between r' := by
  rcases ha with rfl | rfl | ⟨ha0, ha⟩
  · exact .inl (sum_nan_left h)
  · exact .inr (.inl (sum_nan_left h'))
  rcases hb with rfl | rfl | ⟨hb0, hb⟩
  · exact .inl (sum_nan_right h)
  · exact .inr (.inl (sum_nan_right h'))
  refine .of (fun n1 => ?_) fun n1 n2 n3 => ?_
  · rcases ha0.nonneg with rfl | ⟨s, x, rfl, hx⟩
    · rcases sum_inf_left h (.inr rfl) with e | e
      · exact absurd e n1
      · rw [e]; trivial
    · rcases hb0.nonneg with rfl | ⟨t, y, rfl, hy⟩
      · rcases sum_inf_right h (.inr rfl) with e | e
        · exact absurd e n1
        · rw [e]; trivial
      · exact rounded_nonneg h (add_nonneg hx hy)
  · obtain ⟨s, x, t, y, rfl, rfl, hx0, hx⟩ := ha0.numbers ha
      (fun e => (sum_inf_left h' (.inr e)).elim n2 n3)
    obtain ⟨u, z, v, w, rfl, rfl, hz0, hz⟩ := hb0.numbers hb
      (fun e => (sum_inf_right h' (.inr e)).elim n2 n3)
    exact rounded_mono h h' (by linarith)

/-- A product of data that are not negative, one of which is infinite. -/
theorem product_top {a b r : Datum} (hpa : a.Proper f) (hpb : b.Proper f) (h : Product f a b r)
    (ha : (fin false 0).Le a) (hb : (fin false 0).Le b) (hi : a = inf false ∨ b = inf false) :
    r = nan ∨ r = inf false := by
  have pos : ∀ {s : Bool} {x : ℚ}, (fin s x).Proper f → 0 ≤ x → x ≠ 0 → s = false := fun hp h0 hx =>
    hp.fit.2 (lt_of_le_of_ne h0 (Ne.symm hx))
  rcases ha.nonneg with rfl | ⟨s, x, rfl, hx⟩
  · rcases hb.nonneg with rfl | ⟨t, y, rfl, hy⟩
    · exact .inr h
    · simp only [Product] at h
      by_cases hy0 : y = 0
      · rw [if_pos hy0] at h; exact .inl h
      · rw [if_neg hy0, pos hpb hy hy0] at h; exact .inr h
  · rcases hb.nonneg with rfl | ⟨t, y, rfl, hy⟩
    · simp only [Product] at h
      by_cases hx0 : x = 0
      · rw [if_pos hx0] at h; exact .inl h
      · rw [if_neg hx0, pos hpa hx hx0] at h; exact .inr h
    · rcases hi with hi | hi <;> cases hi

theorem product_nonneg {a b r : Datum} (hpa : a.Proper f) (hpb : b.Proper f) (h : Product f a b r)
    (ha : (fin false 0).Le a) (hb : (fin false 0).Le b) (hn : r ≠ nan) : (fin false 0).Le r := by
  by_cases hi : a = inf false ∨ b = inf false
  · rcases product_top hpa hpb h ha hb hi with e | e
    · exact absurd e hn
    · rw [e]; trivial
  · rw [not_or] at hi
    obtain ⟨s, x, rfl, hx⟩ := ha.nonneg.resolve_left hi.1
    obtain ⟨t, y, rfl, hy⟩ := hb.nonneg.resolve_left hi.2
    exact rounded_nonneg h (mul_nonneg hx hy)

theorem Le.trans_nonneg {a b : Datum} (h0 : (fin false 0).Le a) (h : a.Le b) : (fin false 0).Le b := by
  by_cases hb : b = inf false
  · rw [hb]; trivial
  · obtain ⟨s, x, t, y, rfl, rfl, h1, h2⟩ := h0.numbers h hb
    exact h1.trans h2

theorem product_between {a a' b b' r r' : Datum} (pa : a.Proper f) (pa' : a'.Proper f) (pb : b.Proper f)
    (pb' : b'.Proper f) (h : Product f a b r) (h' : Product f a' b' r')
    (ha : a.Between a') (hb : b.Between b') : r.Between r' := by
  rcases ha with rfl | rfl | ⟨ha0, ha⟩
  · exact .inl (product_nan_left h)
  · exact .inr (.inl (product_nan_left h'))
  rcases hb with rfl | rfl | ⟨hb0, hb⟩
  · exact .inl (product_nan_right h)
  · exact .inr (.inl (product_nan_right h'))
  refine .of (product_nonneg pa pb h ha0 hb0) fun n1 n2 n3 => ?_
  have top := product_top pa' pb' h' (ha0.trans_nonneg ha) (hb0.trans_nonneg hb)
  obtain ⟨s, x, t, y, rfl, rfl, hx0, hx⟩ := ha0.numbers ha (fun e => (top (.inl e)).elim n2 n3)
  obtain ⟨u, z, v, w, rfl, rfl, hz0, hz⟩ := hb0.numbers hb (fun e => (top (.inr e)).elim n2 n3)
  exact rounded_mono h h' (mul_le_mul hx hz hz0 (hx0.trans hx))

theorem fused_any_nan {a b c r : Datum} (h : Fused f a b c r) (hn : a = nan ∨ b = nan ∨ c = nan) : r = nan := by
  rcases fused_cases h with ⟨s, x, t, y, u, z, rfl, rfl, rfl, -⟩ | ⟨⟨_, _, rfl⟩, ⟨_, _, rfl⟩, -, rfl⟩ | ⟨-, p, hp, hs⟩
  · rcases hn with h | h | h <;> cases h
  · rcases hn with h | h | h
    · cases h
    · cases h
    · exact h
  · rcases hn with rfl | rfl | rfl
    · rw [product_nan_left hp] at hs; exact sum_nan_left hs
    · rw [product_nan_right hp] at hs; exact sum_nan_left hs
    · exact sum_nan_right hs

/-- A fused multiply-add of data that are not negative. -/
theorem fused_nonneg {a b c r : Datum} (pa : a.Proper f) (pb : b.Proper f) (h : Fused f a b c r)
    (ha : (fin false 0).Le a) (hb : (fin false 0).Le b) (hc : (fin false 0).Le c) (hn : r ≠ nan) :
    (fin false 0).Le r ∧ ((a = inf false ∨ b = inf false ∨ c = inf false) → r = inf false) := by
  rcases fused_cases h with ⟨s, x, t, y, u, z, rfl, rfl, rfl, hr⟩ | ⟨⟨_, _, rfl⟩, ⟨_, _, rfl⟩, hcf, rfl⟩ | ⟨hf, p, hp, hs⟩
  · refine ⟨rounded_nonneg hr (add_nonneg (mul_nonneg ha hb) hc), ?_⟩
    rintro (h | h | h) <;> cases h
  · refine ⟨hc, fun _ => ?_⟩
    rcases hc.nonneg with e | ⟨s, x, rfl, -⟩
    · exact e
    · exact absurd ⟨_, _, rfl⟩ hcf
  · have hi : a = inf false ∨ b = inf false := by
      rcases ha.nonneg with e | ⟨s, x, rfl, -⟩
      · exact .inl e
      · rcases hb.nonneg with e | ⟨t, y, rfl, -⟩
        · exact .inr e
        · exact absurd ⟨⟨_, _, rfl⟩, _, _, rfl⟩ hf
    have hr : r = inf false := (sum_inf_left hs (product_top pa pb hp ha hb hi)).resolve_left hn
    rw [hr]
    exact ⟨trivial, fun _ => rfl⟩

theorem fused_between {a a' b b' c c' r r' : Datum} (pa : a.Proper f) (pa' : a'.Proper f) (pb : b.Proper f)
    (pb' : b'.Proper f) (h : Fused f a b c r) (h' : Fused f a' b' c' r')
    (ha : a.Between a') (hb : b.Between b') (hc : c.Between c') : r.Between r' := by
  rcases ha with rfl | rfl | ⟨ha0, ha⟩
  · exact .inl (fused_any_nan h (.inl rfl))
  · exact .inr (.inl (fused_any_nan h' (.inl rfl)))
  rcases hb with rfl | rfl | ⟨hb0, hb⟩
  · exact .inl (fused_any_nan h (.inr (.inl rfl)))
  · exact .inr (.inl (fused_any_nan h' (.inr (.inl rfl))))
  rcases hc with rfl | rfl | ⟨hc0, hc⟩
  · exact .inl (fused_any_nan h (.inr (.inr rfl)))
  · exact .inr (.inl (fused_any_nan h' (.inr (.inr rfl))))
  refine .of (fun n => (fused_nonneg pa pb h ha0 hb0 hc0 n).1) fun n1 n2 n3 => ?_
  have top := (fused_nonneg pa' pb' h' (ha0.trans_nonneg ha) (hb0.trans_nonneg hb) (hc0.trans_nonneg hc) n2).2
  obtain ⟨s, x, t, y, rfl, rfl, hx0, hx⟩ := ha0.numbers ha (fun e => n3 (top (.inl e)))
  obtain ⟨u, z, v, w, rfl, rfl, hz0, hz⟩ := hb0.numbers hb (fun e => n3 (top (.inr (.inl e))))
  obtain ⟨u', z', v', w', rfl, rfl, -, hz'⟩ := hc0.numbers hc (fun e => n3 (top (.inr (.inr e))))
  exact rounded_mono h h' (add_le_add (mul_le_mul hx hz hz0 (hx0.trans hx)) hz')

end Datum

/-- The same sums and products of numbers that are not negative. -/
theorem Fp.between {F A : Type} [Add F] [Sub F] [Mul F] {S : Ieee754 f F} {R : Ieee f F} (hR : S.Refines R)
    {v v' : A → F} (h : ∀ a, (S.datum (v a)).Between (S.datum (v' a))) (T : Fp A) (hT : T.Additive) :
    (S.datum ((T.fill v).run R)).Between (S.datum ((T.fill v').run R)) := by
  induction T with
  | lit a => exact h a
  | add s t hs ht => exact sum_between (S.add_datum _ _) (S.add_datum _ _) (hs hT.1) (ht hT.2)
  | sub s t => exact hT.elim
  | mul s t hs ht =>
    exact product_between (S.proper _) (S.proper _) (S.proper _) (S.proper _) (S.mul_datum _ _)
      (S.mul_datum _ _) (hs hT.1) (ht hT.2)
  | fma s t r hs ht hr =>
    exact fused_between (S.proper _) (S.proper _) (S.proper _) (S.proper _) (fma_datum hR _ _ _)
      (fma_datum hR _ _ _) (hs hT.1) (ht hT.2.1) (hr hT.2.2)

end Householder.Spec
