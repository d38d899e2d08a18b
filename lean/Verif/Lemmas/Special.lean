import Verif.Spec.Special
import Verif.Lemmas.Fp

/-!
# Lemmas about infinities, NaN and the signs of zeros
-/

namespace Householder.Spec

variable {F : Type} [Add F] [Sub F] [Mul F] {f : Format}

namespace Datum

theorem isFinite_or (d : Datum) : d.IsFinite ∨ d.IsInf ∨ d = nan := by
  cases d with
  | nan => exact .inr (.inr rfl)
  | inf s => exact .inr (.inl ⟨s, rfl⟩)
  | fin s x => exact .inl ⟨s, x, rfl⟩

theorem not_finite_nan : ¬ (nan : Datum).IsFinite := by rintro ⟨s, x, h⟩; cases h

theorem not_finite_inf (s : Bool) : ¬ (inf s : Datum).IsFinite := by rintro ⟨s, x, h⟩; cases h

theorem not_finite {d : Datum} {s : Bool} (h : d = nan ∨ d = inf s) : ¬ d.IsFinite := by
  rcases h with rfl | rfl
  · exact not_finite_nan
  · exact not_finite_inf s

theorem inf_of_not_finite {d : Datum} (h : ¬ d.IsFinite) : d = nan ∨ d = inf d.negative := by
  rcases isFinite_or d with h' | ⟨s, rfl⟩ | rfl
  · exact absurd h' h
  · exact .inr rfl
  · exact .inl rfl

/-- Both infinities at once is neither. -/
theorem both {d : Datum} {s : Bool} (h1 : d = nan ∨ d = inf s) (h2 : d = nan ∨ d = inf !s) : d = nan := by
  rcases h1 with h1 | h1
  · exact h1
  · rcases h2 with h2 | h2
    · exact h2
    · rw [h1] at h2
      cases s <;> simp at h2

theorem Invalid.symm {a b : Datum} (h : Invalid a b) : Invalid b a := by
  rcases h with h | h | ⟨h, h'⟩ | ⟨h, h'⟩
  · exact .inr (.inl h)
  · exact .inl h
  · exact .inr (.inr (.inr ⟨h', h⟩))
  · exact .inr (.inr (.inl ⟨h', h⟩))

theorem Infinite.symm {s : Bool} {a b : Datum} (h : Infinite s a b) : Infinite s b a :=
  ⟨fun h' => h.1 h'.symm, h.2.1.symm, by rw [h.2.2]; cases a.negative <;> cases b.negative <;> rfl⟩

/-- An operand that is not finite makes the product invalid or infinite. -/
theorem special_cases {a b : Datum} (h : ¬ (a.IsFinite ∧ b.IsFinite)) :
    Invalid a b ∨ Infinite (a.negative != b.negative) a b := by
  by_cases hi : Invalid a b
  · exact .inl hi
  · refine .inr ⟨hi, ?_, rfl⟩
    rcases isFinite_or a with ha | ha | ha
    · rcases isFinite_or b with hb | hb | hb
      · exact absurd ⟨ha, hb⟩ h
      · exact .inr hb
      · exact absurd (.inr (.inl hb)) hi
    · exact .inl ha
    · exact absurd (.inl ha) hi

/-! ## Sums -/

theorem sum_nan_left {b r : Datum} (h : Sum f nan b r) : r = nan := by cases b <;> exact h

theorem sum_nan_right {a r : Datum} (h : Sum f a nan r) : r = nan := by cases a <;> exact h

theorem sum_inf_left {s : Bool} {a b r : Datum} (h : Sum f a b r) (ha : a = nan ∨ a = inf s) :
    r = nan ∨ r = inf s := by
  rcases ha with rfl | rfl
  · exact .inl (sum_nan_left h)
  · cases b with
    | nan => exact .inl h
    | fin t x => exact .inr h
    | inf t =>
      simp only [Sum] at h
      split_ifs at h
      · exact .inr h
      · exact .inl h

theorem sum_inf_right {s : Bool} {a b r : Datum} (h : Sum f a b r) (hb : b = nan ∨ b = inf s) :
    r = nan ∨ r = inf s := by
  rcases hb with rfl | rfl
  · exact .inl (sum_nan_right h)
  · cases a with
    | nan => exact .inl h
    | fin t x => exact .inr h
    | inf t =>
      simp only [Sum] at h
      split_ifs at h with e
      · exact .inr (e ▸ h)
      · exact .inl h

theorem sum_not_finite {a b r : Datum} (h : Sum f a b r) (hn : ¬ a.IsFinite ∨ ¬ b.IsFinite) :
    ¬ r.IsFinite := by
  rcases hn with hn | hn
  · exact not_finite (sum_inf_left h (inf_of_not_finite hn))
  · exact not_finite (sum_inf_right h (inf_of_not_finite hn))

/-! ## Products -/

theorem product_invalid {a b r : Datum} (h : Product f a b r) (hi : Invalid a b) : r = nan := by
  rcases hi with rfl | rfl | ⟨⟨s, rfl⟩, t, rfl⟩ | ⟨⟨s, rfl⟩, t, rfl⟩
  · cases b <;> exact h
  · cases a <;> exact h
  · simpa [Product] using h
  · simpa [Product] using h

theorem product_special {a b r : Datum} (h : Product f a b r) (hn : ¬ a.IsFinite ∨ ¬ b.IsFinite) :
    r = nan ∨ r = inf (a.negative != b.negative) := by
  cases a with
  | nan => exact .inl (product_invalid h (.inl rfl))
  | inf s =>
    cases b with
    | nan => exact .inl (product_invalid h (.inr (.inl rfl)))
    | inf t => exact .inr h
    | fin t y =>
      simp only [Product] at h
      split_ifs at h
      · exact .inl h
      · exact .inr h
  | fin s x =>
    cases b with
    | nan => exact .inl (product_invalid h (.inr (.inl rfl)))
    | inf t =>
      simp only [Product] at h
      split_ifs at h
      · exact .inl h
      · exact .inr h
    | fin t y => rcases hn with hn | hn <;> exact absurd ⟨_, _, rfl⟩ hn

theorem product_infinite {s : Bool} {a b r : Datum} (h : Product f a b r) (hi : Infinite s a b) :
    r = inf s := by
  obtain ⟨h1, h2, rfl⟩ := hi
  have hn : ¬ a.IsFinite ∨ ¬ b.IsFinite := by
    rcases h2 with ⟨s, rfl⟩ | ⟨s, rfl⟩
    · exact .inl (not_finite_inf s)
    · exact .inr (not_finite_inf s)
  rcases product_special h hn with e | e
  · exfalso
    apply h1
    cases a with
    | nan => exact .inl rfl
    | inf s =>
      cases b with
      | nan => exact .inr (.inl rfl)
      | inf t => rw [e] at h; cases h
      | fin t y =>
        rw [e] at h
        simp only [Product] at h
        split_ifs at h with hy
        subst hy
        exact .inr (.inr (.inl ⟨⟨s, rfl⟩, t, rfl⟩))
    | fin s x =>
      cases b with
      | nan => exact .inr (.inl rfl)
      | inf t =>
        rw [e] at h
        simp only [Product] at h
        split_ifs at h with hx
        subst hx
        exact .inr (.inr (.inr ⟨⟨s, rfl⟩, t, rfl⟩))
      | fin t y =>
        rcases h2 with ⟨s, h2⟩ | ⟨s, h2⟩ <;> cases h2
  · exact e

theorem sign_mul {f : Format} {s t : Bool} {x y : ℚ} (hx : (fin s x).Proper f) (hy : (fin t y).Proper f)
    (h : x * y ≠ 0) : decide (x * y < 0) = (s != t) := by
  obtain ⟨-, x1, x2⟩ := hx
  obtain ⟨-, y1, y2⟩ := hy
  rcases lt_trichotomy x 0 with hx | rfl | hx
  · rcases lt_trichotomy y 0 with hy | rfl | hy
    · rw [x1 hx, y1 hy]
      simpa using (mul_pos_of_neg_of_neg hx hy).le
    · simp at h
    · rw [x1 hx, y2 hy]
      simpa using mul_neg_of_neg_of_pos hx hy
  · simp at h
  · rcases lt_trichotomy y 0 with hy | rfl | hy
    · rw [x2 hx, y1 hy]
      simpa using mul_neg_of_pos_of_neg hx hy
    · simp at h
    · rw [x2 hx, y2 hy]
      simpa using (mul_pos hx hy).le

/-- The sign of a product is the product of the signs. -/
theorem product_sign {a b r : Datum} (ha : a.Proper f) (hb : b.Proper f) (h : Product f a b r) :
    r = nan ∨ r.negative = (a.negative != b.negative) := by
  by_cases hn : ¬ a.IsFinite ∨ ¬ b.IsFinite
  · rcases product_special h hn with e | e
    · exact .inl e
    · exact .inr (by rw [e]; rfl)
  · obtain ⟨⟨s, x, rfl⟩, t, y, rfl⟩ : a.IsFinite ∧ b.IsFinite := by
      constructor <;> by_contra hh <;> exact hn (by tauto)
    right
    simp only [Product, Rounded] at h
    split_ifs at h with h1 h2
    · obtain ⟨z, rfl, -⟩ := h
      rfl
    · obtain ⟨z, rfl, -⟩ := h
      exact sign_mul ha hb h2
    · subst h
      refine sign_mul ha hb fun h2 => h1 ?_
      rw [h2, abs_zero]
      exact f.limit_pos

theorem product_zero {a b r : Datum} (ha : a.IsZero) (hb : b.IsFinite) (h : Product f a b r) :
    r.IsZero := by
  obtain ⟨s, rfl⟩ := ha
  obtain ⟨t, y, rfl⟩ := hb
  simp only [Product, Rounded, zero_mul, abs_zero, if_pos f.limit_pos] at h
  obtain ⟨z, rfl, hz⟩ := h
  obtain rfl := Format.RoundsTo.self f hz f.value_zero
  exact ⟨_, rfl⟩

/-! ## Fused multiply-adds -/

theorem fused_of_not_finite {a b c r : Datum} (h : Fused f a b c r) (hn : ¬ a.IsFinite ∨ ¬ b.IsFinite) :
    ∃ p, Product f a b p ∧ Sum f p c r := by
  cases a with
  | nan => exact h
  | inf s => exact h
  | fin s x =>
    cases b with
    | nan => exact h
    | inf t => exact h
    | fin t y => rcases hn with hn | hn <;> exact absurd ⟨_, _, rfl⟩ hn

theorem Invalid.not_finite {a b : Datum} (h : Invalid a b) : ¬ a.IsFinite ∨ ¬ b.IsFinite := by
  rcases h with rfl | rfl | ⟨⟨s, rfl⟩, -⟩ | ⟨-, s, rfl⟩
  · exact .inl not_finite_nan
  · exact .inr not_finite_nan
  · exact .inl (not_finite_inf s)
  · exact .inr (not_finite_inf s)

theorem Infinite.not_finite {s : Bool} {a b : Datum} (h : Infinite s a b) : ¬ a.IsFinite ∨ ¬ b.IsFinite := by
  rcases h.2.1 with ⟨s, rfl⟩ | ⟨s, rfl⟩
  · exact .inl (not_finite_inf s)
  · exact .inr (not_finite_inf s)

theorem fused_invalid {a b c r : Datum} (h : Fused f a b c r) (hi : Invalid a b) : r = nan := by
  obtain ⟨p, h1, h2⟩ := fused_of_not_finite h hi.not_finite
  rw [product_invalid h1 hi] at h2
  exact sum_nan_left h2

theorem fused_special {a b c r : Datum} (h : Fused f a b c r) (hn : ¬ a.IsFinite ∨ ¬ b.IsFinite) :
    r = nan ∨ r = inf (a.negative != b.negative) := by
  obtain ⟨p, h1, h2⟩ := fused_of_not_finite h hn
  exact sum_inf_left h2 (product_special h1 hn)

theorem fused_nan {a b r : Datum} (h : Fused f a b nan r) : r = nan := by
  by_cases hn : ¬ a.IsFinite ∨ ¬ b.IsFinite
  · obtain ⟨p, -, h2⟩ := fused_of_not_finite h hn
    exact sum_nan_right h2
  · obtain ⟨⟨s, x, rfl⟩, t, y, rfl⟩ : a.IsFinite ∧ b.IsFinite := by
      constructor <;> by_contra hh <;> exact hn (by tauto)
    exact h

theorem fused_inf {s : Bool} {a b c r : Datum} (h : Fused f a b c r) (hc : c = nan ∨ c = inf s) :
    r = nan ∨ r = inf s := by
  by_cases hn : ¬ a.IsFinite ∨ ¬ b.IsFinite
  · obtain ⟨p, -, h2⟩ := fused_of_not_finite h hn
    exact sum_inf_right h2 hc
  · obtain ⟨⟨s, x, rfl⟩, t, y, rfl⟩ : a.IsFinite ∧ b.IsFinite := by
      constructor <;> by_contra hh <;> exact hn (by tauto)
    rcases hc with rfl | rfl
    · exact .inl h
    · exact .inr h

end Datum

open Datum

/-! ## The same arithmetic as numbers -/

theorem rounded_result {s : Bool} {z : ℚ} {r : Datum} (h : Rounded f s z r) : f.Result r.val (some z) := by
  unfold Rounded at h
  simp only [Format.Result]
  by_cases hl : |z| < f.limit
  · rw [if_pos hl] at h ⊢
    obtain ⟨y, rfl, hy⟩ := h
    exact ⟨y, rfl, hy⟩
  · rw [if_neg hl] at h ⊢
    rw [h]; rfl

theorem val_none {d : Datum} (h : ¬ d.IsFinite) : d.val = none := by
  rcases inf_of_not_finite h with e | e <;> rw [e] <;> rfl

theorem sum_result {a b r : Datum} (h : Sum f a b r) :
    f.Result r.val (do return (← a.val) + (← b.val)) := by
  by_cases hn : ¬ a.IsFinite ∨ ¬ b.IsFinite
  · have := val_none (sum_not_finite h hn)
    rcases hn with hn | hn
    · rw [this, val_none hn]; rfl
    · rw [this, val_none hn]; cases a.val <;> rfl
  · obtain ⟨⟨s, x, rfl⟩, t, y, rfl⟩ : a.IsFinite ∧ b.IsFinite := by
      constructor <;> by_contra hh <;> exact hn (by tauto)
    exact rounded_result h

theorem product_result {a b r : Datum} (h : Product f a b r) :
    f.Result r.val (do return (← a.val) * (← b.val)) := by
  by_cases hn : ¬ a.IsFinite ∨ ¬ b.IsFinite
  · have := val_none (not_finite (product_special h hn))
    rcases hn with hn | hn
    · rw [this, val_none hn]; rfl
    · rw [this, val_none hn]; cases a.val <;> rfl
  · obtain ⟨⟨s, x, rfl⟩, t, y, rfl⟩ : a.IsFinite ∧ b.IsFinite := by
      constructor <;> by_contra hh <;> exact hn (by tauto)
    exact rounded_result h

theorem fused_result {a b c r : Datum} (h : Fused f a b c r) :
    f.Result r.val (do return (← a.val) * (← b.val) + (← c.val)) := by
  by_cases hn : ¬ a.IsFinite ∨ ¬ b.IsFinite
  · have := val_none (not_finite (fused_special h hn))
    rcases hn with hn | hn
    · rw [this, val_none hn]; rfl
    · rw [this, val_none hn]; cases a.val <;> rfl
  · obtain ⟨⟨s, x, rfl⟩, t, y, rfl⟩ : a.IsFinite ∧ b.IsFinite := by
      constructor <;> by_contra hh <;> exact hn (by tauto)
    by_cases hc : c.IsFinite
    · obtain ⟨u, z, rfl⟩ := hc
      exact rounded_result h
    · rw [val_none (not_finite (fused_inf h (inf_of_not_finite hc))), val_none hc]; rfl

theorem opposite_val (d : Datum) : d.opposite.val = d.val.map (- ·) := by cases d <;> rfl

/-- Scalars that follow the standard with infinities, NaN and signs of zeros follow it as numbers. -/
def Ieee754.toIeee (S : Ieee754 f F) : Ieee f F where
  val a := (S.datum a).val
  fma := S.fma
  format a x h := by
    have := S.proper a
    cases hd : S.datum a with
    | nan => rw [hd] at h; cases h
    | inf s => rw [hd] at h; cases h
    | fin s y =>
      rw [hd] at h this
      obtain rfl := Option.some.inj h
      exact this.1
  add_result a b := sum_result (S.add_datum a b)
  sub_result a b := by
    have := sum_result (S.sub_datum a b)
    rw [opposite_val] at this
    cases h1 : (S.datum a).val <;> cases h2 : (S.datum b).val <;> rw [h1, h2] at this <;> first
      | exact this
      | simpa [sub_eq_add_neg] using this
  mul_result a b := product_result (S.mul_datum a b)
  fma_result a b c := fused_result (S.fma_datum a b c)

theorem Ieee754.toIeee_refines (S : Ieee754 f F) : S.Refines S.toIeee := ⟨fun _ => rfl, rfl⟩

/-! ## Sums and products in any order -/

section

variable {S : Ieee754 f F} {R : Ieee f F}

/-- What special terms mean for a sum. -/
structure SumCarries (S : Ieee754 f F) (ps : List (F × F)) (d : Datum) : Prop where
  term_nan : ∀ p ∈ ps, Invalid (S.datum p.1) (S.datum p.2) → d = nan
  term_inf : ∀ p ∈ ps, ∀ s, Infinite s (S.datum p.1) (S.datum p.2) → d = nan ∨ d = inf s

theorem fma_datum (hR : S.Refines R) (a b c : F) :
    Fused f (S.datum a) (S.datum b) (S.datum c) (S.datum (R.fma a b c)) := by
  rw [hR.fma]; exact S.fma_datum a b c

theorem SumOf.carries (hR : S.Refines R) {ps : List (F × F)} {t : Fp F} (h : SumOf R ps t) :
    SumCarries S ps (S.datum (t.run R)) := by
  induction h with
  | empty _ => exact ⟨by simp, by simp⟩
  | @one a b =>
    refine ⟨fun p hp hi => ?_, fun p hp s hi => ?_⟩
    · obtain rfl := List.mem_singleton.1 hp
      exact product_invalid (S.mul_datum a b) hi
    · obtain rfl := List.mem_singleton.1 hp
      exact .inr (product_infinite (S.mul_datum a b) hi)
  | @fused ps t a b _ ih =>
    have hf := fma_datum hR a b (t.run R)
    refine ⟨fun p hp hi => ?_, fun p hp s hi => ?_⟩
    · rcases List.mem_cons.1 hp with rfl | hp
      · exact fused_invalid hf hi
      · rw [ih.term_nan p hp hi] at hf
        exact fused_nan hf
    · rcases List.mem_cons.1 hp with rfl | hp
      · have := fused_special hf hi.not_finite
        rwa [← hi.2.2] at this
      · exact fused_inf hf (ih.term_inf p hp s hi)
  | @sum ps qs s t _ _ _ _ ih1 ih2 =>
    have hf := S.add_datum (s.run R) (t.run R)
    refine ⟨fun p hp hi => ?_, fun p hp s hi => ?_⟩
    · rcases List.mem_append.1 hp with hp | hp
      · rw [ih1.term_nan p hp hi] at hf
        exact sum_nan_left hf
      · rw [ih2.term_nan p hp hi] at hf
        exact sum_nan_right hf
    · rcases List.mem_append.1 hp with hp | hp
      · exact sum_inf_left hf (ih1.term_inf p hp s hi)
      · exact sum_inf_right hf (ih2.term_inf p hp s hi)
  | order hp _ ih =>
    exact ⟨fun p h => ih.term_nan p (hp.mem_iff.2 h), fun p h => ih.term_inf p (hp.mem_iff.2 h)⟩

/-- What special operands mean for a product. -/
structure ProductCarries (alpha : Datum) (S : Ieee754 f F) (ps : List (F × F)) (beta c d : Datum) :
    Prop where
  term_nan : ∀ p ∈ ps, Invalid (S.datum p.1) (S.datum p.2) → d = nan
  term_inf : ∀ p ∈ ps, ∀ s, Infinite s (S.datum p.1) (S.datum p.2) → d = nan ∨ d = inf (s != alpha.negative)
  zero : alpha.IsZero → ∀ p ∈ ps, ∀ s, Infinite s (S.datum p.1) (S.datum p.2) → d = .nan
  alpha_nan : ps ≠ [] → alpha = .nan → d = .nan
  alpha_inf : ps ≠ [] → alpha.IsInf → ¬ d.IsFinite
  old_nan : ¬ beta.IsZero → Invalid beta c → d = .nan
  old_inf : ¬ beta.IsZero → ∀ s, Infinite s beta c → d = .nan ∨ d = .inf s

/-- A sum of blocks carries what its blocks carry. -/
theorem ProductCarries.append {alpha beta c : Datum} {ps qs : List (F × F)} {d r : Datum}
    (h1 : ProductCarries alpha S ps beta c d)
    (hd : d = .nan → r = .nan) (hds : ∀ s, d = .nan ∨ d = .inf s → r = .nan ∨ r = .inf s)
    (n : ∀ p ∈ qs, Invalid (S.datum p.1) (S.datum p.2) → r = .nan)
    (i : ∀ p ∈ qs, ∀ s, Infinite s (S.datum p.1) (S.datum p.2) → r = .nan ∨ r = .inf (s != alpha.negative))
    (z : alpha.IsZero → ∀ p ∈ qs, ∀ s, Infinite s (S.datum p.1) (S.datum p.2) → r = .nan)
    (an : qs ≠ [] → alpha = .nan → r = .nan) (ai : qs ≠ [] → alpha.IsInf → ¬ r.IsFinite) :
    ProductCarries alpha S (ps ++ qs) beta c r where
  term_nan p hp hi := (List.mem_append.1 hp).elim (fun hp => hd (h1.term_nan p hp hi)) fun hp => n p hp hi
  term_inf p hp s hi := (List.mem_append.1 hp).elim (fun hp => hds _ (h1.term_inf p hp s hi)) fun hp => i p hp s hi
  zero hz p hp s hi := (List.mem_append.1 hp).elim (fun hp => hd (h1.zero hz p hp s hi))
    fun hp => z hz p hp s hi
  alpha_nan hne ha := by
    by_cases hp : ps = []
    · exact an (by simpa [hp] using hne) ha
    · exact hd (h1.alpha_nan hp ha)
  alpha_inf hne ha := by
    by_cases hp : ps = []
    · exact ai (by simpa [hp] using hne) ha
    · exact not_finite (hds _ (inf_of_not_finite (h1.alpha_inf hp ha)))
  old_nan hb hi := hd (h1.old_nan hb hi)
  old_inf hb s hi := hds s (h1.old_inf hb s hi)

theorem not_zero_one {s : Bool} : ¬ (Datum.fin s 1).IsZero := by rintro ⟨t, h⟩; cases h

/-- A scalar that stands for 1. -/
theorem datum_one (S : Ieee754 f F) {a : F} (h : (S.datum a).val = some 1) : S.datum a = .fin false 1 := by
  have := S.proper a
  cases hd : S.datum a with
  | nan => rw [hd] at h; cases h
  | inf s => rw [hd] at h; cases h
  | fin s y =>
    rw [hd] at h this
    obtain rfl := Option.some.inj h
    rw [this.2.2 one_pos]

theorem datum_zero (S : Ieee754 f F) {a : F} (h : (S.datum a).val = some 0) : (S.datum a).IsZero := by
  cases hd : S.datum a with
  | nan => rw [hd] at h; cases h
  | inf s => rw [hd] at h; cases h
  | fin s y =>
    rw [hd] at h
    obtain rfl := Option.some.inj h
    exact ⟨s, rfl⟩

theorem bne_bne (s t : Bool) : (t != s) = (s != t) := by cases s <;> cases t <;> rfl

/-- What a block `alpha * Σ` carries. -/
theorem block_carries {alpha : F} {qs : List (F × F)} {t : F} (hs : SumCarries S qs (S.datum t)) {r : Datum}
    (inv : Invalid (S.datum alpha) (S.datum t) → r = .nan)
    (spe : ¬ (S.datum alpha).IsFinite ∨ ¬ (S.datum t).IsFinite →
      r = .nan ∨ r = .inf ((S.datum alpha).negative != (S.datum t).negative)) :
    (∀ p ∈ qs, Invalid (S.datum p.1) (S.datum p.2) → r = .nan) ∧
    (∀ p ∈ qs, ∀ s, Infinite s (S.datum p.1) (S.datum p.2) →
      r = .nan ∨ r = .inf (s != (S.datum alpha).negative)) ∧
    ((S.datum alpha).IsZero → ∀ p ∈ qs, ∀ s, Infinite s (S.datum p.1) (S.datum p.2) → r = .nan) ∧
    (qs ≠ [] → S.datum alpha = .nan → r = .nan) ∧
    (qs ≠ [] → (S.datum alpha).IsInf → ¬ r.IsFinite) := by
  refine ⟨fun p hp hi => inv (.inr (.inl (hs.term_nan p hp hi))), fun p hp s hi => ?_, fun hz p hp s hi => ?_,
    fun _ ha => inv (.inl ha), fun _ ⟨s, ha⟩ => ?_⟩
  · rcases hs.term_inf p hp s hi with e | e
    · exact .inl (inv (.inr (.inl e)))
    · have := spe (.inr (by rw [e]; exact not_finite_inf s))
      rw [e] at this
      rw [bne_bne]
      exact this
  · rcases hs.term_inf p hp s hi with e | e
    · exact inv (.inr (.inl e))
    · exact inv (.inr (.inr (.inr ⟨hz, s, e⟩)))
  · exact not_finite (spe (.inl (by rw [ha]; exact not_finite_inf s)))

/-- What a term `(alpha * a) * b` carries. -/
theorem term_carries {alpha a b : F} {r : Datum}
    (inv : Invalid (S.datum (alpha * a)) (S.datum b) → r = .nan)
    (spe : ¬ (S.datum (alpha * a)).IsFinite ∨ ¬ (S.datum b).IsFinite →
      r = .nan ∨ r = .inf ((S.datum (alpha * a)).negative != (S.datum b).negative)) :
    (∀ p ∈ [(a, b)], Invalid (S.datum p.1) (S.datum p.2) → r = .nan) ∧
    (∀ p ∈ [(a, b)], ∀ s, Infinite s (S.datum p.1) (S.datum p.2) →
      r = .nan ∨ r = .inf (s != (S.datum alpha).negative)) ∧
    ((S.datum alpha).IsZero → ∀ p ∈ [(a, b)], ∀ s, Infinite s (S.datum p.1) (S.datum p.2) → r = .nan) ∧
    ([(a, b)] ≠ [] → S.datum alpha = .nan → r = .nan) ∧
    ([(a, b)] ≠ [] → (S.datum alpha).IsInf → ¬ r.IsFinite) := by
  have hm := S.mul_datum alpha a
  have hnan : S.datum (alpha * a) = .nan → r = .nan := fun h => inv (.inl h)
  have hai : (S.datum a).IsInf → S.datum (alpha * a) = .nan ∨ (S.datum (alpha * a)).IsInf := by
    rintro ⟨s, e⟩
    rcases product_special hm (.inr (by rw [e]; exact not_finite_inf s)) with h | h
    · exact .inl h
    · exact .inr ⟨_, h⟩
  refine ⟨fun p hp hi => ?_, fun p hp s hi => ?_, fun hz p hp s hi => ?_, fun _ ha => ?_, fun _ ⟨s, ha⟩ => ?_⟩
  · obtain rfl := List.mem_singleton.1 hp
    rcases hi with h | h | ⟨h, h'⟩ | ⟨h, h'⟩
    · exact hnan (product_invalid hm (.inr (.inl h)))
    · exact inv (.inr (.inl h))
    · rcases hai h with h | h
      · exact hnan h
      · exact inv (.inr (.inr (.inl ⟨h, h'⟩)))
    · by_cases hal : (S.datum alpha).IsFinite
      · obtain ⟨s, hs⟩ := h
        refine inv (.inr (.inr (.inr ⟨?_, h'⟩)))
        obtain ⟨u, x, ex⟩ := hal
        rw [hs, ex] at hm
        simp only [Product, Rounded, mul_zero, abs_zero, if_pos f.limit_pos] at hm
        obtain ⟨z, hz, hr⟩ := hm
        obtain rfl := Format.RoundsTo.self f hr f.value_zero
        exact ⟨_, hz⟩
      · rcases inf_of_not_finite hal with e | e
        · exact hnan (product_invalid hm (.inl e))
        · exact hnan (product_invalid hm (.inr (.inr (.inl ⟨⟨_, e⟩, h⟩))))
  · obtain rfl := List.mem_singleton.1 hp
    have hn : ¬ (S.datum (alpha * a)).IsFinite ∨ ¬ (S.datum b).IsFinite := by
      rcases hi.2.1 with h | ⟨s, h⟩
      · rcases hai h with h | ⟨s, h⟩
        · rw [h]; exact .inl not_finite_nan
        · rw [h]; exact .inl (not_finite_inf s)
      · rw [h]; exact .inr (not_finite_inf s)
    rcases product_sign (S.proper alpha) (S.proper a) hm with e | e
    · exact .inl (hnan e)
    · have := spe hn
      rw [e] at this
      rw [hi.2.2]
      cases h1 : (S.datum alpha).negative <;> cases h2 : (S.datum a).negative <;>
        cases h3 : (S.datum b).negative <;> simpa [h1, h2, h3] using this
  · obtain rfl := List.mem_singleton.1 hp
    by_cases ha : (S.datum a).IsFinite
    · rcases hi.2.1 with ⟨u, h⟩ | h
      · rw [h] at ha; exact absurd ha (not_finite_inf u)
      · exact inv (.inr (.inr (.inr ⟨product_zero hz ha hm, h⟩)))
    · rcases inf_of_not_finite ha with e | e
      · exact absurd (.inl e) hi.1
      · exact hnan (product_invalid hm (.inr (.inr (.inr ⟨hz, _, e⟩))))
  · exact hnan (product_invalid hm (.inl ha))
  · have := product_special hm (.inl (by rw [ha]; exact not_finite_inf s))
    exact not_finite (spe (.inl (not_finite this)))

theorem ProductOf.carries (hR : S.Refines R) {alpha beta c : F} {ps : List (F × F)} {t : Fp F}
    (h : ProductOf R alpha beta c ps t) :
    ProductCarries (S.datum alpha) S ps (S.datum beta) (S.datum c) (S.datum (t.run R)) := by
  induction h with
  | scaled =>
    exact ⟨by simp, by simp, by simp, by simp, by simp, fun _ hi => product_invalid (S.mul_datum _ _) hi,
      fun _ s hi => .inr (product_infinite (S.mul_datum _ _) hi)⟩
  | scaled' =>
    exact ⟨by simp, by simp, by simp, by simp, by simp,
      fun _ hi => product_invalid (S.mul_datum _ _) hi.symm,
      fun _ s hi => .inr (product_infinite (S.mul_datum _ _) hi.symm)⟩
  | cleared hb _ =>
    have hz : (S.datum beta).IsZero := datum_zero S (by rw [← hR.val]; exact hb)
    exact ⟨by simp, by simp, by simp, by simp, by simp, fun h => absurd hz h, fun h => absurd hz h⟩
  | kept hb =>
    have h1 : S.datum beta = .fin false 1 := datum_one S (by rw [← hR.val]; exact hb)
    refine ⟨by simp, by simp, by simp, by simp, by simp, fun _ hi => ?_, fun _ s hi => ?_⟩
    · rw [h1] at hi
      rcases hi with hi | hi | ⟨⟨s, hi⟩, -⟩ | ⟨⟨s, hi⟩, -⟩
      · cases hi
      · exact hi
      · cases hi
      · cases hi
    · rw [h1] at hi
      obtain ⟨-, ⟨u, hi'⟩ | ⟨u, hi'⟩, rfl⟩ := hi
      · cases hi'
      · exact .inr (by simp only [Fp.run]; rw [hi']; cases u <;> rfl)
  | @block ps qs s t _ _ hs ih =>
    have hf := S.add_datum (s.run R) (alpha * t.run R)
    have hm := S.mul_datum alpha (t.run R)
    obtain ⟨b1, b2, b3, b4, b5⟩ := block_carries (alpha := alpha) (hs.carries hR)
      (r := S.datum (s.run R + alpha * t.run R))
      (fun h => by rw [product_invalid hm h] at hf; exact sum_nan_right hf)
      (fun h => sum_inf_right hf (product_special hm h))
    exact ih.append (fun h => by rw [h] at hf; exact sum_nan_left hf)
      (fun s h => sum_inf_left hf h) b1 b2 b3 b4 b5
  | @blockFused ps qs s t _ _ hs ih =>
    have hf := fma_datum hR alpha (t.run R) (s.run R)
    obtain ⟨b1, b2, b3, b4, b5⟩ := block_carries (alpha := alpha) (hs.carries hR)
      (r := S.datum (R.fma alpha (t.run R) (s.run R)))
      (fun h => fused_invalid hf h) (fun h => fused_special hf h)
    exact ih.append (fun h => by rw [h] at hf; exact fused_nan hf)
      (fun s h => fused_inf hf h) b1 b2 b3 b4 b5
  | @blockPlain ps qs s t _ ha _ hs ih =>
    have hf := S.add_datum (s.run R) (t.run R)
    have h1 : S.datum alpha = .fin false 1 := datum_one S (by rw [← hR.val]; exact ha)
    have hc := hs.carries hR
    refine ih.append (fun h => by rw [h] at hf; exact sum_nan_left hf)
      (fun s h => sum_inf_left hf h) (fun p hp hi => ?_) (fun p hp s hi => ?_) (fun hz => ?_)
      (fun _ h => ?_) (fun _ h => ?_)
    · have e := hc.term_nan p hp hi
      rw [e] at hf
      exact sum_nan_right hf
    · have e := sum_inf_right hf (hc.term_inf p hp s hi)
      rw [h1]
      simpa [negative, Fp.run] using e
    · rw [h1] at hz; exact absurd hz not_zero_one
    · rw [h1] at h; cases h
    · rw [h1] at h; obtain ⟨s, h⟩ := h; cases h
  | @term ps s a b _ ih =>
    have hf := S.add_datum (s.run R) (alpha * a * b)
    have hm := S.mul_datum (alpha * a) b
    obtain ⟨b1, b2, b3, b4, b5⟩ := term_carries (alpha := alpha) (a := a) (b := b)
      (r := S.datum (s.run R + alpha * a * b))
      (fun h => by rw [product_invalid hm h] at hf; exact sum_nan_right hf)
      (fun h => sum_inf_right hf (product_special hm h))
    exact ih.append (fun h => by rw [h] at hf; exact sum_nan_left hf)
      (fun s h => sum_inf_left hf h) b1 b2 b3 b4 b5
  | @termFused ps s a b _ ih =>
    have hf := fma_datum hR (alpha * a) b (s.run R)
    obtain ⟨b1, b2, b3, b4, b5⟩ := term_carries (alpha := alpha) (a := a) (b := b)
      (r := S.datum (R.fma (alpha * a) b (s.run R)))
      (fun h => fused_invalid hf h) (fun h => fused_special hf h)
    exact ih.append (fun h => by rw [h] at hf; exact fused_nan hf)
      (fun s h => fused_inf hf h) b1 b2 b3 b4 b5
  | @order ps qs t hp _ ih =>
    have hne : qs ≠ [] → ps ≠ [] := fun h h' => h (by rw [h'] at hp; exact List.nil_perm.1 hp)
    exact ⟨fun p h => ih.term_nan p (hp.mem_iff.2 h), fun p h => ih.term_inf p (hp.mem_iff.2 h),
      fun hz p h => ih.zero hz p (hp.mem_iff.2 h), fun h => ih.alpha_nan (hne h),
      fun h => ih.alpha_inf (hne h), ih.old_nan, ih.old_inf⟩

/-- One element of a product. -/
theorem ProductOf.element (hR : S.Refines R) {alpha beta c : F} {A B : ℕ → F} {k : ℕ} {t : Fp F}
    (h : ProductOf R alpha beta c ((List.range k).map fun l => (A l, B l)) t) :
    Datum.Carries (S.datum alpha) k (fun l => S.datum (A l)) (fun l => S.datum (B l)) (S.datum beta)
      (S.datum c) (S.datum (t.run R)) := by
  have hc := h.carries hR
  have hmem : ∀ l < k, (A l, B l) ∈ (List.range k).map fun l => (A l, B l) := fun l hl =>
    List.mem_map.2 ⟨l, List.mem_range.2 hl, rfl⟩
  have hne : 0 < k → ((List.range k).map fun l => (A l, B l)) ≠ [] := fun hk h' => by
    have := hmem 0 hk
    rw [h'] at this
    cases this
  refine ⟨fun l hl => hc.term_nan _ (hmem l hl), fun l hl => hc.term_inf _ (hmem l hl), fun l hl l' hl' h1 h2 => ?_,
    fun hk => hc.alpha_nan (hne hk), fun hz l hl => hc.zero hz _ (hmem l hl), fun hk => hc.alpha_inf (hne hk),
    hc.old_nan, hc.old_inf, fun hb s hi l hl hi' => ?_, fun hf => ⟨fun hk => ?_, fun l hl => ?_, fun hb => ?_⟩⟩
  · have e1 := hc.term_inf _ (hmem l hl) true h1
    have e2 := hc.term_inf _ (hmem l' hl') false h2
    refine both e1 ?_
    cases h : (S.datum alpha).negative <;> simpa [h] using e2
  · refine both (hc.old_inf hb s hi) ?_
    have := hc.term_inf _ (hmem l hl) _ hi'
    cases h : (S.datum alpha).negative <;> cases s <;> simpa [h] using this
  · by_contra hn
    rcases inf_of_not_finite hn with e | e
    · rw [hc.alpha_nan (hne hk) e] at hf
      exact not_finite_nan hf
    · exact hc.alpha_inf (hne hk) ⟨_, e⟩ hf
  · by_contra hn
    rcases special_cases hn with h | h
    · rw [hc.term_nan _ (hmem l hl) h] at hf
      exact not_finite_nan hf
    · exact not_finite (hc.term_inf _ (hmem l hl) _ h) hf
  · by_contra hn
    rcases special_cases hn with h | h
    · rw [hc.old_nan hb h] at hf
      exact not_finite_nan hf
    · exact not_finite (hc.old_inf hb _ h) hf

/-! ## Trees -/

/-- A NaN anywhere among the operands of an expression shows in the result. -/
theorem Fp.nan_of_literal (hR : S.Refines R) {t : Fp F} (h : ¬ t.Literals fun a => S.datum a ≠ .nan) :
    S.datum (t.run R) = .nan := by
  induction t with
  | lit a => simpa [Literals, run] using h
  | add s t ih1 ih2 =>
    have hf := S.add_datum (s.run R) (t.run R)
    rcases not_and_or.1 h with h | h
    · rw [ih1 h] at hf; exact sum_nan_left hf
    · rw [ih2 h] at hf; exact sum_nan_right hf
  | sub s t ih1 ih2 =>
    have hf := S.sub_datum (s.run R) (t.run R)
    rcases not_and_or.1 h with h | h
    · rw [ih1 h] at hf; exact sum_nan_left hf
    · rw [ih2 h] at hf; exact sum_nan_right hf
  | mul s t ih1 ih2 =>
    have hf := S.mul_datum (s.run R) (t.run R)
    rcases not_and_or.1 h with h | h
    · exact product_invalid hf (.inl (ih1 h))
    · exact product_invalid hf (.inr (.inl (ih2 h)))
  | fma s t r ih1 ih2 ih3 =>
    have hf := fma_datum hR (s.run R) (t.run R) (r.run R)
    rcases not_and_or.1 h with h | h
    · exact fused_invalid hf (.inl (ih1 h))
    · rcases not_and_or.1 h with h | h
      · exact fused_invalid hf (.inr (.inl (ih2 h)))
      · rw [ih3 h] at hf; exact fused_nan hf

end

end Householder.Spec
