import Verif.Spec.Signs
import Verif.Lemmas.RoundsUnique

/-!
# Signs of sums and products of floating-point numbers
-/

namespace Householder.Spec

open Datum

variable {f : Format}

theorem Format.RoundsTo.of_zero {y : ℚ} (h : f.RoundsTo 0 y) : y = 0 := by
  have := h.2.1 0 f.value_zero
  simpa using this

/-- Rounding keeps signs. -/
theorem rounded_sign {s : Bool} {z : ℚ} {r : Datum} (h : Rounded f s z r) :
    r ≠ nan ∧ r.negative = if z = 0 then s else decide (z < 0) := by
  unfold Rounded at h
  by_cases h1 : |z| < f.limit
  · rw [if_pos h1] at h
    obtain ⟨y, rfl, -⟩ := h
    exact ⟨nofun, rfl⟩
  · rw [if_neg h1] at h
    subst h
    refine ⟨nofun, ?_⟩
    have hz : z ≠ 0 := by
      rintro rfl
      rw [abs_zero] at h1
      exact h1 f.limit_pos
    rw [if_neg hz]
    rfl

/-- Signs that fit the numbers. -/
def Fit (u : Bool) (z : ℚ) : Prop := (z < 0 → u = true) ∧ (0 < z → u = false)

theorem Fit.nonneg {z : ℚ} (h : Fit false z) : 0 ≤ z := by
  by_contra hn
  exact absurd (h.1 (not_le.1 hn)) (by decide)

theorem Fit.nonpos {z : ℚ} (h : Fit true z) : z ≤ 0 := by
  by_contra hn
  exact absurd (h.2 (not_le.1 hn)) (by decide)

theorem Fit.mul {u v : Bool} {x y : ℚ} (h : Fit u x) (h' : Fit v y) : Fit (u != v) (x * y) := by
  cases u <;> cases v
  · have := mul_nonneg h.nonneg h'.nonneg
    exact ⟨fun h => absurd h (by linarith), fun _ => rfl⟩
  · have := mul_nonpos_of_nonneg_of_nonpos h.nonneg h'.nonpos
    exact ⟨fun _ => rfl, fun h => absurd h (by linarith)⟩
  · have := mul_nonpos_of_nonpos_of_nonneg h.nonpos h'.nonneg
    exact ⟨fun _ => rfl, fun h => absurd h (by linarith)⟩
  · have := mul_nonneg_of_nonpos_of_nonpos h.nonpos h'.nonpos
    exact ⟨fun h => absurd h (by linarith), fun _ => rfl⟩

theorem rounded_fit {s : Bool} {z : ℚ} {r : Datum} (h : Rounded f s z r) (hs : Fit s z) : r.Bears s := by
  refine .inr ((rounded_sign h).2.trans ?_)
  by_cases hz : z = 0
  · rw [if_pos hz]
  · rw [if_neg hz]
    rcases lt_or_gt_of_ne hz with hz | hz
    · rw [hs.1 hz]; simpa using hz
    · rw [hs.2 hz]; simpa using hz.le

/-- A sum of two numbers of the same sign. -/
theorem rounded_same {u : Bool} {x y : ℚ} {r : Datum} (h : Rounded f (u && u) (x + y) r) (hx : Fit u x)
    (hy : Fit u y) : r.Bears u := by
  rw [Bool.and_self] at h
  refine rounded_fit h ?_
  cases u
  · have := hx.nonneg; have := hy.nonneg
    exact ⟨fun h => absurd h (by linarith), fun _ => rfl⟩
  · have := hx.nonpos; have := hy.nonpos
    exact ⟨fun _ => rfl, fun h => absurd h (by linarith)⟩

/-- A sum in which zeros may have the other sign. -/
theorem rounded_leans {s u v : Bool} {x y : ℚ} {r : Datum} (h : Rounded f (u && v) (x + y) r) (hx : Fit u x)
    (hy : Fit v y) (hu : u = s ∨ x = 0) (hv : v = s ∨ y = 0) : r.Leans s := by
  by_cases hz : x + y = 0
  · rw [hz] at h
    unfold Rounded at h
    rw [abs_zero, if_pos f.limit_pos] at h
    obtain ⟨w, rfl, hw⟩ := h
    rw [hw.of_zero]
    exact .inr (.inr ⟨_, rfl⟩)
  · refine .inr (.inl ((rounded_sign h).2.trans ?_))
    rw [if_neg hz]
    have hx' : Fit s x := by
      rcases hu with rfl | rfl
      · exact hx
      · exact ⟨fun h => absurd h (lt_irrefl _), fun h => absurd h (lt_irrefl _)⟩
    have hy' : Fit s y := by
      rcases hv with rfl | rfl
      · exact hy
      · exact ⟨fun h => absurd h (lt_irrefl _), fun h => absurd h (lt_irrefl _)⟩
    cases s
    · have := hx'.nonneg; have := hy'.nonneg
      simpa using add_nonneg hx'.nonneg hy'.nonneg
    · have := hx'.nonpos; have := hy'.nonpos
      have : x + y < 0 := lt_of_le_of_ne (by linarith) hz
      simpa using this

/-- One positive number, even a zero, keeps the sum of non-negative numbers from being a negative zero. -/
theorem rounded_bears {v : Bool} {x y : ℚ} {r : Datum} (h : Rounded f (false && v) (x + y) r) (hx : Fit false x)
    (hy : Fit v y) (hv : v = false ∨ y = 0) : r.Bears false := by
  rw [Bool.false_and] at h
  refine rounded_fit h ⟨fun hn => ?_, fun _ => rfl⟩
  have h1 := hx.nonneg
  rcases hv with rfl | rfl
  · have := hy.nonneg; linarith
  · linarith

namespace Datum

theorem Proper.fit {s : Bool} {x : ℚ} (h : (fin s x).Proper f) : Fit s x := h.2

theorem Bears.leans {s : Bool} {d : Datum} (h : d.Bears s) : d.Leans s := h.imp_right .inl

theorem Leans.fin {s u : Bool} {x : ℚ} (h : (fin u x).Leans s) : u = s ∨ x = 0 := by
  rcases h with h | h | ⟨t, h⟩
  · cases h
  · exact .inl h
  · cases h; exact .inr rfl

theorem Bears.fin {s u : Bool} {x : ℚ} (h : (fin u x).Bears s) : u = s := by
  rcases h with h | h
  · cases h
  · exact h

theorem Leans.inf {s u : Bool} (h : (inf u : Datum).Leans s) : u = s := by
  rcases h with h | h | ⟨t, h⟩
  · cases h
  · exact h
  · cases h

theorem Bears.of_nan {s : Bool} {r : Datum} (h : r = nan) : r.Bears s := .inl h

theorem bears_inf {s t : Bool} {r : Datum} (h : r = Datum.inf t) (ht : t = s) : r.Bears s := .inr (by rw [h]; exact ht)

/-- The rule of signs. -/
theorem product_bears {a b r : Datum} (ha : a.Proper f) (hb : b.Proper f) (h : Product f a b r) :
    r.Bears (a.negative != b.negative) := by
  cases a with
  | nan => exact .inl (by cases b <;> exact h)
  | inf s =>
    cases b with
    | nan => exact .inl h
    | inf t => exact bears_inf h rfl
    | fin t y =>
      simp only [Product] at h
      split_ifs at h
      · exact .inl h
      · exact bears_inf h rfl
  | fin s x =>
    cases b with
    | nan => exact .inl h
    | inf t =>
      simp only [Product] at h
      split_ifs at h
      · exact .inl h
      · exact bears_inf h rfl
    | fin t y => exact rounded_fit h (ha.fit.mul hb.fit)

/-- Products with a factor that may be a zero of the other sign. -/
theorem product_leans {s : Bool} {a b r : Datum} (ha : a.Proper f) (hb : b.Proper f) (h : Product f a b r)
    (hs : b.Leans s) : r.Leans (a.negative != s) := by
  have hp := product_bears ha hb h
  rcases hs with rfl | hs | ⟨t, rfl⟩
  · exact .inl (by cases a <;> exact h)
  · rw [← hs]; exact hp.leans
  · cases a with
    | nan => exact .inl h
    | inf u => exact .inl (by simpa [Product] using h)
    | fin u x =>
      simp only [Product, mul_zero] at h
      unfold Rounded at h
      rw [abs_zero, if_pos f.limit_pos] at h
      obtain ⟨w, rfl, hw⟩ := h
      rw [hw.of_zero]
      exact .inr (.inr ⟨_, rfl⟩)

theorem product_of_zero {a b r : Datum} (h : Product f a b r) (ha : a.IsZero ∨ b.IsZero) (s : Bool) : r.Leans s := by
  have key : ∀ {u : Bool} {z : ℚ}, z = 0 → Rounded f u z r → r.Leans s := by
    rintro u z rfl h
    unfold Rounded at h
    rw [abs_zero, if_pos f.limit_pos] at h
    obtain ⟨w, rfl, hw⟩ := h
    rw [hw.of_zero]
    exact .inr (.inr ⟨_, rfl⟩)
  rcases ha with ⟨t, rfl⟩ | ⟨t, rfl⟩
  · cases b with
    | nan => exact .inl h
    | inf u => exact .inl (by simpa [Product] using h)
    | fin u y => exact key (zero_mul y) h
  · cases a with
    | nan => exact .inl h
    | inf u => exact .inl (by simpa [Product] using h)
    | fin u y => exact key (mul_zero y) h

theorem sum_bears {s : Bool} {a b r : Datum} (ha : a.Proper f) (hb : b.Proper f) (h : Datum.Sum f a b r)
    (h1 : a.Bears s) (h2 : b.Bears s) : r.Bears s := by
  cases a with
  | nan => exact .inl (sum_nan_left h)
  | inf u =>
    obtain rfl := h1.leans.inf
    cases b with
    | nan => exact .inl h
    | inf v =>
      obtain rfl := h2.leans.inf
      simp only [Datum.Sum, if_true] at h
      exact bears_inf h rfl
    | fin v y => exact bears_inf h rfl
  | fin u x =>
    obtain rfl := h1.fin
    cases b with
    | nan => exact .inl h
    | inf v => exact bears_inf h h2.leans.inf
    | fin v y =>
      obtain rfl := h2.fin
      exact rounded_same h ha.fit hb.fit

theorem sum_leans {s : Bool} {a b r : Datum} (ha : a.Proper f) (hb : b.Proper f) (h : Datum.Sum f a b r)
    (h1 : a.Leans s) (h2 : b.Leans s) : r.Leans s := by
  cases a with
  | nan => exact .inl (sum_nan_left h)
  | inf u =>
    obtain rfl := h1.inf
    cases b with
    | nan => exact .inl h
    | inf v =>
      obtain rfl := h2.inf
      simp only [Datum.Sum, if_true] at h
      exact (bears_inf h rfl).leans
    | fin v y => exact (bears_inf h rfl).leans
  | fin u x =>
    cases b with
    | nan => exact .inl h
    | inf v => exact (bears_inf h h2.inf).leans
    | fin v y => exact rounded_leans h ha.fit hb.fit h1.fin h2.fin

theorem sum_strict {a b r : Datum} (ha : a.Proper f) (hb : b.Proper f) (h : Datum.Sum f a b r)
    (h1 : a.Bears false) (h2 : b.Leans false) : r.Bears false := by
  cases a with
  | nan => exact .inl (sum_nan_left h)
  | inf u =>
    obtain rfl := h1.leans.inf
    cases b with
    | nan => exact .inl h
    | inf v =>
      obtain rfl := h2.inf
      simp only [Datum.Sum, if_true] at h
      exact bears_inf h rfl
    | fin v y => exact bears_inf h rfl
  | fin u x =>
    obtain rfl := h1.fin
    cases b with
    | nan => exact .inl h
    | inf v => exact bears_inf h h2.inf
    | fin v y => exact rounded_bears h ha.fit hb.fit h2.fin

/-- A product with a factor that is not finite is a proper datum. -/
theorem product_proper_special {a b p : Datum} (h : Product f a b p) (hn : ¬ (a.IsFinite ∧ b.IsFinite)) :
    p.Proper f := by
  cases a <;> cases b <;> simp only [Product] at h <;> first
    | (exact absurd ⟨⟨_, _, rfl⟩, _, _, rfl⟩ hn)
    | (subst h; trivial)
    | (split_ifs at h <;> subst h <;> trivial)

/-- What a fused multiply-add is: a sum rounded once, or a sum with a special product. -/
theorem fused_cases {a b c r : Datum} (h : Fused f a b c r) :
    (∃ s x t y u z, a = fin s x ∧ b = fin t y ∧ c = fin u z ∧ Rounded f ((s != t) && u) (x * y + z) r) ∨
    (a.IsFinite ∧ b.IsFinite ∧ ¬ c.IsFinite ∧ r = c) ∨
    (¬ (a.IsFinite ∧ b.IsFinite) ∧ ∃ p, Product f a b p ∧ Datum.Sum f p c r) := by
  cases a with
  | nan => exact .inr (.inr ⟨fun h => not_finite_nan h.1, h⟩)
  | inf s => exact .inr (.inr ⟨fun h => not_finite_inf _ h.1, h⟩)
  | fin s x =>
    cases b with
    | nan => exact .inr (.inr ⟨fun h => not_finite_nan h.2, h⟩)
    | inf t => exact .inr (.inr ⟨fun h => not_finite_inf _ h.2, h⟩)
    | fin t y =>
      cases c with
      | nan => exact .inr (.inl ⟨⟨_, _, rfl⟩, ⟨_, _, rfl⟩, not_finite_nan, h⟩)
      | inf u => exact .inr (.inl ⟨⟨_, _, rfl⟩, ⟨_, _, rfl⟩, not_finite_inf _, h⟩)
      | fin u z => exact .inl ⟨s, x, t, y, u, z, rfl, rfl, rfl, h⟩

theorem fused_leans {s : Bool} {a b c r : Datum} (ha : a.Proper f) (hb : b.Proper f) (hc : c.Proper f)
    (h : Fused f a b c r) (h1 : b.Leans (a.negative != s)) (h2 : c.Leans s) : r.Leans s := by
  have hx : ∀ u v : Bool, (u != (u != v)) = v := by decide
  rcases fused_cases h with ⟨u, x, v, y, w, z, rfl, rfl, rfl, hr⟩ | ⟨-, -, -, rfl⟩ | ⟨hn, p, hp, hs⟩
  · refine rounded_leans hr (ha.fit.mul hb.fit) hc.fit ?_ h2.fin
    rcases h1.fin with h | h
    · rw [h]; exact .inl (hx _ _)
    · rw [h, mul_zero]; exact .inr rfl
  · exact h2
  · refine sum_leans (product_proper_special hp hn) hc hs ?_ h2
    have := product_leans ha hb hp h1
    rwa [hx] at this

theorem fused_strict {a b c r : Datum} (ha : a.Proper f) (hb : b.Proper f) (hc : c.Proper f)
    (h : Fused f a b c r) (h1 : a.negative = b.negative ∨ b = nan) (h2 : c.Leans false) : r.Bears false := by
  have hx : ∀ u : Bool, (u != u) = false := by decide
  rcases fused_cases h with ⟨u, x, v, y, w, z, rfl, rfl, rfl, hr⟩ | ⟨-, -, hc, rfl⟩ | ⟨hn, p, hp, hs⟩
  · rcases h1 with h1 | h1
    · obtain rfl : u = v := h1
      have := ha.fit.mul hb.fit
      rw [hx] at hr this
      exact rounded_bears hr this hc.fit h2.fin
    · cases h1
  · cases r with
    | nan => exact .inl rfl
    | inf u => exact .inr h2.inf
    | fin u x => exact absurd ⟨_, _, rfl⟩ hc
  · refine sum_strict (product_proper_special hp hn) hc hs ?_ h2
    rcases h1 with h1 | rfl
    · have := product_bears ha hb hp
      rwa [h1, hx] at this
    · exact .inl (by cases a <;> exact hp)

end Datum

section

variable {F : Type} [Add F] [Sub F] [Mul F] {S : Ieee754 f F} {R : Ieee f F}

theorem SumOf.leans (hR : S.Refines R) {ps : List (F × F)} {t : Fp F} (h : SumOf R ps t) (s : Bool)
    (hs : ∀ p ∈ ps, ((S.datum p.1).negative != (S.datum p.2).negative) = s) : (S.datum (t.run R)).Leans s := by
  induction h with
  | @empty z hz =>
    rw [hR.val] at hz
    exact .inr (.inr (datum_zero S hz))
  | @one a b =>
    have := product_bears (S.proper a) (S.proper b) (S.mul_datum a b)
    rw [hs (a, b) (by simp)] at this
    exact this.leans
  | @fused ps t a b _ ih =>
    refine fused_leans (S.proper a) (S.proper b) (S.proper _) (fma_datum hR a b (t.run R)) ?_
      (ih fun p hp => hs p (List.mem_cons_of_mem _ hp))
    rw [← hs (a, b) (by simp)]
    refine .inr (.inl ?_)
    show _ = ((S.datum a).negative != ((S.datum a).negative != (S.datum b).negative))
    cases (S.datum a).negative <;> cases (S.datum b).negative <;> rfl
  | @sum ps qs u t _ _ _ _ ih1 ih2 =>
    exact sum_leans (S.proper _) (S.proper _) (S.add_datum (u.run R) (t.run R))
      (ih1 fun p hp => hs p (List.mem_append_left _ hp)) (ih2 fun p hp => hs p (List.mem_append_right _ hp))
  | order hp _ ih => exact ih fun p h => hs p (hp.mem_iff.1 h)

theorem SumOf.bears (hR : S.Refines R) {ps : List (F × F)} {t : Fp F} (h : SumOf R ps t) (hne : ps ≠ [])
    (hs : ∀ p ∈ ps, (S.datum p.1).negative = (S.datum p.2).negative) : (S.datum (t.run R)).Bears false := by
  have hx : ∀ u : Bool, (u != u) = false := by decide
  induction h with
  | empty hz => exact absurd rfl hne
  | @one a b =>
    have := product_bears (S.proper a) (S.proper b) (S.mul_datum a b)
    rwa [hs (a, b) (by simp), hx] at this
  | @fused ps t a b h ih =>
    refine fused_strict (S.proper a) (S.proper b) (S.proper _) (fma_datum hR a b (t.run R))
      (.inl (hs (a, b) (by simp))) (h.leans hR false fun p hp => ?_)
    rw [hs p (List.mem_cons_of_mem _ hp), hx]
  | @sum ps qs u t h1 h2 _ _ ih1 ih2 =>
    exact sum_bears (S.proper _) (S.proper _) (S.add_datum (u.run R) (t.run R))
      (ih1 h1 fun p hp => hs p (List.mem_append_left _ hp)) (ih2 h2 fun p hp => hs p (List.mem_append_right _ hp))
  | order hp _ ih =>
    refine ih (fun h => hne ?_) fun p h => hs p (hp.mem_iff.1 h)
    rw [h] at hp
    exact hp.nil_eq.symm

theorem term_bears (S : Ieee754 f F) (alpha a b : F) :
    (S.datum (alpha * a * b)).Bears
      ((S.datum alpha).negative != ((S.datum a).negative != (S.datum b).negative)) := by
  have h1 := product_bears (S.proper alpha) (S.proper a) (S.mul_datum alpha a)
  have h2 := product_bears (S.proper _) (S.proper b) (S.mul_datum (alpha * a) b)
  rcases h1 with h1 | h1
  · have := S.mul_datum (alpha * a) b
    rw [h1] at this
    exact .inl (by cases h : S.datum b <;> rw [h] at this <;> exact this)
  · rw [h1] at h2
    have : ∀ u v w : Bool, ((u != v) != w) = (u != (v != w)) := by decide
    rwa [this] at h2

theorem ProductOf.leans (hR : S.Refines R) {alpha beta c : F} {ps : List (F × F)} {t : Fp F}
    (h : ProductOf R alpha beta c ps t) (s : Bool)
    (hs : ∀ p ∈ ps, ((S.datum alpha).negative != ((S.datum p.1).negative != (S.datum p.2).negative)) = s)
    (hb : (S.datum beta).IsZero ∨ ((S.datum beta).negative != (S.datum c).negative) = s) :
    (S.datum (t.run R)).Leans s := by
  have swap : ∀ u v w : Bool, (u != v) = w → v = (u != w) := by decide
  have back : ∀ u v : Bool, (u != (u != v)) = v := by decide
  induction h with
  | scaled =>
    rcases hb with hb | hb
    · exact product_of_zero (S.mul_datum beta c) (.inl hb) s
    · have := product_bears (S.proper beta) (S.proper c) (S.mul_datum beta c)
      rw [hb] at this
      exact this.leans
  | scaled' =>
    rcases hb with hb | hb
    · exact product_of_zero (S.mul_datum c beta) (.inr hb) s
    · have := product_bears (S.proper c) (S.proper beta) (S.mul_datum c beta)
      rw [bne_bne, hb] at this
      exact this.leans
  | @cleared z _ hz =>
    rw [hR.val] at hz
    exact .inr (.inr (datum_zero S hz))
  | kept h1 =>
    rw [hR.val] at h1
    rw [datum_one S h1] at hb
    rcases hb with hb | hb
    · exact absurd hb not_zero_one
    · rw [show ((fin false 1).negative != (S.datum c).negative) = (S.datum c).negative from Bool.false_bne _] at hb
      exact .inr (.inl hb)
  | @block ps qs u t _ _ ht ih =>
    have h1 := ht.leans hR ((S.datum alpha).negative != s) fun p hp =>
      swap _ _ _ (hs p (List.mem_append_right _ hp))
    refine sum_leans (S.proper _) (S.proper _) (S.add_datum (u.run R) (alpha * t.run R))
      (ih fun p hp => hs p (List.mem_append_left _ hp)) ?_
    have := product_leans (S.proper alpha) (S.proper _) (S.mul_datum alpha (t.run R)) h1
    rwa [back] at this
  | @blockFused ps qs u t _ _ ht ih =>
    have h1 := ht.leans hR ((S.datum alpha).negative != s) fun p hp =>
      swap _ _ _ (hs p (List.mem_append_right _ hp))
    exact fused_leans (S.proper alpha) (S.proper _) (S.proper _) (fma_datum hR alpha (t.run R) (u.run R)) h1
      (ih fun p hp => hs p (List.mem_append_left _ hp))
  | @blockPlain ps qs u t _ ha _ ht ih =>
    rw [hR.val] at ha
    have h1 := ht.leans hR s fun p hp => by
      have := hs p (List.mem_append_right _ hp)
      rw [datum_one S ha] at this
      simpa [negative] using this
    exact sum_leans (S.proper _) (S.proper _) (S.add_datum (u.run R) (t.run R))
      (ih fun p hp => hs p (List.mem_append_left _ hp)) h1
  | @term ps u a b _ ih =>
    have h1 := term_bears S alpha a b
    rw [hs (a, b) (by simp)] at h1
    exact sum_leans (S.proper _) (S.proper _) (S.add_datum (u.run R) (alpha * a * b))
      (ih fun p hp => hs p (List.mem_append_left _ hp)) h1.leans
  | @termFused ps u a b _ ih =>
    have hu := ih fun p hp => hs p (List.mem_append_left _ hp)
    have h1 := product_bears (S.proper alpha) (S.proper a) (S.mul_datum alpha a)
    have hf := fma_datum hR (alpha * a) b (u.run R)
    rcases h1 with h1 | h1
    · rw [h1] at hf
      exact .inl (fused_invalid hf (.inl rfl))
    · refine fused_leans (S.proper _) (S.proper b) (S.proper _) hf (.inr (.inl ?_)) hu
      rw [h1]
      have h2 : ((S.datum alpha).negative != ((S.datum a).negative != (S.datum b).negative)) = s :=
        hs (a, b) (by simp)
      rw [← h2]
      cases (S.datum alpha).negative <;> cases (S.datum a).negative <;> cases (S.datum b).negative <;> rfl
  | order hp _ ih => exact ih fun p h => hs p (hp.mem_iff.1 h)

theorem ProductOf.bears (hR : S.Refines R) {alpha beta c : F} {ps : List (F × F)} {t : Fp F}
    (h : ProductOf R alpha beta c ps t) (hne : ps ≠ []) (ha : (S.datum alpha).negative = false)
    (hs : ∀ p ∈ ps, (S.datum p.1).negative = (S.datum p.2).negative)
    (hb : (S.datum beta).IsZero ∨ (S.datum beta).negative = (S.datum c).negative) :
    (S.datum (t.run R)).Bears false := by
  have hx : ∀ u : Bool, (u != u) = false := by decide
  have old : ∀ {ps : List (F × F)} {t : Fp F}, ProductOf R alpha beta c ps t →
      (∀ p ∈ ps, (S.datum p.1).negative = (S.datum p.2).negative) → (S.datum (t.run R)).Leans false := by
    intro ps t h hs
    refine h.leans hR false (fun p hp => ?_) (hb.imp_right fun hb => ?_)
    · rw [ha, hs p hp, hx]; rfl
    · rw [hb, hx]
  induction h with
  | scaled => exact absurd rfl hne
  | scaled' => exact absurd rfl hne
  | cleared => exact absurd rfl hne
  | kept => exact absurd rfl hne
  | @block ps qs u t hq hu ht ih =>
    have h1 := ht.bears hR hq fun p hp => hs p (List.mem_append_right _ hp)
    refine sum_strict (S.proper _) (S.proper _) (S.add_datum (u.run R) (alpha * t.run R)).symm ?_
      (old hu fun p hp => hs p (List.mem_append_left _ hp))
    rcases h1 with h1 | h1
    · have := S.mul_datum alpha (t.run R)
      rw [h1] at this
      exact .inl (by cases h : S.datum alpha <;> rw [h] at this <;> exact this)
    · have := product_bears (S.proper alpha) (S.proper _) (S.mul_datum alpha (t.run R))
      rwa [ha, h1] at this
  | @blockFused ps qs u t hq hu ht ih =>
    have h1 := ht.bears hR hq fun p hp => hs p (List.mem_append_right _ hp)
    exact fused_strict (S.proper alpha) (S.proper _) (S.proper _) (fma_datum hR alpha (t.run R) (u.run R))
      (h1.elim .inr fun h => .inl (by rw [ha, h])) (old hu fun p hp => hs p (List.mem_append_left _ hp))
  | @blockPlain ps qs u t hq _ hu ht ih =>
    exact sum_strict (S.proper _) (S.proper _) (S.add_datum (u.run R) (t.run R)).symm
      (ht.bears hR hq fun p hp => hs p (List.mem_append_right _ hp))
      (old hu fun p hp => hs p (List.mem_append_left _ hp))
  | @term ps u a b hu ih =>
    have h1 := term_bears S alpha a b
    rw [ha, hs (a, b) (by simp), hx] at h1
    exact sum_strict (S.proper _) (S.proper _) (S.add_datum (u.run R) (alpha * a * b)).symm h1
      (old hu fun p hp => hs p (List.mem_append_left _ hp))
  | @termFused ps u a b hu ih =>
    have hu' := old hu fun p hp => hs p (List.mem_append_left _ hp)
    have h1 := product_bears (S.proper alpha) (S.proper a) (S.mul_datum alpha a)
    have hf := fma_datum hR (alpha * a) b (u.run R)
    rcases h1 with h1 | h1
    · rw [h1] at hf
      exact .inl (fused_invalid hf (.inl rfl))
    · refine fused_strict (S.proper _) (S.proper b) (S.proper _) hf (.inl ?_) hu'
      rw [h1, ha]
      have : (S.datum a).negative = (S.datum b).negative := hs (a, b) (by simp)
      rw [← this]
      cases (S.datum a).negative <;> rfl
  | order hp _ ih =>
    refine ih (fun h => hne ?_) fun p h => hs p (hp.mem_iff.1 h)
    rw [h] at hp
    exact hp.nil_eq.symm

end

end Householder.Spec
