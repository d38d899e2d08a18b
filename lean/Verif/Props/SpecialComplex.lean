import Verif.Spec.SpecialComplex
import Verif.Props.Complex
import Verif.Props.Laws

/-!
# C99: complex matrices with infinities, NaN and signed zeros
-/

namespace Householder.Props

open Spec Datum

variable {F : Type} [Add F] [Sub F] [Mul F] {f : Format}

/-! ## Multiplying by 1 and by real numbers -/

/-- **C99.** `1 * a` has the elements of `a`, with `c32` or `c64` elements too. -/
def C99_statement [Target] : Prop :=
  ∀ (f : Format) (F : Type) [Add F] [Sub F] [Mul F] (S : Ieee754 f F) (cfg : Cfg) (e : Ex (Cx F))
    (mem : Mem (Cx F)) (m : Mat (Cx F)) (s : Cx F) (g h : Bool),
    S.cx s = ⟨.fin false 1, .fin false 0⟩ → e.Typed → (∀ b ∈ e.leaves, Sound b mem) →
    (Ex.scale g h s e).build = .ok m → ∀ r c, (r, c) ∈ orderOf e.kind e.dim →
    ∃ n v w, e.build = .ok n ∧ n.get cfg mem r c = .ok v ∧ m.get cfg mem r c = .ok w ∧ S.cx w = S.cx v

/-- Zero times a finite number. -/
theorem zero_mul_finite (S : Ieee754 f F) {s a : F} (hs : S.datum s = .fin false 0) (ha : (S.datum a).IsFinite) :
    S.datum (s * a) = .fin (S.datum a).negative 0 := by
  obtain ⟨t, x, e⟩ := ha
  have h := S.mul_datum s a
  rw [hs, e] at h
  rw [e]
  simp only [Product, zero_mul, Bool.false_bne] at h
  exact h.unique (Rounded.of_value f.value_zero fun h => absurd rfl h)

/-- Zero times a number that is not finite. -/
theorem zero_mul_special (S : Ieee754 f F) {s a : F} (hs : S.datum s = .fin false 0)
    (ha : ¬ (S.datum a).IsFinite) : S.datum (s * a) = .nan := by
  have h := S.mul_datum s a
  rw [hs] at h
  refine product_invalid h ?_
  rcases inf_of_not_finite ha with e | e
  · exact .inr (.inl e)
  · exact .inr (.inr (.inr ⟨⟨_, rfl⟩, _, e⟩))

/-- Adding a zero. -/
theorem sum_zero {d r : Datum} {t : Bool} (hp : d.Proper f) (h : Datum.Sum f d (.fin t 0) r) :
    (d ≠ .fin true 0 → r = d) ∧ (d = .fin true 0 → r = .fin t 0) := by
  refine ⟨fun hv => ?_, fun hv => ?_⟩
  · cases hd : d with
    | nan => rw [hd] at h; exact h
    | inf t => rw [hd] at h; exact h
    | fin u x =>
      rw [hd] at h hp hv
      simp only [Datum.Sum, add_zero] at h
      refine h.unique ?_
      by_cases hx : x = 0
      · subst hx
        obtain rfl : u = false := by
          cases u
          · rfl
          · exact absurd rfl hv
        exact Rounded.of_value f.value_zero fun h => absurd rfl h
      · have h3 : u = decide (x < 0) := by
          rcases lt_or_gt_of_ne hx with hx | hx
          · rw [hp.2.1 hx]; simpa using hx
          · rw [hp.2.2 hx]; simpa using hx.le
        have := Rounded.of_value (f := f) (s := u) hp.1 fun _ => h3
        unfold Rounded at this ⊢
        rw [if_neg hx] at this ⊢
        exact this
  · rw [hv] at h
    simp only [Datum.Sum, add_zero, Bool.true_and] at h
    exact h.unique (Rounded.of_value f.value_zero fun h => absurd rfl h)

/-- The parts of `s * z` for a factor without imaginary part: `z`'s other part enters as a zero, or, if it
is not finite, as NaN. -/
theorem real_factor (S : Ieee754 f F) {s z : Cx F} (hs : S.datum s.im = .fin false 0) :
    (¬ (S.datum z.im).IsFinite → S.datum (s * z).re = .nan) ∧
    (¬ (S.datum z.re).IsFinite → S.datum (s * z).im = .nan) ∧
    ((S.datum z.im).IsFinite →
      (S.datum (s.re * z.re) ≠ .fin true 0 → S.datum (s * z).re = S.datum (s.re * z.re)) ∧
      (S.datum (s.re * z.re) = .fin true 0 → S.datum (s * z).re = .fin (!(S.datum z.im).negative) 0)) ∧
    ((S.datum z.re).IsFinite →
      (S.datum (s.re * z.im) ≠ .fin true 0 → S.datum (s * z).im = S.datum (s.re * z.im)) ∧
      (S.datum (s.re * z.im) = .fin true 0 → S.datum (s * z).im = .fin (S.datum z.re).negative 0)) := by
  have h1 : Datum.Sum f (S.datum (s.re * z.re)) (S.datum (s.im * z.im)).opposite (S.datum (s * z).re) :=
    S.sub_datum _ _
  have h2 : Datum.Sum f (S.datum (s.re * z.im)) (S.datum (s.im * z.re)) (S.datum (s * z).im) := S.add_datum _ _
  refine ⟨fun hn => ?_, fun hn => ?_, fun hf => ?_, fun hf => ?_⟩
  · rw [zero_mul_special S hs hn] at h1; exact sum_nan_right h1
  · rw [zero_mul_special S hs hn] at h2; exact sum_nan_right h2
  · rw [zero_mul_finite S hs hf] at h1
    simp only [opposite, neg_zero] at h1
    exact sum_zero (S.proper _) h1
  · rw [zero_mul_finite S hs hf] at h2
    exact sum_zero (S.proper _) h2

/-- The elements of a scaled expression. -/
theorem scale_element [Target] {α : Type} [Add α] [Mul α] (cfg : Cfg) (e : Ex α) (mem : Mem α) (m : Mat α) (s : α)
    (g h : Bool) (ht : e.Typed) (hl : ∀ b ∈ e.leaves, Sound b mem) (hb : (Ex.scale g h s e).build = .ok m)
    (r c : Nat) (hrc : (r, c) ∈ orderOf e.kind e.dim) :
    ∃ n v, e.build = .ok n ∧ n.get cfg mem r c = .ok v ∧ m.get cfg mem r c = .ok (s * v) := by
  obtain ⟨n, hn, -⟩ := (e.build_spec ht).1 (conform_of_build (e := Ex.scale g h s e) ht hb)
  obtain ⟨k, hk1⟩ := List.mem_iff_getElem?.1 hrc
  obtain ⟨v, v1, v2, -⟩ := (C35_get1d_get cfg e mem n ht hl hn k).1 r c hk1
  obtain ⟨w, w1, w2, -⟩ := (C35_get1d_get cfg (.scale g h s e) mem m ht hl hb k).1 r c hk1
  refine ⟨n, v, hn, v2, ?_⟩
  simp only [Ex.value] at w1
  rw [v1] at w1
  rw [w2, ← Option.some.inj w1]

theorem Cx.isFinite_iff (z : Cx Datum) : z.IsFinite ↔ z.re.IsFinite ∧ z.im.IsFinite :=
  ⟨fun h => ⟨h .re, h .im⟩, fun h p => by cases p; exacts [h.1, h.2]⟩

/-- **C99, exactly.** Multiplying a complex matrix by 1 leaves an element unchanged exactly if both its
parts are NaN, or both are finite and, if the real part is `-0`, the imaginary part is not negative, and, if
the imaginary part is `-0`, the real part is negative. In particular an infinite element is lost. -/
theorem C99_partial [Target] (S : Ieee754 f F) (cfg : Cfg) (e : Ex (Cx F)) (mem : Mem (Cx F)) (m : Mat (Cx F))
    (s : Cx F) (g h : Bool) (hs : S.cx s = ⟨.fin false 1, .fin false 0⟩) (ht : e.Typed)
    (hl : ∀ b ∈ e.leaves, Sound b mem) (hb : (Ex.scale g h s e).build = .ok m) (r c : Nat)
    (hrc : (r, c) ∈ orderOf e.kind e.dim) :
    ∃ n v w, e.build = .ok n ∧ n.get cfg mem r c = .ok v ∧ m.get cfg mem r c = .ok w ∧
      (S.cx w = S.cx v ↔ (S.cx v).Kept) := by
  obtain ⟨n, v, hn, hv, hw⟩ := scale_element cfg e mem m s g h ht hl hb r c hrc
  refine ⟨n, v, s * v, hn, hv, hw, ?_⟩
  have hs1 : S.datum s.re = .fin false 1 := congrArg Cx.re hs
  have hs2 : S.datum s.im = .fin false 0 := congrArg Cx.im hs
  obtain ⟨a1, a2, a3, a4⟩ := real_factor S (z := v) hs2
  rw [one_mul_same S hs1 v.re] at a3
  rw [one_mul_same S hs1 v.im] at a4
  have key : S.cx (s * v) = S.cx v ↔
      S.datum (s * v).re = S.datum v.re ∧ S.datum (s * v).im = S.datum v.im := by
    simp only [Ieee754.cx, Cx.map, Cx.mk.injEq]
  rw [key]
  have fin_iff : (S.cx v).IsFinite ↔ (S.datum v.re).IsFinite ∧ (S.datum v.im).IsFinite := Cx.isFinite_iff _
  show _ ↔ (S.datum v.re = .nan ∧ S.datum v.im = .nan) ∨ ((S.cx v).IsFinite ∧
    (S.datum v.re = .fin true 0 → (S.datum v.im).negative = false) ∧
    (S.datum v.im = .fin true 0 → (S.datum v.re).negative = true))
  rw [fin_iff]
  constructor
  · rintro ⟨h1, h2⟩
    by_cases hr : (S.datum v.re).IsFinite
    · by_cases hi : (S.datum v.im).IsFinite
      · refine .inr ⟨⟨hr, hi⟩, fun hz => ?_, fun hz => ?_⟩
        · rw [(a3 hi).2 hz, hz] at h1
          simpa using h1
        · rw [(a4 hr).2 hz, hz] at h2
          simpa using h2
      · rw [a1 hi] at h1
        rw [← h1] at hr
        exact absurd hr not_finite_nan
    · rw [a2 hr] at h2
      have hi : ¬ (S.datum v.im).IsFinite := by rw [← h2]; exact not_finite_nan
      rw [a1 hi] at h1
      exact .inl ⟨h1.symm, h2.symm⟩
  · rintro (⟨h1, h2⟩ | ⟨⟨hr, hi⟩, h1, h2⟩)
    · rw [a1 (by rw [h2]; exact not_finite_nan), a2 (by rw [h1]; exact not_finite_nan), h1, h2]
      exact ⟨rfl, rfl⟩
    · constructor
      · by_cases hz : S.datum v.re = .fin true 0
        · rw [(a3 hi).2 hz, h1 hz, hz]; rfl
        · exact (a3 hi).1 hz
      · by_cases hz : S.datum v.im = .fin true 0
        · rw [(a4 hr).2 hz, h2 hz, hz]
        · exact (a4 hr).1 hz

/-- **C99, real factors.** Multiplying a complex matrix by a real number `s + 0i` multiplies the two parts
separately, up to the sign of a zero, as far as the other part is finite; otherwise the part becomes NaN. -/
theorem C99_real [Target] (S : Ieee754 f F) (cfg : Cfg) (e : Ex (Cx F)) (mem : Mem (Cx F)) (m : Mat (Cx F))
    (s : Cx F) (g h : Bool) (hs : S.datum s.im = .fin false 0) (ht : e.Typed)
    (hl : ∀ b ∈ e.leaves, Sound b mem) (hb : (Ex.scale g h s e).build = .ok m) (r c : Nat)
    (hrc : (r, c) ∈ orderOf e.kind e.dim) :
    ∃ n v w, e.build = .ok n ∧ n.get cfg mem r c = .ok v ∧ m.get cfg mem r c = .ok w ∧
      ((S.datum v.im).IsFinite → Almost (S.datum w.re) (S.datum (s.re * v.re))) ∧
      (¬ (S.datum v.im).IsFinite → S.datum w.re = .nan) ∧
      ((S.datum v.re).IsFinite → Almost (S.datum w.im) (S.datum (s.re * v.im))) ∧
      (¬ (S.datum v.re).IsFinite → S.datum w.im = .nan) := by
  obtain ⟨n, v, hn, hv, hw⟩ := scale_element cfg e mem m s g h ht hl hb r c hrc
  obtain ⟨a1, a2, a3, a4⟩ := real_factor S (z := v) hs
  refine ⟨n, v, s * v, hn, hv, hw, fun hf => ?_, a1, fun hf => ?_, a2⟩
  · by_cases hz : S.datum (s.re * v.re) = .fin true 0
    · exact .inr ⟨⟨_, (a3 hf).2 hz⟩, _, hz⟩
    · exact .inl ((a3 hf).1 hz)
  · by_cases hz : S.datum (s.re * v.im) = .fin true 0
    · exact .inr ⟨⟨_, (a4 hf).2 hz⟩, _, hz⟩
    · exact .inl ((a4 hf).1 hz)

/-! ## Expressions -/

omit [Add F] [Sub F] [Mul F] in
theorem feeds_iff (P : F → Prop) (X : BaseMatrix → Cx F) (e : Ex (Cx F)) :
    (e.Feeds P X .re ↔ (e.over (Cx.map Fp.lit) X).re.Literals P) ∧
    (e.Feeds P X .im ↔ (e.over (Cx.map Fp.lit) X).im.Literals P) := by
  induction e with
  | leaf b => exact ⟨Iff.rfl, Iff.rfl⟩
  | ref a ih => exact ih
  | add g h a b iha ihb => exact ⟨and_congr iha.1 ihb.1, and_congr iha.2 ihb.2⟩
  | scale g h s a ih =>
    have e1 : ((Ex.scale g h s a).over (Cx.map Fp.lit) X).re.Literals P ↔
        (P s.re ∧ (a.over (Cx.map Fp.lit) X).re.Literals P) ∧
          (P s.im ∧ (a.over (Cx.map Fp.lit) X).im.Literals P) := Iff.rfl
    have e2 : ((Ex.scale g h s a).over (Cx.map Fp.lit) X).im.Literals P ↔
        (P s.re ∧ (a.over (Cx.map Fp.lit) X).im.Literals P) ∧
          (P s.im ∧ (a.over (Cx.map Fp.lit) X).re.Literals P) := Iff.rfl
    simp only [Ex.Feeds]
    rw [e1, e2, ih.1, ih.2]
    exact ⟨by tauto, by tauto⟩

/-- Operations whose result is finite have finite operands only. -/
theorem Fp.finite_literals (S : Ieee754 f F) (R : Ieee f F) (hR : S.Refines R) (t : Fp F)
    (h : (S.datum (t.run R)).IsFinite) : t.Literals fun a => (S.datum a).IsFinite := by
  obtain ⟨s, x, hx⟩ := h
  refine (Fp.finite_of_result R t x (by rw [hR.val, hx]; rfl)).mono fun a ha => ?_
  by_contra hf
  rw [hR.val, val_none hf] at ha
  cases ha

/-- **C99, expressions.** A part of an element of a complex expression is NaN if something that goes into it
is, and is finite only if all that goes into it is: the same part of the matrices added, and both parts of
matrices that are multiplied by a scalar, and of the scalar. The same holds of the matrix that `eval`
returns. -/
theorem C99_expressions [Target] [Zero F] (S : Ieee754 f F) (cfg : Cfg) (e : Ex (Cx F)) (mem : Mem (Cx F))
    (m : Mat (Cx F)) (ht : e.Typed) (hl : ∀ b ∈ e.leaves, Sound b mem) (hb : e.build = .ok m) (r c : Nat)
    (hrc : (r, c) ∈ orderOf e.kind e.dim) (X : BaseMatrix → Cx F)
    (hX : ∀ b ∈ e.leaves, b.get cfg mem r c = .ok (X b)) :
    ∃ v, m.get cfg mem r c = .ok v ∧
      ((e.kind = .columnVector → e.dim.1 = 1) →
        (orderOf e.kind e.dim).length * cfg.item.size ≤ isizeMax →
        ∃ N mem', m.eval cfg mem = .ok (N, mem') ∧ N.get cfg mem' r c = .ok v) ∧
      ∀ p, (¬ e.Feeds (fun a => S.datum a ≠ .nan) X p → S.datum (v.part p) = .nan) ∧
        ((S.datum (v.part p)).IsFinite → e.Feeds (fun a => (S.datum a).IsFinite) X p) := by
  obtain ⟨v, h1, h2, -⟩ := C81_complex_expressions S.toIeee cfg e mem m ht hl hb r c hrc X hX
  refine ⟨v, h1, h2, ?_⟩
  have hc := conform_of_build ht hb
  have hX' : ∀ b ∈ e.leaves, elem b mem r c = some (X b) := by
    intro b hb
    obtain ⟨hd, hki⟩ := leaf_shape e ht hc b hb
    have hs : Stored b.layout r c := by rw [← mem_order, order_eq_orderOf, hd, hki]; exact hrc
    obtain ⟨w, hw⟩ := (hl b hb).elem_some hs
    have := hX b hb
    rw [(hl b hb).get cfg hs hw] at this
    rw [hw]
    simpa using this
  obtain ⟨k, hk⟩ := List.mem_iff_getElem?.1 hrc
  obtain ⟨w, g1, g2, -⟩ := (C35_get1d_get cfg e mem m ht hl hb k).1 r c hk
  obtain rfl : v = w := by rw [h1] at g2; simpa using g2
  have hv := over_run S.toIeee X e mem r c v hX' g1
  have r1 : v.re = (e.over (Cx.map Fp.lit) X).re.run S.toIeee := (congrArg Cx.re hv).symm
  have r2 : v.im = (e.over (Cx.map Fp.lit) X).im.run S.toIeee := (congrArg Cx.im hv).symm
  rintro (_ | _)
  · show (_ → S.datum v.re = _) ∧ ((S.datum v.re).IsFinite → _)
    rw [r1, (feeds_iff _ X e).1, (feeds_iff _ X e).1]
    exact ⟨Fp.nan_of_literal S.toIeee_refines, Fp.finite_literals S _ S.toIeee_refines _⟩
  · show (_ → S.datum v.im = _) ∧ ((S.datum v.im).IsFinite → _)
    rw [r2, (feeds_iff _ X e).2, (feeds_iff _ X e).2]
    exact ⟨Fp.nan_of_literal S.toIeee_refines, Fp.finite_literals S _ S.toIeee_refines _⟩

theorem sub_same (S : Ieee754 f F) {a b a' b' : F} (ha : S.datum a = S.datum a') (hb : S.datum b = S.datum b') :
    S.datum (a - b) = S.datum (a' - b') := by
  have h1 := S.sub_datum a b
  rw [ha, hb] at h1
  exact h1.unique (S.sub_datum a' b')

theorem cx_eq (S : Ieee754 f F) {z w : Cx F} :
    S.cx z = S.cx w ↔ S.datum z.re = S.datum w.re ∧ S.datum z.im = S.datum w.im := by
  simp only [Ieee754.cx, Cx.map, Cx.mk.injEq]

theorem exchanged_value (S : Ieee754 f F) {e e' : Ex (Cx F)} (h : Exchanged S e e') (mem : Mem (Cx F))
    (r c : Nat) : (e.value mem r c).map S.cx = (e'.value mem r c).map S.cx := by
  induction h with
  | refl a => rfl
  | trans _ _ ih1 ih2 => exact ih1.trans ih2
  | @add _ _ _ _ a b a' b' _ _ ih1 ih2 =>
    simp only [Ex.value]
    cases h1 : a.value mem r c <;> cases h2 : a'.value mem r c <;> rw [h1, h2] at ih1 <;>
      first | (cases ih1; done) | skip
    · rfl
    · cases h3 : b.value mem r c <;> cases h4 : b'.value mem r c <;> rw [h3, h4] at ih2 <;>
        first | (cases ih2; done) | skip
      · rfl
      · have e1 := (cx_eq S).1 (Option.some.inj ih1)
        have e2 := (cx_eq S).1 (Option.some.inj ih2)
        exact congrArg some ((cx_eq S).2 ⟨sum_same S e1.1 e2.1, sum_same S e1.2 e2.2⟩)
  | @scale _ _ _ _ s s' a a' hs _ ih =>
    simp only [Ex.value]
    cases h1 : a.value mem r c <;> cases h2 : a'.value mem r c <;> rw [h1, h2] at ih <;>
      first | (cases ih; done) | skip
    · rfl
    · have e1 := (cx_eq S).1 hs
      have e2 := (cx_eq S).1 (Option.some.inj ih)
      exact congrArg some ((cx_eq S).2
        ⟨sub_same S (mul_same S e1.1 e2.1) (mul_same S e1.2 e2.2),
          sum_same S (mul_same S e1.1 e2.2) (mul_same S e1.2 e2.1)⟩)
  | ref => rfl
  | @comm _ _ _ _ a b =>
    simp only [Ex.value]
    cases a.value mem r c <;> cases b.value mem r c <;> first
      | rfl
      | exact congrArg some ((cx_eq S).2 ⟨sum_comm S _ _, sum_comm S _ _⟩)

/-- **C99, order.** Exchanging the operands of sums of complex matrices, anywhere in an expression, changes
no part of any element, not even the sign of a zero. -/
theorem C99_order [Target] (S : Ieee754 f F) (cfg : Cfg) {e e' : Ex (Cx F)} (hx : Exchanged S e e')
    (mem : Mem (Cx F)) (m m' : Mat (Cx F)) (ht : e.Typed) (ht' : e'.Typed) (hl : ∀ b ∈ e.leaves, Sound b mem)
    (hl' : ∀ b ∈ e'.leaves, Sound b mem) (hb : e.build = .ok m) (hb' : e'.build = .ok m') (hd : e.dim = e'.dim)
    (hk : e.kind = e'.kind) (r c : Nat) (hrc : (r, c) ∈ orderOf e.kind e.dim) :
    ∃ v w, m.get cfg mem r c = .ok v ∧ m'.get cfg mem r c = .ok w ∧ S.cx v = S.cx w := by
  obtain ⟨k, hk1⟩ := List.mem_iff_getElem?.1 hrc
  obtain ⟨v, v1, v2, -⟩ := (C35_get1d_get cfg e mem m ht hl hb k).1 r c hk1
  rw [hd, hk] at hk1
  obtain ⟨w, w1, w2, -⟩ := (C35_get1d_get cfg e' mem m' ht' hl' hb' k).1 r c hk1
  have := exchanged_value S hx mem r c
  rw [v1, w1] at this
  exact ⟨v, w, v2, w2, Option.some.inj this⟩

/-! ## Products -/

omit [Add F] [Sub F] [Mul F] in
theorem uses_not_literals {P : F → Prop} {a : F} {t : Fp F} (h : t.Uses a) (ha : ¬ P a) :
    ¬ t.Literals P := by
  induction t with
  | lit b => obtain rfl : b = a := h; exact ha
  | add s t ih1 ih2 => rcases h with h | h; exacts [fun H => ih1 h H.1, fun H => ih2 h H.2]
  | sub s t ih1 ih2 => rcases h with h | h; exacts [fun H => ih1 h H.1, fun H => ih2 h H.2]
  | mul s t ih1 ih2 => rcases h with h | h; exacts [fun H => ih1 h H.1, fun H => ih2 h H.2]
  | fma s t r ih1 ih2 ih3 =>
    rcases h with h | h | h
    exacts [fun H => ih1 h H.1, fun H => ih2 h H.2.1, fun H => ih3 h H.2.2]

theorem part_cx (S : Ieee754 f F) (z : Cx F) (q : Part) : (S.cx z).part q = S.datum (z.part q) := by
  cases q <;> rfl

/-- What thorough operations carry. -/
theorem thorough_carries {S : Ieee754 f F} {R : Ieee f F} (hR : S.Refines R) {alpha beta c d : Cx F}
    {A B : ℕ → Cx F} {k : ℕ}
    (h : ∀ q : Part, ∃ t : Fp F, t.Thorough S alpha ((List.range k).map fun l => (A l, B l)) beta c ∧
      S.datum (d.part q) = S.datum (t.run R)) :
    Cx.Carries (S.cx alpha) k (fun l => S.cx (A l)) (fun l => S.cx (B l)) (S.cx beta) (S.cx c) (S.cx d) := by
  have mem : ∀ l < k, (A l, B l) ∈ (List.range k).map fun l => (A l, B l) := fun l hl =>
    List.mem_map.2 ⟨l, List.mem_range.2 hl, rfl⟩
  have ne : 0 < k → ((List.range k).map fun l => (A l, B l)) ≠ [] := by
    intro hk h
    have := congrArg List.length h
    simp at this
    omega
  have nan : ∀ {t : Fp F} {q : Part} {a : F}, S.datum (d.part q) = S.datum (t.run R) → t.Uses a →
      S.datum a = .nan → S.datum (d.part q) = .nan := fun e hu ha => by
    rw [e]; exact Fp.nan_of_literal hR (uses_not_literals hu fun h => h ha)
  have fin : ∀ {t : Fp F} {q : Part} {a : F}, S.datum (d.part q) = S.datum (t.run R) → t.Uses a →
      (S.datum (d.part q)).IsFinite → (S.datum a).IsFinite := fun e hu hd => by
    by_contra hn
    rw [e] at hd
    exact uses_not_literals hu hn (Fp.finite_literals S R hR _ hd)
  have both : ∀ {a : F}, S.datum a = .nan →
      (∀ t : Fp F, t.Thorough S alpha ((List.range k).map fun l => (A l, B l)) beta c → t.Uses a) →
      (S.cx d).re = .nan ∧ (S.cx d).im = .nan := by
    intro a ha hu
    obtain ⟨t, ht, et⟩ := h .re
    obtain ⟨t', ht', et'⟩ := h .im
    exact ⟨nan et (hu t ht) ha, nan et' (hu t' ht') ha⟩
  refine ⟨fun l hl q hn => ?_, fun hk q hn => ?_, fun hb q hn => ?_, fun p hd => ?_⟩
  · rw [part_cx, part_cx] at hn
    rcases hn with hn | hn
    · exact both hn fun t ht => (ht.terms _ (mem l hl) q).1
    · exact both hn fun t ht => (ht.terms _ (mem l hl) q).2
  · rw [part_cx] at hn
    exact both hn fun t ht => ht.alpha (ne hk) q
  · rw [part_cx, part_cx] at hn
    rcases hn with hn | hn
    · exact both hn fun t ht => (ht.old hb q).1
    · exact both hn fun t ht => (ht.old hb q).2
  · rw [part_cx] at hd
    obtain ⟨t, ht, et⟩ := h p
    refine ⟨fun hk q => ?_, fun l hl => ⟨fun q => ?_, fun q => ?_⟩, fun hb => ⟨fun q => ?_, fun q => ?_⟩⟩
    · rw [part_cx]; exact fin et (ht.alpha (ne hk) q) hd
    · rw [part_cx]; exact fin et (ht.terms _ (mem l hl) q).1 hd
    · rw [part_cx]; exact fin et (ht.terms _ (mem l hl) q).2 hd
    · rw [part_cx]; exact fin et (ht.old hb q).1 hd
    · rw [part_cx]; exact fin et (ht.old hb q).2 hd

/-- The loop uses everything. -/
theorem cxLoop_thorough (S : Ieee754 f F) (alpha : Cx F) (ps : List (Cx F × Cx F)) (beta c : Cx F) (q : Part) :
    ((cxLoop alpha ps beta c).part q).Thorough S alpha ps beta c := by
  induction ps using List.reverseRecOn with
  | nil =>
    refine ⟨by simp, by simp, fun _ p => ?_⟩
    cases q <;> cases p <;> simp [cxLoop, Cx.part, Cx.map, HMul.hMul, Mul.mul, HSub.hSub, Sub.sub, HAdd.hAdd,
      Add.add, Fp.Uses]
  | append_singleton ps p ih =>
    have hu : ∀ a, ((cxLoop alpha (ps ++ [p]) beta c).part q).Uses a ↔
        ((cxLoop alpha ps beta c).part q).Uses a ∨ ((cxTerm alpha p).part q).Uses a := by
      intro a
      rw [cxLoop_append]
      cases q <;> exact Iff.rfl
    have ht : ∀ o : Part, ((cxTerm alpha p).part q).Uses (p.1.part o) ∧
        ((cxTerm alpha p).part q).Uses (p.2.part o) ∧ ((cxTerm alpha p).part q).Uses (alpha.part o) := by
      intro o
      cases q <;> cases o <;> simp [cxTerm, Cx.part, Cx.map, HMul.hMul, Mul.mul, HSub.hSub, Sub.sub,
        HAdd.hAdd, Add.add, Fp.Uses]
    refine ⟨fun p' hp' o => ?_, fun _ o => (hu _).2 (.inr (ht o).2.2), fun hb o => ?_⟩
    · rcases List.mem_append.1 hp' with h | h
      · exact ⟨(hu _).2 (.inl (ih.terms p' h o).1), (hu _).2 (.inl (ih.terms p' h o).2)⟩
      · obtain rfl := List.mem_singleton.1 h
        exact ⟨(hu _).2 (.inr (ht o).1), (hu _).2 (.inr (ht o).2.1)⟩
    · exact ⟨(hu _).2 (.inl (ih.old hb o).1), (hu _).2 (.inl (ih.old hb o).2)⟩

/-- The loop of the reference product is a thorough kernel. -/
theorem loopKern_thorough (S : Ieee754 f F) (R : Ieee f F) : Thorough S R (loopKern : Kern (Cx F)) := by
  intro site alpha ps beta c q
  refine ⟨_, cxLoop_thorough S alpha ps beta c q, ?_⟩
  have e : (cxLoop alpha ps beta c).map (Fp.run R) = loopKern site alpha ps beta c := cxLoop_run R alpha ps beta c
  rw [← e]
  cases q <;> rfl

/-- **C99, matmul.** With complex scalars whose parts follow IEEE-754 and a kernel whose operations use both
parts of all numbers, a NaN in any part of the row, the column, `alpha`, and (if `beta` is not 0) `beta` and
the old element makes both parts of an element of the result of `matmul` NaN; and if one part of an element
is finite, both parts of all these are. The same holds of the reference product of the unit tests. -/
theorem C99_matmul [Target] (S : Ieee754 f F) (R : Ieee f F) (hR : S.Refines R) (kern : Kern (Cx F))
    (hk : Thorough S R kern) (cfg : Cfg) (alpha beta : Cx F) (a b c : BaseMatrix) (mem : Mem (Cx F))
    (ha : Sound a mem) (hb : Sound b mem) (hc : Sound c mem) (hoa : Honest a.layout)
    (hob : Honest b.layout) (hoc : Honest c.layout) (hn : NonOverlapping c.layout)
    (hd : Compatible a.layout b.layout c.layout) (hca : Separate c a) (hcb : Separate c b)
    (A B C : Arr (Cx F)) (hA : Represents a mem A) (hB : Represents b mem B) (hC : Represents c mem C) :
    ∃ mem1 mem2, matmul kern alpha a b beta c mem = .ok mem1 ∧
      matmul_expect cfg alpha a b beta c mem = .ok mem2 ∧
      ∀ i j, i < c.layout.dim.1 → j < c.layout.dim.2 →
        ∃ v w, c.get cfg mem1 i j = .ok v ∧ c.get cfg mem2 i j = .ok w ∧
          Cx.Carries (S.cx alpha) a.layout.dim.2 (fun l => S.cx (A i l)) (fun l => S.cx (B l j))
            (S.cx beta) (S.cx (C i j)) (S.cx v) ∧
          Cx.Carries (S.cx alpha) a.layout.dim.2 (fun l => S.cx (A i l)) (fun l => S.cx (B l j))
            (S.cx beta) (S.cx (C i j)) (S.cx w) := by
  obtain ⟨mem1, e1, hf1, hr1⟩ := matmul_honest (kern := kern) (alpha := alpha) (beta := beta)
    ha hb hc hoa hob hoc hn hd hca hcb hA hB hC
  obtain ⟨mem2, e2, hf2, hr2⟩ := matmul_expect_any cfg alpha beta ha hb hc hoa.notTri hob.notTri
    hoc.notTri hn hd hca hcb hA hB hC
  refine ⟨mem1, mem2, e1, e2, fun i j hi hj => ?_⟩
  have hs : Stored c.layout i j := (stored_of_notTri hoc.notTri).2 ⟨hi, hj⟩
  refine ⟨_, _, (hc.mono (by rw [hf1.size])).get cfg hs (hr1 i j hs),
    (hc.mono (by rw [hf2.size])).get cfg hs (hr2 i j hs),
    thorough_carries hR (hk ⟨c.layout.dim.1, c.layout.dim.2, i, j⟩ alpha _ beta (C i j)),
    thorough_carries hR fun q => ⟨_, cxLoop_thorough S alpha _ beta (C i j) q, ?_⟩⟩
  show S.datum ((accumulate alpha A B beta C i j a.layout.dim.2).part q) = _
  rw [← cxAccumulate_loop R alpha A B beta C i j a.layout.dim.2]
  cases q <;> rfl

/-- **C99, dot.** The same for `a.dot(&b)`. -/
theorem C99_dot [Target] [Zero F] [One F] (S : Ieee754 f F) (R : Ieee f F) (hR : S.Refines R)
    (kern : Kern (Cx F)) (hk : Thorough S R kern) (cfg : Cfg) (i : DotImpl) (a b : BaseMatrix)
    (mem : Mem (Cx F)) (ha : Sound a mem) (hb : Sound b mem) (hoa : Honest a.layout) (hob : Honest b.layout)
    (hd : a.layout.dim.2 = b.layout.dim.1) (hv : VectorShape i a b)
    (hsz : a.layout.dim.1 * b.layout.dim.2 * cfg.item.size ≤ isizeMax) (A B : Arr (Cx F))
    (hA : Represents a mem A) (hB : Represents b mem B) :
    ∃ M mem', dot cfg kern i a b mem = .ok (M, mem') ∧
      M.layout.dim = (a.layout.dim.1, b.layout.dim.2) ∧
      ∀ r c, r < a.layout.dim.1 → c < b.layout.dim.2 → ∃ v, M.get cfg mem' r c = .ok v ∧
        Cx.Carries (S.cx 1) a.layout.dim.2 (fun l => S.cx (A r l)) (fun l => S.cx (B l c)) (S.cx 0) (S.cx 0)
          (S.cx v) := by
  obtain ⟨M, mem', e, hl, hnew, hrep⟩ := dot_kern kern ha hb hoa hob hd hv hsz hA hB
  have hdim := productLayout_dim hv
  rw [← hl] at hdim
  have hnt : NotTriangular M.layout := by
    have := (productLayout_props i a.layout.dim.1 b.layout.dim.2).2.2
    rw [← hl] at this
    exact this.notTri
  refine ⟨M, mem', e, hdim, fun r c hr hc => ?_⟩
  have hs : Stored M.layout r c := (stored_of_notTri hnt).2 (by rw [hdim]; exact ⟨hr, hc⟩)
  exact ⟨_, hnew.sound.get cfg hs (hrep r c hs),
    thorough_carries hR (hk ⟨a.layout.dim.1, b.layout.dim.2, r, c⟩ 1 _ 0 0)⟩

/-! ## The statement is false -/

/-- A matrix of one complex element. -/
def exOneCx754 : BaseMatrix := ⟨⟨0, 0, 1⟩, .rowMajor ⟨(1, 1)⟩, .dynamic, .dynamic⟩

/-- `s * [z]`. -/
def exScaledCx [Target] (s z : Cx (Num754 .f64)) : Out (Cx Datum) := do
  let m ← (Ex.scale true true s (.leaf exOneCx754)).build
  let v ← m.get dbg ⟨[[z]]⟩ 0 0
  return v.map (·.1)

theorem exOneCx754_sound [Target] (z : Cx (Num754 .f64)) : Sound exOneCx754 (⟨[[z]]⟩ : Mem (Cx (Num754 .f64))) :=
  sound_of_contiguous trivial
    ⟨by show 0 + 1 ≤ 1; omega, by show 1 * 4 ≤ isizeMax; have := isizeMax_ge; omega⟩ (by decide_width)

/-- **C99 is false**: `1 * (inf + 0i)` is `inf + NaN i`, and `1 * (-0 - i)` is `0 - i`. -/
theorem C99_false [Target] : ¬ C99_statement ∧
    exScaledCx 1 ⟨.infinity false, 0⟩ = .ok ⟨.inf false, .nan⟩ ∧
    exScaledCx 1 ⟨.negZero, .ofRat (-1)⟩ = .ok ⟨.fin false 0, .fin true (-1)⟩ := by
  have h1 : exScaledCx 1 ⟨.infinity false, 0⟩ = .ok ⟨.inf false, .nan⟩ := by decide_width_kernel
  refine ⟨fun H => ?_, h1, by decide_width_kernel⟩
  unfold exScaledCx at h1
  cases hm : (Ex.scale true true (1 : Cx (Num754 .f64)) (.leaf exOneCx754)).build with
  | panic => rw [hm] at h1; cases h1
  | ub => rw [hm] at h1; cases h1
  | ok m =>
    obtain ⟨n, v, w, a1, a2, a3, a4⟩ := H .f64 (Num754 .f64) (Num754.ieee754 .f64) dbg (.leaf exOneCx754)
      ⟨[[⟨.infinity false, 0⟩]]⟩ m 1 true true rfl trivial
      (by simp only [Ex.leaves, List.mem_singleton, forall_eq]; exact exOneCx754_sound _) hm 0 0 (by decide)
    rw [hm] at h1
    change (do let v ← m.get dbg _ 0 0; return v.map (·.1)) = Out.ok _ at h1
    rw [a3] at h1
    have g : w.map (·.1) = (⟨.inf false, .nan⟩ : Cx Datum) := Out.ok.inj h1
    cases a1
    have g2 : (Out.ok v : Out (Cx (Num754 .f64))) = .ok ⟨.infinity false, 0⟩ := by
      rw [← a2]
      exact (exOneCx754_sound _).get dbg (r := 0) (c := 0) ⟨Nat.zero_lt_one, Nat.zero_lt_one, fun _ h => nomatch h⟩ rfl
    cases g2
    have g3 : w.map (·.1) = (⟨.inf false, .fin false 0⟩ : Cx Datum) := a4
    rw [g] at g3
    cases g3

/-! ## Examples -/

/-- `C99_partial` in both directions: NaN in both parts, `-0 + i`, `-1 - 0i` and `3 - 4i` are kept; an
infinite part, one NaN, `-0 - i` and `1 - 0i` are not. -/
example : exScaledCx 1 ⟨.nan, .nan⟩ = .ok ⟨.nan, .nan⟩ ∧
    exScaledCx 1 ⟨.negZero, 1⟩ = .ok ⟨.fin true 0, .fin false 1⟩ ∧
    exScaledCx 1 ⟨.ofRat (-1), .negZero⟩ = .ok ⟨.fin true (-1), .fin true 0⟩ ∧
    exScaledCx 1 ⟨.ofRat 3, .ofRat (-4)⟩ = .ok ⟨.fin false 3, .fin true (-4)⟩ ∧
    exScaledCx 1 ⟨.infinity true, .infinity false⟩ = .ok ⟨.nan, .nan⟩ ∧
    exScaledCx 1 ⟨.nan, 1⟩ = .ok ⟨.nan, .nan⟩ ∧
    exScaledCx 1 ⟨1, .negZero⟩ = .ok ⟨.fin false 1, .fin false 0⟩ := by
  decide +kernel

/-- The hypotheses of `C99_partial` hold for the matrix `[3 - 4i]`, which is kept. -/
example : (Num754.ieee754 .f64).cx 1 = ⟨.fin false 1, .fin false 0⟩ ∧
    (Ex.leaf exOneCx754 : Ex (Cx (Num754 .f64))).Typed ∧
    (∀ b ∈ (Ex.leaf exOneCx754 : Ex (Cx (Num754 .f64))).leaves,
      Sound b (⟨[[⟨.ofRat 3, .ofRat (-4)⟩]]⟩ : Mem (Cx (Num754 .f64)))) ∧
    ((Num754.ieee754 .f64).cx ⟨.ofRat 3, .ofRat (-4)⟩).Kept ∧
    ¬ ((Num754.ieee754 .f64).cx ⟨.infinity false, 0⟩).Kept := by
  refine ⟨rfl, trivial, ?_, .inr ⟨?_, ?_, ?_⟩, ?_⟩
  · simp only [Ex.leaves, List.mem_singleton, forall_eq]
    exact exOneCx754_sound _
  · rintro (_ | _)
    · exact ⟨false, 3, by decide +kernel⟩
    · exact ⟨true, -4, by decide +kernel⟩
  · exact fun h => absurd h (by decide +kernel)
  · exact fun h => absurd h (by decide +kernel)
  · rintro (⟨h, -⟩ | ⟨h, -⟩)
    · cases h
    · exact Datum.not_finite_inf _ (h .re)

/-- Multiplying by the real number 2 (`C99_real`): an infinite real part stays, but makes the imaginary part
NaN. -/
example : exScaledCx ⟨.ofRat 2, 0⟩ ⟨.infinity true, .ofRat 5⟩ = .ok ⟨.inf true, .nan⟩ ∧
    exScaledCx ⟨.ofRat 2, 0⟩ ⟨.ofRat 7, .ofRat 5⟩ = .ok ⟨.fin false 14, .fin false 10⟩ := by
  decide +kernel

/-- A sum keeps the parts apart, a scalar mixes them (`C99_expressions`). -/
example (X : BaseMatrix → Cx (Num754 .f64)) (hX : X exOneCx754 = ⟨.nan, 1⟩) :
    ¬ (Ex.add true true (.leaf exOneCx754) (.leaf exOneCx754)).Feeds
      (fun a => (Num754.ieee754 .f64).datum a ≠ .nan) X .re ∧
    (Ex.add true true (.leaf exOneCx754) (.leaf exOneCx754)).Feeds
      (fun a => (Num754.ieee754 .f64).datum a ≠ .nan) X .im ∧
    ¬ (Ex.scale true true 1 (.leaf exOneCx754)).Feeds
      (fun a => (Num754.ieee754 .f64).datum a ≠ .nan) X .im := by
  refine ⟨fun h => h.1 ?_, ⟨?_, ?_⟩, fun h => h.2.1 ?_⟩
  · simp only [hX]; rfl
  · show (Num754.ieee754 .f64).datum (X exOneCx754).im ≠ .nan; rw [hX]; decide
  · show (Num754.ieee754 .f64).datum (X exOneCx754).im ≠ .nan; rw [hX]; decide
  · simp only [hX]; rfl

/-- `C99_order`: `2i * (a + b)` and `2i * (b + a)`. -/
example (a b : BaseMatrix) : Exchanged (Num754.ieee754 .f64)
    (.scale true true ⟨0, .ofRat 2⟩ (.add true false (.leaf a) (.leaf b)))
    (.scale true true ⟨0, .ofRat 2⟩ (.add false true (.leaf b) (.leaf a))) :=
  .scale rfl .comm

/-- The element of a 1x1 product of complex matrices. -/
def exProductCx754 (alpha beta : Cx (Num754 .f64)) (x y z : Cx (Num754 .f64)) : Out (Cx Datum) := do
  let mem' ← matmul loopKern alpha exRowNum exColNum beta exOneNum
    ⟨[[x, 1, ⟨1, 1⟩], [y, ⟨0, 1⟩, ⟨1, .ofRat (-1)⟩], [z]]⟩
  let v ← exOneNum.get dbg mem' 0 0
  return v.map (·.1)

/-- `C99_matmul`: a NaN in one part of one element makes both parts NaN, and so does an infinite part, which
meets a zero; the kernel of the unit tests is thorough. -/
example : exProductCx754 1 0 ⟨.nan, 0⟩ 1 0 = .ok ⟨.nan, .nan⟩ ∧
    exProductCx754 1 0 ⟨.infinity false, 0⟩ 1 0 = .ok ⟨.nan, .nan⟩ ∧
    exProductCx754 1 0 ⟨1, 1⟩ ⟨.ofRat 2, 1⟩ 0 = .ok ⟨.fin false 3, .fin false 4⟩ ∧
    Thorough (Num754.ieee754 .f64) (Num754.ieee754 .f64).toIeee loopKern :=
  ⟨by decide +kernel, by decide +kernel, by decide +kernel, loopKern_thorough _ _⟩

/-- By `C99_dot` a NaN in an imaginary part makes both parts of the dot product NaN, whatever the kernel
does. -/
example (kern : Kern (Cx (Num754 .f64)))
    (hk : Thorough (Num754.ieee754 .f64) (Num754.ieee754 .f64).toIeee kern) :
    ∃ M mem' v, dot dbg kern .matMat exOneCx754 exOneCx754 ⟨[[⟨0, .nan⟩]]⟩ = .ok (M, mem') ∧
      M.get dbg mem' 0 0 = .ok v ∧ v.re.1 = .nan ∧ v.im.1 = .nan := by
  have hA : Represents exOneCx754 (⟨[[⟨0, .nan⟩]]⟩ : Mem (Cx (Num754 .f64))) (fun _ _ => ⟨0, .nan⟩) := by
    rintro i j ⟨hi, hj, -⟩
    obtain rfl : i = 0 := Nat.lt_one_iff.1 hi
    obtain rfl : j = 0 := Nat.lt_one_iff.1 hj
    rfl
  obtain ⟨M, mem', e, -, h⟩ := C99_dot (Num754.ieee754 .f64) _ (Ieee754.toIeee_refines _) kern hk
    dbg .matMat exOneCx754 exOneCx754 _ (exOneCx754_sound _) (exOneCx754_sound _) trivial trivial rfl trivial
    (by decide) _ _ hA hA
  obtain ⟨v, hv, hc⟩ := h 0 0 Nat.zero_lt_one Nat.zero_lt_one
  obtain ⟨h1, h2⟩ := hc.term_nan 0 Nat.zero_lt_one .im (.inl rfl)
  exact ⟨M, mem', v, e, hv, h1, h2⟩

end Householder.Props
