import Verif.Spec.Laws
import Verif.Lemmas.RoundsUnique
import Verif.Props.Special

/-!
# C98: which laws of algebra hold for expressions with floating-point elements
-/

namespace Householder.Props

open Spec Datum

variable {F : Type} [Add F] [Sub F] [Mul F] {f : Format}

/-- **C98.** The laws of a module (C65) hold for expressions with `f32` or `f64` elements. -/
def C98_statement [Target] : Prop :=
  ∀ (f : Format) (F : Type) [Add F] [Sub F] [Mul F] (S : Ieee754 f F), ModuleLaws S

/-! ## Single elements -/

theorem sum_same (S : Ieee754 f F) {a b a' b' : F} (ha : S.datum a = S.datum a') (hb : S.datum b = S.datum b') :
    S.datum (a + b) = S.datum (a' + b') := by
  have h1 := S.add_datum a b
  rw [ha, hb] at h1
  exact h1.unique (S.add_datum a' b')

theorem mul_same (S : Ieee754 f F) {a b a' b' : F} (ha : S.datum a = S.datum a') (hb : S.datum b = S.datum b') :
    S.datum (a * b) = S.datum (a' * b') := by
  have h1 := S.mul_datum a b
  rw [ha, hb] at h1
  exact h1.unique (S.mul_datum a' b')

theorem sum_comm (S : Ieee754 f F) (a b : F) : S.datum (a + b) = S.datum (b + a) :=
  (S.add_datum a b).unique (S.add_datum b a).symm

theorem one_mul_same (S : Ieee754 f F) {s : F} (hs : S.datum s = .fin false 1) (a : F) :
    S.datum (s * a) = S.datum a := by
  have h := S.mul_datum s a
  rw [hs] at h
  have hp := S.proper a
  cases hd : S.datum a with
  | nan => rw [hd] at h; exact h
  | inf t => rw [hd] at h; simpa [Product] using h
  | fin t x =>
    rw [hd] at h hp
    refine Rounded.unique (f := f) (s := t) (z := x) ?_ (Rounded.of_value hp.1 fun hx => ?_)
    · simpa [Product] using h
    · rcases lt_or_gt_of_ne hx with hx | hx
      · rw [hp.2.1 hx]; simpa using hx
      · rw [hp.2.2 hx]; simpa using hx.le

/-- A factor -1 changes the sign and nothing else. -/
theorem neg_mul_same (S : Ieee754 f F) {s : F} (hs : S.datum s = .fin true (-1)) (a : F) :
    S.datum (s * a) = (S.datum a).opposite := by
  have h := S.mul_datum s a
  rw [hs] at h
  have hp := Exact754.opposite_proper (S.proper a)
  cases hd : S.datum a with
  | nan => rw [hd] at h; exact h
  | inf t => rw [hd] at h; cases t <;> simpa [Product, opposite] using h
  | fin t x =>
    rw [hd] at h hp
    refine Rounded.unique (f := f) (s := !t) (z := -x) ?_ (Rounded.of_value hp.1 fun hx => ?_)
    · cases t <;> simpa [Product] using h
    · rcases lt_or_gt_of_ne hx with hx | hx
      · rw [hp.2.1 hx]; simpa using hx
      · rw [hp.2.2 hx]; simpa using hx.le

theorem opposite_opposite (d : Datum) : d.opposite.opposite = d := by
  cases d <;> simp [opposite]

theorem rounded_opposite {s : Bool} {z : ℚ} {r : Datum} (h : Rounded f s z r) :
    Rounded f (!s) (-z) r.opposite := by
  unfold Rounded at h ⊢
  have hd : z ≠ 0 → (!decide (z < 0)) = decide (-z < 0) := fun hz => by
    rcases lt_or_gt_of_ne hz with hz | hz
    · rw [decide_eq_true hz, decide_eq_false (by linarith)]; rfl
    · rw [decide_eq_false (by linarith), decide_eq_true (by linarith)]; rfl
  rw [abs_neg]
  by_cases hl : |z| < f.limit
  · rw [if_pos hl] at h ⊢
    obtain ⟨y, rfl, hy⟩ := h
    refine ⟨-y, ?_, Format.RoundsTo.neg f hy⟩
    by_cases hz : z = 0
    · rw [if_pos hz, if_pos (by rw [hz, neg_zero])]; rfl
    · rw [if_neg hz, if_neg (neg_ne_zero.2 hz), ← hd hz]; rfl
  · rw [if_neg hl] at h ⊢
    rw [h, ← hd fun hz => hl (by rw [hz, abs_zero]; exact f.limit_pos)]; rfl

theorem product_opposite {a b r : Datum} (h : Product f a b r) : Product f a b.opposite r.opposite := by
  cases a with
  | nan => cases b <;> (obtain rfl : r = nan := h; rfl)
  | inf s =>
    cases b with
    | nan => obtain rfl : r = nan := h; rfl
    | inf t => obtain rfl : r = inf (s != t) := h; cases s <;> cases t <;> rfl
    | fin t y =>
      simp only [Product] at h
      by_cases hy : y = 0
      · rw [if_pos hy] at h
        simp [h, Product, opposite, hy]
      · rw [if_neg hy] at h
        simp only [h, Product, opposite, neg_eq_zero, if_neg hy]
        cases s <;> cases t <;> rfl
  | fin s x =>
    cases b with
    | nan => obtain rfl : r = nan := h; rfl
    | inf t =>
      simp only [Product] at h
      by_cases hx : x = 0
      · rw [if_pos hx] at h
        simp [h, Product, opposite, hx]
      · rw [if_neg hx] at h
        simp only [h, Product, opposite, if_neg hx]
        cases s <;> cases t <;> rfl
    | fin t y =>
      have := rounded_opposite h
      simp only [Product, opposite]
      rw [mul_neg]
      have e : (s != !t) = !(s != t) := by cases s <;> cases t <;> rfl
      rw [e]
      exact this

theorem double_same (S : Ieee754 f F) {s : F} (hs : S.datum s = .fin false 2) (a : F) :
    S.datum (s * a) = S.datum (a + a) := by
  have h := S.mul_datum s a
  have h' := S.add_datum a a
  rw [hs] at h
  cases hd : S.datum a with
  | nan => rw [hd] at h h'; exact Eq.trans h (Eq.symm h')
  | inf t => rw [hd] at h h'; simp [Product, Datum.Sum] at h h'; rw [h, h']
  | fin t x =>
    rw [hd] at h h'
    simp only [Datum.Sum, Product, Bool.and_self, ← two_mul] at h h'
    refine h.unique ?_
    cases t <;> exact h'

/-! ## Expressions -/

theorem rearranged_value (S : Ieee754 f F) {e e' : Ex F} (h : Rearranged S e e') (mem : Mem F) (r c : Nat) :
    (e.value mem r c).map S.datum = (e'.value mem r c).map S.datum := by
  induction h with
  | refl a => rfl
  | symm _ ih => exact ih.symm
  | trans _ _ ih1 ih2 => exact ih1.trans ih2
  | @add _ _ _ _ a b a' b' _ _ ih1 ih2 =>
    simp only [Ex.value]
    cases h1 : a.value mem r c <;> cases h2 : a'.value mem r c <;> rw [h1, h2] at ih1 <;>
      first | (cases ih1; done) | skip
    · rfl
    · cases h3 : b.value mem r c <;> cases h4 : b'.value mem r c <;> rw [h3, h4] at ih2 <;>
        first | (cases ih2; done) | skip
      · rfl
      · exact congrArg some (sum_same S (Option.some.inj ih1) (Option.some.inj ih2))
  | @scale _ _ _ _ s s' a a' hs _ ih =>
    simp only [Ex.value]
    cases h1 : a.value mem r c <;> cases h2 : a'.value mem r c <;> rw [h1, h2] at ih <;>
      first | (cases ih; done) | skip
    · rfl
    · exact congrArg some (mul_same S hs (Option.some.inj ih))
  | ref => rfl
  | @comm _ _ a b =>
    simp only [Ex.value]
    cases a.value mem r c <;> cases b.value mem r c <;> first
      | rfl
      | exact congrArg some (sum_comm S _ _)
  | @one _ _ s a hs =>
    simp only [Ex.value]
    cases a.value mem r c with
    | none => rfl
    | some x => exact congrArg some (one_mul_same S hs x)
  | @negate _ _ _ _ s s' a hs hs' =>
    simp only [Ex.value]
    cases a.value mem r c with
    | none => rfl
    | some x =>
      refine congrArg some ?_
      show S.datum (s * (s' * x)) = S.datum x
      rw [neg_mul_same S hs, neg_mul_same S hs', opposite_opposite]
  | @double _ _ _ _ s a hs =>
    simp only [Ex.value]
    cases a.value mem r c with
    | none => rfl
    | some x => exact congrArg some (double_same S hs x)
  | @past _ _ _ _ s t a hs =>
    simp only [Ex.value]
    cases a.value mem r c with
    | none => rfl
    | some x =>
      refine congrArg some ?_
      show S.datum (s * (t * x)) = S.datum (t * (s * x))
      rw [neg_mul_same S hs]
      have h := product_opposite (S.mul_datum t x)
      rw [← neg_mul_same S hs x] at h
      exact h.unique (S.mul_datum t (s * x))

/-- **C98, what holds.** Exchanging the operands of sums, dropping factors 1 and pairs of factors -1,
writing `a + a` as `2 * a`, moving a factor -1 past another one, anywhere in an expression, changes no
element, not even the sign of a zero, whatever infinities and NaN there are. -/
theorem C98_partial [Target] (S : Ieee754 f F) {e e' : Ex F} (h : Rearranged S e e') : AlikeIn S e e' := by
  intro cfg mem m m' ht ht' hl hl' hb hb' hd hk r c hrc
  obtain ⟨k, hk1⟩ := List.mem_iff_getElem?.1 hrc
  obtain ⟨v, v1, v2, -⟩ := (C35_get1d_get cfg e mem m ht hl hb k).1 r c hk1
  rw [hd, hk] at hk1
  obtain ⟨w, w1, w2, -⟩ := (C35_get1d_get cfg e' mem m' ht' hl' hb' k).1 r c hk1
  have := rearranged_value S h mem r c
  rw [v1, w1] at this
  exact ⟨v, w, v2, w2, Option.some.inj this⟩

/-- **C98, opposites.** `a + (-1) * a` is a matrix of zeros, all positive, except that it is NaN wherever
`a` is infinite or NaN. -/
theorem C98_opposites [Target] (S : Ieee754 f F) (cfg : Cfg) (e : Ex F) (mem : Mem F) (m : Mat F) (s : F)
    (g h g' h' : Bool) (hs : S.datum s = .fin true (-1)) (ht : e.Typed) (hl : ∀ b ∈ e.leaves, Sound b mem)
    (hb : (Ex.add g h e (.scale g' h' s e)).build = .ok m) (r c : Nat) (hrc : (r, c) ∈ orderOf e.kind e.dim) :
    ∃ n v w, e.build = .ok n ∧ n.get cfg mem r c = .ok v ∧ m.get cfg mem r c = .ok w ∧
      ((S.datum v).IsFinite → S.datum w = .fin false 0) ∧ (¬ (S.datum v).IsFinite → S.datum w = .nan) := by
  have ht2 : (Ex.add g h e (.scale g' h' s e)).Typed := ⟨ht, ht, rfl, rfl⟩
  have hl2 : ∀ b ∈ (Ex.add g h e (.scale g' h' s e)).leaves, Sound b mem := by
    intro b hb
    rcases List.mem_append.1 hb with hb | hb <;> exact hl b hb
  obtain ⟨n, hn, -⟩ := (e.build_spec ht).1 (conform_of_build ht2 hb).1
  obtain ⟨k, hk1⟩ := List.mem_iff_getElem?.1 hrc
  obtain ⟨v, v1, v2, -⟩ := (C35_get1d_get cfg e mem n ht hl hn k).1 r c hk1
  obtain ⟨w, w1, w2, -⟩ := (C35_get1d_get cfg _ mem m ht2 hl2 hb k).1 r c hk1
  refine ⟨n, v, w, hn, v2, w2, ?_⟩
  have hw : w = v + s * v := by
    simp only [Ex.value] at w1
    rw [v1] at w1
    exact (Option.some.inj w1).symm
  have h1 := S.add_datum v (s * v)
  rw [neg_mul_same S hs, ← hw] at h1
  refine ⟨fun ⟨t, x, e⟩ => ?_, fun hn => ?_⟩
  · rw [e] at h1
    simp only [opposite, Datum.Sum, add_neg_cancel, Bool.and_not_self] at h1
    exact h1.unique (Rounded.of_value f.value_zero fun h => absurd rfl h)
  · rcases inf_of_not_finite hn with e | e
    · rw [e] at h1; exact h1
    · rw [e] at h1
      simp only [opposite, Datum.Sum] at h1
      rw [if_neg (by cases (S.datum v).negative <;> simp)] at h1
      exact h1

/-- **C98, zeros.** Adding `0 * b` gives NaN wherever `b` is infinite or NaN; elsewhere it changes nothing,
except that a negative zero may become positive. -/
theorem C98_zeros [Target] (S : Ieee754 f F) (cfg : Cfg) (e e' : Ex F) (mem : Mem F) (m : Mat F) (s : F)
    (g h g' h' : Bool) (hs : S.datum s = .fin false 0) (ht : (Ex.add g h e (.scale g' h' s e')).Typed)
    (hl : ∀ b ∈ e.leaves, Sound b mem) (hl' : ∀ b ∈ e'.leaves, Sound b mem)
    (hb : (Ex.add g h e (.scale g' h' s e')).build = .ok m) (r c : Nat)
    (hrc : (r, c) ∈ orderOf e.kind e.dim) :
    ∃ n n' v v' w, e.build = .ok n ∧ e'.build = .ok n' ∧ n.get cfg mem r c = .ok v ∧
      n'.get cfg mem r c = .ok v' ∧ m.get cfg mem r c = .ok w ∧
      (¬ (S.datum v').IsFinite → S.datum w = .nan) ∧
      ((S.datum v').IsFinite → S.datum v ≠ .fin true 0 → S.datum w = S.datum v) ∧
      ((S.datum v').IsFinite → S.datum v = .fin true 0 → S.datum w = .fin (S.datum v').negative 0) := by
  obtain ⟨t1, t2, t3, t4⟩ := ht
  obtain ⟨c1, c2, c3⟩ := conform_of_build (e := Ex.add g h e (.scale g' h' s e')) ⟨t1, t2, t3, t4⟩ hb
  have hl2 : ∀ b ∈ (Ex.add g h e (.scale g' h' s e')).leaves, Sound b mem := by
    intro b hb
    rcases List.mem_append.1 hb with hb | hb
    · exact hl b hb
    · exact hl' b hb
  obtain ⟨n, hn, -⟩ := (e.build_spec t1).1 c1
  obtain ⟨n', hn', -⟩ := (e'.build_spec t2).1 c2
  obtain ⟨k, hk1⟩ := List.mem_iff_getElem?.1 hrc
  have hk2 : (orderOf e'.kind e'.dim)[k]? = some (r, c) := by
    rw [show e'.kind = e.kind from t3.symm, show e'.dim = e.dim from c3.symm]; exact hk1
  obtain ⟨v, v1, v2, -⟩ := (C35_get1d_get cfg e mem n t1 hl hn k).1 r c hk1
  have ht2 : (Ex.add g h e (.scale g' h' s e')).Typed := ⟨t1, t2, t3, t4⟩
  obtain ⟨v', v1', v2', -⟩ := (C35_get1d_get cfg e' mem n' t2 hl' hn' k).1 r c hk2
  obtain ⟨w, w1, w2, -⟩ := (C35_get1d_get cfg _ mem m ht2 hl2 hb k).1 r c hk1
  refine ⟨n, n', v, v', w, hn, hn', v2, v2', w2, ?_⟩
  have hw : w = v + s * v' := by
    simp only [Ex.value] at w1
    rw [v1, v1'] at w1
    exact (Option.some.inj w1).symm
  have h1 := S.mul_datum s v'
  have h2 := S.add_datum v (s * v')
  rw [hs] at h1
  rw [← hw] at h2
  have hz : (S.datum v').IsFinite → S.datum (s * v') = .fin (S.datum v').negative 0 := by
    rintro ⟨t, x, e⟩
    rw [e] at h1 ⊢
    simp only [Product, zero_mul, Bool.false_bne] at h1
    exact h1.unique (Rounded.of_value f.value_zero fun h => absurd rfl h)
  refine ⟨fun hn => ?_, fun hf hv => ?_, fun hf hv => ?_⟩
  · have : S.datum (s * v') = .nan := product_invalid h1 (by
      rcases inf_of_not_finite hn with e | e
      · exact .inr (.inl e)
      · exact .inr (.inr (.inr ⟨⟨_, rfl⟩, _, e⟩)))
    rw [this] at h2
    exact sum_nan_right h2
  · rw [hz hf] at h2
    have hp := S.proper v
    cases hd : S.datum v with
    | nan => rw [hd] at h2; exact h2
    | inf t => rw [hd] at h2; exact h2
    | fin t x =>
      rw [hd] at h2 hp hv
      simp only [Datum.Sum, add_zero] at h2
      have key : Rounded f (t && (S.datum v').negative) x (.fin t x) := by
        by_cases hx : x = 0
        · subst hx
          have : t = false := by
            cases t
            · rfl
            · exact absurd rfl hv
          subst this
          exact Rounded.of_value f.value_zero fun h => absurd rfl h
        · have h3 : t = decide (x < 0) := by
            rcases lt_or_gt_of_ne hx with hx | hx
            · rw [hp.2.1 hx]; simpa using hx
            · rw [hp.2.2 hx]; simpa using hx.le
          have := Rounded.of_value (f := f) (s := t) hp.1 fun _ => h3
          unfold Rounded at this ⊢
          rw [if_neg hx] at this ⊢
          exact this
      exact h2.unique key
  · rw [hz hf, hv] at h2
    simp only [Datum.Sum, add_zero, Bool.true_and] at h2
    exact h2.unique (Rounded.of_value f.value_zero fun h => absurd rfl h)

/-- **C98, whole numbers.** Two expressions over the same elements with the same exact value have the same
number there, if all numbers are whole and no operation exceeds `2^p` in either: then sums may be
reassociated and scalars collected and distributed as in C65. -/
theorem C98_whole [Target] [Zero F] (S : Ieee754 f F) (cfg : Cfg) (e e' : Ex F) (mem : Mem F) (m m' : Mat F)
    (ht : e.Typed) (ht' : e'.Typed) (hl : ∀ b ∈ e.leaves, Sound b mem) (hl' : ∀ b ∈ e'.leaves, Sound b mem)
    (hb : e.build = .ok m) (hb' : e'.build = .ok m') (r c : Nat) (hrc : (r, c) ∈ orderOf e.kind e.dim)
    (hrc' : (r, c) ∈ orderOf e'.kind e'.dim) (X : BaseMatrix → F)
    (hX : ∀ b ∈ e.leaves, b.get cfg mem r c = .ok (X b)) (hX' : ∀ b ∈ e'.leaves, b.get cfg mem r c = .ok (X b))
    (R : Ieee f F) (hR : S.Refines R)
    (hw : (e.operations X).Whole R) (hw' : (e'.operations X).Whole R)
    (hs : (e.operations X).Every fun s => s.magnitude R ≤ 2 ^ f.p)
    (hs' : (e'.operations X).Every fun s => s.magnitude R ≤ 2 ^ f.p)
    (he : (e.operations X).exact R = (e'.operations X).exact R) :
    ∃ v v', m.get cfg mem r c = .ok v ∧ m'.get cfg mem r c = .ok v' ∧
      (S.datum v).val = (S.datum v').val ∧ (S.datum v).val = some ((e.operations X).exact R) := by
  obtain ⟨v, v1, -, -, -, v2⟩ := C80_expressions R cfg e mem m ht hl hb r c hrc X hX
  obtain ⟨w, w1, -, -, -, w2⟩ := C80_expressions R cfg e' mem m' ht' hl' hb' r c hrc' X hX'
  have g1 := v2 hw hs
  have g2 := w2 hw' hs'
  rw [hR.val] at g1 g2
  exact ⟨v, w, v1, w1, by rw [g1, g2, he], g1⟩

/-! ## What does not hold -/

/-- Matrices of one element. -/
def exOne754 (n : Nat) : Ex (Num754 .f64) := .leaf ⟨⟨n, 0, 1⟩, .rowMajor ⟨(1, 1)⟩, .dynamic, .dynamic⟩

/-- Three matrices of one element. -/
def exThree754 (x y z : Num754 .f64) : Mem (Num754 .f64) := ⟨[[x], [y], [z]]⟩

/-- The element of an expression. -/
def exElement [Target] (e : Ex (Num754 .f64)) (mem : Mem (Num754 .f64)) : Out Datum := do
  let m ← e.build
  let v ← m.get dbg mem 0 0
  return v.1

/-- Large numbers. -/
def exBig754 : Num754 .f64 := .ofRat (2 ^ 600)
@[inherit_doc exBig754]
def exBigNeg754 : Num754 .f64 := .ofRat (-2 ^ 600)

/-- A law fails if the two sides differ for some matrices of one element. -/
theorem not_alike [Target] {e e' : Ex (Num754 .f64)} {x y z : Num754 .f64} {d d' : Datum}
    (ht : e.Typed) (ht' : e'.Typed) (hl : ∀ b ∈ e.leaves, Ex.leaf b ∈ [exOne754 0, exOne754 1, exOne754 2])
    (hl' : ∀ b ∈ e'.leaves, Ex.leaf b ∈ [exOne754 0, exOne754 1, exOne754 2])
    (hd : e.dim = e'.dim) (hk : e.kind = e'.kind) (ho : (0, 0) ∈ orderOf e.kind e.dim)
    (h : exElement e (exThree754 x y z) = .ok d) (h' : exElement e' (exThree754 x y z) = .ok d')
    (hne : d ≠ d') : ¬ AlikeIn (Num754.ieee754 .f64) e e' := by
  intro H
  have sound : ∀ b : BaseMatrix, (Ex.leaf b : Ex (Num754 .f64)) ∈ [exOne754 0, exOne754 1, exOne754 2] →
      Sound b (exThree754 x y z) := by
    intro b hb
    simp only [List.mem_cons, exOne754, Ex.leaf.injEq, List.not_mem_nil, or_false] at hb
    rcases hb with rfl | rfl | rfl
    · exact sound_of_contiguous trivial ⟨by show 0 + 1 ≤ 1; omega, by show 1 * 4 ≤ isizeMax; have := isizeMax_ge; omega⟩ (by decide_width)
    · exact sound_of_contiguous trivial ⟨by show 0 + 1 ≤ 1; omega, by show 1 * 4 ≤ isizeMax; have := isizeMax_ge; omega⟩ (by decide_width)
    · exact sound_of_contiguous trivial ⟨by show 0 + 1 ≤ 1; omega, by show 1 * 4 ≤ isizeMax; have := isizeMax_ge; omega⟩ (by decide_width)
  unfold exElement at h h'
  cases hm : e.build with
  | panic => rw [hm] at h; cases h
  | ub => rw [hm] at h; cases h
  | ok m =>
    cases hm' : e'.build with
    | panic => rw [hm'] at h'; cases h'
    | ub => rw [hm'] at h'; cases h'
    | ok m' =>
      obtain ⟨v, v', e1, e2, e3⟩ := H dbg (exThree754 x y z) m m' ht ht' (fun b hb => sound b (hl b hb))
        (fun b hb => sound b (hl' b hb)) hm hm' hd hk 0 0 ho
      rw [hm] at h
      rw [hm'] at h'
      change (do let v ← m.get dbg (exThree754 x y z) 0 0; return v.1) = Out.ok d at h
      change (do let v ← m'.get dbg (exThree754 x y z) 0 0; return v.1) = Out.ok d' at h'
      rw [e1] at h
      rw [e2] at h'
      have g : v.1 = d := by cases h; rfl
      have g' : v'.1 = d' := by cases h'; rfl
      exact hne (g.symm.trans (Eq.trans e3 g'))

/-- **C98, what does not hold.** In `f64`: sums may not be reassociated, factors not collected, not
distributed over sums (not even the factor -1, which changes the sign of a zero) nor over matrices, and
`0 * b` may not be dropped. -/
theorem C98_false [Target] : ¬ C98_statement ∧
    (∃ a b c, ¬ AlikeIn (Num754.ieee754 .f64) (.add true true (.add true true a b) c)
      (.add true true a (.add true true b c))) ∧
    (∃ s t a, ¬ AlikeIn (Num754.ieee754 .f64) (.scale true true s (.scale true true t a))
      (.scale true true (s * t) a)) ∧
    (∃ s a b, s.1 = .fin true (-1) ∧ ¬ AlikeIn (Num754.ieee754 .f64) (.scale true true s (.add true true a b))
      (.add true true (.scale true true s a) (.scale true true s b))) ∧
    (∃ s t a, ¬ AlikeIn (Num754.ieee754 .f64) (.scale true true (s + t) a)
      (.add true true (.scale true true s a) (.scale true true t a))) ∧
    (∃ s a b, s.1 = .fin false 0 ∧ ¬ AlikeIn (Num754.ieee754 .f64)
      (.add true true a (.scale true true s b)) a) := by
  have assoc : ¬ AlikeIn (Num754.ieee754 .f64)
      (.add true true (.add true true (exOne754 0) (exOne754 1)) (exOne754 2))
      (.add true true (exOne754 0) (.add true true (exOne754 1) (exOne754 2))) :=
    not_alike (x := .ofRat (2 ^ 60)) (y := .ofRat (-2 ^ 60)) (z := 1) (d := .fin false 1) (d' := .fin false 0)
      ⟨⟨trivial, trivial, rfl, rfl⟩, trivial, rfl, rfl⟩ ⟨trivial, ⟨trivial, trivial, rfl, rfl⟩, rfl, rfl⟩
      (by simp [Ex.leaves, exOne754]) (by simp [Ex.leaves, exOne754]) (by simp only [Ex.dim])
      (by simp only [Ex.kind]) (by decide)
      (by decide_width_kernel) (by decide_width_kernel) (by decide)
  refine ⟨fun H => assoc ((H .f64 (Num754 .f64) (Num754.ieee754 .f64)).assoc _ _ _), ⟨_, _, _, assoc⟩,
    ⟨exBig754, exBig754, exOne754 0, ?_⟩,
    ⟨.ofRat (-1), exOne754 0, exOne754 1, by decide +kernel, ?_⟩,
    ⟨exBig754, exBigNeg754, exOne754 0, ?_⟩, ⟨0, exOne754 0, exOne754 1, rfl, ?_⟩⟩
  · exact not_alike (x := 0) (y := 0) (z := 0) (d := .fin false 0) (d' := .nan) trivial trivial
      (by simp [Ex.leaves, exOne754]) (by simp [Ex.leaves, exOne754]) (by simp only [Ex.dim])
      (by simp only [Ex.kind]) (by decide)
      (by decide_width_kernel) (by decide_width_kernel) (by decide)
  · exact not_alike (x := 1) (y := .ofRat (-1)) (z := 0) (d := .fin true 0) (d' := .fin false 0)
      ⟨trivial, trivial, rfl, rfl⟩ ⟨trivial, trivial, rfl, rfl⟩
      (by simp [Ex.leaves, exOne754]) (by simp [Ex.leaves, exOne754]) (by simp only [Ex.dim])
      (by simp only [Ex.kind]) (by decide)
      (by decide_width_kernel) (by decide_width_kernel) (by decide)
  · exact not_alike (x := exBig754) (y := 0) (z := 0) (d := .fin false 0) (d' := .nan)
      trivial ⟨trivial, trivial, by simp only [Ex.kind], by simp only [Ex.sizes]⟩
      (by simp [Ex.leaves, exOne754]) (by simp [Ex.leaves, exOne754]) (by simp only [Ex.dim])
      (by simp only [Ex.kind]) (by decide)
      (by decide_width_kernel) (by decide_width_kernel) (by decide)
  · exact not_alike (x := 1) (y := .infinity false) (z := 0) (d := .nan) (d' := .fin false 1)
      ⟨trivial, trivial, rfl, rfl⟩ trivial
      (by simp [Ex.leaves, exOne754]) (by simp [Ex.leaves, exOne754]) (by simp only [Ex.dim])
      (by simp only [Ex.kind]) (by decide)
      (by decide_width_kernel) (by decide_width_kernel) (by decide)

/-! ## Examples -/

/-- `C98_partial`: `-1 * (b + (-1 * a))` may be written `-1 * (-1 * a + b)`, and `2 * a` as `a + a`. -/
example [Target] (s t : Num754 .f64) (hs : s.1 = .fin false 2) (a b : Ex (Num754 .f64)) :
    AlikeIn (Num754.ieee754 .f64) (.add true false b (.scale true false s (.scale true false t a)))
      (.add false true (.add true true (.scale true false t a) (.scale true false t a)) b) :=
  C98_partial _ (.trans .comm (.add (.double hs) (.refl _)))

/-- The hypotheses of `C98_opposites` and its two cases: `a + (-1) * a` for -3 and for an infinity. -/
example : exElement (.add true true (exOne754 0) (.scale true true (.ofRat (-1)) (exOne754 0)))
      (exThree754 (.ofRat (-3)) 0 0) = .ok (.fin false 0) ∧
    exElement (.add true true (exOne754 0) (.scale true true (.ofRat (-1)) (exOne754 0)))
      (exThree754 (.infinity true) 0 0) = .ok .nan ∧
    (Num754.ieee754 .f64).datum (.ofRat (-1)) = .fin true (-1) ∧ (exOne754 0).Typed ∧
    (0, 0) ∈ orderOf (exOne754 0).kind (exOne754 0).dim := by
  refine ⟨by decide +kernel, by decide +kernel, by decide +kernel, trivial, by decide⟩

/-- The three cases of `C98_zeros`: `a + 0 * b`, where `b` is infinite, where `a` is not `-0`, and where it
is. -/
example : exElement (.add true true (exOne754 0) (.scale true true 0 (exOne754 1)))
      (exThree754 1 (.infinity true) 0) = .ok .nan ∧
    exElement (.add true true (exOne754 0) (.scale true true 0 (exOne754 1)))
      (exThree754 (.ofRat (-7)) (.ofRat 5) 0) = .ok (.fin true (-7)) ∧
    exElement (.add true true (exOne754 0) (.scale true true 0 (exOne754 1)))
      (exThree754 .negZero (.ofRat 5) 0) = .ok (.fin false 0) ∧
    exElement (.add true true (exOne754 0) (.scale true true 0 (exOne754 1)))
      (exThree754 .negZero (.ofRat (-5)) 0) = .ok (.fin true 0) := by
  decide +kernel

/-- The hypotheses of `C98_whole`: `(a + b) + b` and `a + 2 * b` for whole numbers. -/
example (R : Ieee .f64 (Num754 .f64)) (hR : (Num754.ieee754 .f64).Refines R) :
    let e : Ex (Num754 .f64) := .add true true (.add true true (exOne754 0) (exOne754 1)) (exOne754 1)
    let e' : Ex (Num754 .f64) := .add true true (exOne754 0) (.scale true true (.ofRat 2) (exOne754 1))
    let X : BaseMatrix → Num754 .f64 := fun b => if b.data.buf = 0 then .ofRat 3 else .ofRat 4
    (e.operations X).Whole R ∧ (e'.operations X).Whole R ∧
      (e.operations X).exact R = 11 ∧ (e'.operations X).exact R = 11 ∧
      (e.operations X).magnitude R = 11 ∧ (e'.operations X).magnitude R = 11 := by
  have h2 : R.val (.ofRat 2) = some 2 := by rw [hR.val]; decide +kernel
  have h3 : R.val (.ofRat 3) = some 3 := by rw [hR.val]; decide +kernel
  have h4 : R.val (.ofRat 4) = some 4 := by rw [hR.val]; decide +kernel
  refine ⟨⟨⟨⟨3, by simpa using h3⟩, ⟨4, by simpa using h4⟩⟩, ⟨4, by simpa using h4⟩⟩,
    ⟨⟨3, by simpa using h3⟩, ⟨2, by simpa using h2⟩, ⟨4, by simpa using h4⟩⟩, ?_, ?_, ?_, ?_⟩ <;>
  simp [exOne754, Ex.operations, Fp.exact, Fp.magnitude, h2, h3, h4] <;> norm_num

end Householder.Props
