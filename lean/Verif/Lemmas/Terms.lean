import Verif.Spec.Terms
import Verif.Lemmas.Fp
import Mathlib.Algebra.BigOperators.Ring.Multiset

/-!
# Terms of trees
-/

namespace Householder.Spec

variable {F : Type} [Add F] [Sub F] [Mul F] {f : Format}

namespace Terms

theorem sum_add (s t : Terms) : (s + t).sum = s.sum + t.sum := Multiset.sum_add _ _

theorem sum_sub (s t : Terms) : (s - t).sum = s.sum - t.sum := by
  show (s.of + t.of.map (- ·)).sum = _
  rw [Multiset.sum_add, Multiset.sum_map_neg, ← sub_eq_add_neg, Multiset.map_id']
  rfl

theorem sum_mul (s t : Terms) : (s * t).sum = s.sum * t.sum := by
  show (s.of.bind fun x => t.of.map (x * ·)).sum = _
  rw [Multiset.sum_bind]
  have : ∀ x, (t.of.map (x * ·)).sum = x * t.of.sum := fun x => by
    rw [Multiset.sum_map_mul_left, Multiset.map_id']
  simp only [this]
  rw [Multiset.sum_map_mul_right, Multiset.map_id']
  rfl

theorem sum_one (x : ℚ) : (one x).sum = x := Multiset.sum_singleton x

theorem size_add (s t : Terms) : (s + t).size = s.size + t.size := by
  show ((s.of + t.of).map _).sum = _
  rw [Multiset.map_add, Multiset.sum_add]
  rfl

theorem size_sub (s t : Terms) : (s - t).size = s.size + t.size := by
  show ((s.of + t.of.map (- ·)).map _).sum = _
  rw [Multiset.map_add, Multiset.sum_add, Multiset.map_map]
  simp only [Function.comp_def, abs_neg]
  rfl

theorem size_mul (s t : Terms) : (s * t).size = s.size * t.size := by
  show ((s.of.bind fun x => t.of.map (x * ·)).map _).sum = _
  rw [Multiset.map_bind, Multiset.sum_bind]
  simp only [Multiset.map_map, Function.comp_def, abs_mul, Multiset.sum_map_mul_left,
    Multiset.sum_map_mul_right]
  rfl

theorem size_one (x : ℚ) : (one x).size = |x| := Multiset.sum_singleton _

theorem sum_zero : (0 : Terms).sum = 0 := rfl

theorem size_zero : (0 : Terms).size = 0 := rfl

theorem sum_nonzero (s : Terms) : s.nonzero.sum = s.sum := by
  obtain ⟨s⟩ := s
  induction s using Multiset.induction with
  | empty => rfl
  | cons a s ih =>
    simp only [nonzero, sum] at ih ⊢
    by_cases h : a = 0
    · rw [Multiset.filter_cons_of_neg (p := (· ≠ 0)) _ (by simpa using h), ih, Multiset.sum_cons, h, zero_add]
    · rw [Multiset.filter_cons_of_pos (p := (· ≠ 0)) _ h, Multiset.sum_cons, Multiset.sum_cons, ih]

theorem size_nonzero (s : Terms) : (s.nonzero.map (|·|)).sum = s.size := by
  obtain ⟨s⟩ := s
  induction s using Multiset.induction with
  | empty => rfl
  | cons a s ih =>
    simp only [nonzero, size] at ih ⊢
    by_cases h : a = 0
    · rw [Multiset.filter_cons_of_neg (p := (· ≠ 0)) _ (by simpa using h), ih, Multiset.map_cons, Multiset.sum_cons, h,
        abs_zero, zero_add]
    · rw [Multiset.filter_cons_of_pos (p := (· ≠ 0)) _ h, Multiset.map_cons, Multiset.map_cons, Multiset.sum_cons,
        Multiset.sum_cons, ih]

theorem ext_of {s t : Terms} (h : s.of = t.of) : s = t := by cases s; cases t; simpa using h

theorem add_comm' (s t : Terms) : s + t = t + s := ext_of (add_comm _ _)

theorem add_assoc' (s t r : Terms) : s + t + r = s + (t + r) := ext_of (add_assoc _ _ _)

theorem zero_add' (s : Terms) : 0 + s = s := ext_of (zero_add _)

theorem one_mul_one (x y : ℚ) : one x * one y = one (x * y) := ext_of (by
  show ({x} : Multiset ℚ).bind _ = _
  rw [Multiset.singleton_bind]
  rfl)

theorem nonzero_add (s t : Terms) : (s + t).nonzero = s.nonzero + t.nonzero :=
  Multiset.filter_add _ _ _

end Terms

namespace Fp

theorem terms_sum (R : Ieee f F) (t : Fp F) : (t.terms R).sum = t.exact R := by
  induction t with
  | lit a => exact Terms.sum_one _
  | add s t h1 h2 => simp only [terms, Terms.sum_add, h1, h2, exact]
  | sub s t h1 h2 => simp only [terms, Terms.sum_sub, h1, h2, exact]
  | mul s t h1 h2 => simp only [terms, Terms.sum_mul, h1, h2, exact]
  | fma s t r h1 h2 h3 => simp only [terms, Terms.sum_mul, Terms.sum_add, h1, h2, h3, exact]

theorem terms_size (R : Ieee f F) (t : Fp F) : (t.terms R).size = t.magnitude R := by
  induction t with
  | lit a => exact Terms.size_one _
  | add s t h1 h2 => simp only [terms, Terms.size_add, h1, h2, magnitude]
  | sub s t h1 h2 => simp only [terms, Terms.size_sub, h1, h2, magnitude]
  | mul s t h1 h2 => simp only [terms, Terms.size_mul, h1, h2, magnitude]
  | fma s t r h1 h2 h3 => simp only [terms, Terms.size_mul, Terms.size_add, h1, h2, h3, magnitude]

theorem Every.size {R : Ieee f F} {n : ℕ} {L : ℚ} {t : Fp F} (hf : t.Whole R)
    (h : t.Every fun s => s.roundings ≤ n ∧ s.reach R ≤ L) (hL : L ≤ 2 ^ f.p) :
    R.val (t.run R) = some (t.exact R) :=
  run_whole R t hf (h.mono fun s hs => ((magnitude_le R s).trans hs.2).trans hL)

/-- **What algorithms achieve**. -/
theorem Algorithm.within {R : Ieee f F} {xs : List ℚ} {ts : Terms} {n : ℕ} {U L : ℚ} {t : Fp F}
    (h : t.Algorithm R xs ts n U L) : f.Within xs ts.sum ts.size n U L (R.val (t.run R)) := by
  have hx : t.exact R = ts.sum := by
    rw [← terms_sum, ← Terms.sum_nonzero, h.terms, Terms.sum_nonzero]
  have hm : t.magnitude R = ts.size := by
    rw [← terms_size, ← Terms.size_nonzero, h.terms, Terms.size_nonzero]
  refine ⟨fun q hq => ?_, fun hl => ?_, fun hw hl => ?_⟩
  · have e := error R t q hq
    rw [hx] at e
    have e1 : (1 + f.u) ^ t.roundings * t.reach R ≤ (1 + f.u) ^ n * (ts.size + U * f.eta) :=
      mul_le_mul (factor_mono f h.roundings) (hm ▸ h.underflow) (reach_nonneg R t)
        (by have := one_le_factor f n; linarith)
    rw [hm] at e
    unfold Format.algorithmError
    linarith
  · refine finite R t (h.literals.mono ?_) (h.every.mono ?_)
    · rintro a ⟨x, -, h | h⟩ <;> simp [h]
    · rintro s ⟨h1, h2⟩
      exact (mul_le_mul (factor_mono f h1) h2 (reach_nonneg R s)
        (by have := one_le_factor f n; linarith)).trans_lt hl
  · rw [← hx]
    refine Every.size (h.literals.mono ?_) h.every hl
    rintro a ⟨x, hx, ha⟩
    obtain ⟨m, rfl⟩ : ∃ m : ℤ, x = m := by
      rcases List.mem_cons.1 hx with rfl | hx
      · exact ⟨0, by simp⟩
      rcases List.mem_cons.1 hx with rfl | hx
      · exact ⟨1, by simp⟩
      exact hw x hx
    rcases ha with ha | ha
    · exact ⟨m, ha⟩
    · exact ⟨-m, by rw [ha]; push_cast; rfl⟩

end Fp

/-! ## Sums of the terms of products -/

theorem sum_range_list (k : ℕ) (g : ℕ → ℚ) :
    ((List.range k).map g).sum = ∑ l ∈ Finset.range k, g l := by
  induction k with
  | zero => rfl
  | succ k ih => rw [List.range_succ, List.map_append, List.sum_append, ih, Finset.sum_range_succ]; simp

theorem productTerms_sum (alpha : ℚ) (A B : Arr ℚ) (beta : ℚ) (C : Arr ℚ) (k i j : ℕ) :
    (productTerms alpha (pairsAt A B k i j) beta (C i j)).sum = productAt alpha A B beta C k i j ∧
    (productTerms alpha (pairsAt A B k i j) beta (C i j)).size = sizeAt alpha A B beta C k i j := by
  have key : ∀ ps : List (ℚ × ℚ),
      ((ps.map fun p : ℚ × ℚ => Terms.one alpha * Terms.one p.1 * Terms.one p.2).foldr (· + ·) 0).sum =
        alpha * (ps.map fun p => p.1 * p.2).sum ∧
      ((ps.map fun p : ℚ × ℚ => Terms.one alpha * Terms.one p.1 * Terms.one p.2).foldr (· + ·) 0).size =
        |alpha| * (ps.map fun p => |p.1| * |p.2|).sum := by
    intro ps
    induction ps with
    | nil => simp [Terms.sum_zero, Terms.size_zero]
    | cons p ps ih =>
      simp only [List.map_cons, List.foldr_cons, Terms.sum_add, Terms.size_add, ih, Terms.sum_mul,
        Terms.size_mul, Terms.sum_one, Terms.size_one, List.sum_cons]
      constructor <;> ring
  obtain ⟨k1, k2⟩ := key (pairsAt A B k i j)
  simp only [productTerms, Terms.sum_add, Terms.size_add, k1, k2, Terms.sum_mul, Terms.size_mul,
    Terms.sum_one, Terms.size_one]
  simp only [pairsAt, List.map_map, Function.comp_def, sum_range_list]
  exact ⟨rfl, rfl⟩

namespace Cx

variable {G : Type} [Add G] [Sub G] [Mul G]

omit [Sub G] [Mul G] in
theorem add_re (a b : Cx G) : (a + b).re = a.re + b.re := rfl
omit [Sub G] [Mul G] in
theorem add_im (a b : Cx G) : (a + b).im = a.im + b.im := rfl
theorem mul_re (a b : Cx G) : (a * b).re = a.re * b.re - a.im * b.im := rfl
theorem mul_im (a b : Cx G) : (a * b).im = a.re * b.im + a.im * b.re := rfl
omit [Add G] [Sub G] [Mul G] in
theorem map_re {H : Type} (g : G → H) (a : Cx G) : (a.map g).re = g a.re := rfl
omit [Add G] [Sub G] [Mul G] in
theorem map_im {H : Type} (g : G → H) (a : Cx G) : (a.map g).im = g a.im := rfl

end Cx

/-- The terms of `Σ alpha * a * b`. -/
def cxSumTerms (alpha : Cx ℚ) (ps : List (Cx ℚ × Cx ℚ)) : Cx Terms :=
  (ps.map fun p => alpha.map .one * p.1.map .one * p.2.map .one).foldr (· + ·) ⟨0, 0⟩

theorem cxProductTerms_eq (alpha : Cx ℚ) (ps : List (Cx ℚ × Cx ℚ)) (beta c : Cx ℚ) :
    cxProductTerms alpha ps beta c = cxSumTerms alpha ps + beta.map .one * c.map .one := rfl

theorem cxSumTerms_cons (alpha : Cx ℚ) (p : Cx ℚ × Cx ℚ) (ps : List (Cx ℚ × Cx ℚ)) :
    cxSumTerms alpha (p :: ps) =
      alpha.map .one * p.1.map .one * p.2.map .one + cxSumTerms alpha ps := rfl

theorem cxSumTerms_sum (alpha : Cx ℚ) (ps : List (Cx ℚ × Cx ℚ)) :
    (cxSumTerms alpha ps).re.sum = alpha.re * (ps.map fun p => (p.1 * p.2).re).sum -
      alpha.im * (ps.map fun p => (p.1 * p.2).im).sum ∧
    (cxSumTerms alpha ps).im.sum = alpha.re * (ps.map fun p => (p.1 * p.2).im).sum +
      alpha.im * (ps.map fun p => (p.1 * p.2).re).sum := by
  induction ps with
  | nil => exact ⟨by simp [cxSumTerms, Terms.sum_zero], by simp [cxSumTerms, Terms.sum_zero]⟩
  | cons p ps ih =>
    simp only [cxSumTerms_cons, Cx.add_re, Cx.add_im, Terms.sum_add, ih, Cx.mul_re, Cx.mul_im, Cx.map_re,
      Cx.map_im, Terms.sum_sub, Terms.sum_mul, Terms.sum_one, List.map_cons, List.sum_cons]
    constructor <;> ring

theorem cxSumTerms_size (alpha : Cx ℚ) (ps : List (Cx ℚ × Cx ℚ)) :
    (cxSumTerms alpha ps).re.size = |alpha.re| * (ps.map fun p => (p.1.sizeMul p.2).re).sum +
      |alpha.im| * (ps.map fun p => (p.1.sizeMul p.2).im).sum ∧
    (cxSumTerms alpha ps).im.size = |alpha.re| * (ps.map fun p => (p.1.sizeMul p.2).im).sum +
      |alpha.im| * (ps.map fun p => (p.1.sizeMul p.2).re).sum := by
  induction ps with
  | nil => exact ⟨by simp [cxSumTerms, Terms.size_zero], by simp [cxSumTerms, Terms.size_zero]⟩
  | cons p ps ih =>
    simp only [cxSumTerms_cons, Cx.add_re, Cx.add_im, Terms.size_add, ih, Cx.mul_re, Cx.mul_im, Cx.map_re,
      Cx.map_im, Terms.size_sub, Terms.size_mul, Terms.size_one, List.map_cons, List.sum_cons,
      Cx.sizeMul]
    constructor <;> ring

theorem cxSumTerms_size' (alpha : Cx ℚ) (ps : List (Cx ℚ × Cx ℚ)) :
    (cxSumTerms alpha ps).re.size = (ps.map fun p => ((alpha.sizeMul p.1).sizeMul p.2).re).sum ∧
    (cxSumTerms alpha ps).im.size = (ps.map fun p => ((alpha.sizeMul p.1).sizeMul p.2).im).sum := by
  have abs2 : ∀ a b c d : ℚ, |(|a| * |b| + |c| * |d|)| = |a| * |b| + |c| * |d| := fun a b c d =>
    abs_of_nonneg (by positivity)
  induction ps with
  | nil => exact ⟨by simp [cxSumTerms, Terms.size_zero], by simp [cxSumTerms, Terms.size_zero]⟩
  | cons p ps ih =>
    simp only [cxSumTerms_cons, Cx.add_re, Cx.add_im, Terms.size_add, ih, Cx.mul_re, Cx.mul_im, Cx.map_re,
      Cx.map_im, Terms.size_sub, Terms.size_mul, Terms.size_one, List.map_cons, List.sum_cons,
      Cx.sizeMul, abs2, and_self]

theorem cxProductTerms_sum (alpha : Cx ℚ) (A B : Arr (Cx ℚ)) (beta : Cx ℚ) (C : Arr (Cx ℚ)) (k i j : ℕ) :
    (cxProductTerms alpha (cxPairsAt A B k i j) beta (C i j)).re.sum =
      (cxProductAt alpha A B beta C k i j).re ∧
    (cxProductTerms alpha (cxPairsAt A B k i j) beta (C i j)).im.sum =
      (cxProductAt alpha A B beta C k i j).im ∧
    (cxProductTerms alpha (cxPairsAt A B k i j) beta (C i j)).re.size =
      (cxSizeAt alpha A B beta C k i j).re ∧
    (cxProductTerms alpha (cxPairsAt A B k i j) beta (C i j)).im.size =
      (cxSizeAt alpha A B beta C k i j).im := by
  have nn : 0 ≤ ∑ l ∈ Finset.range k, ((A i l).sizeMul (B l j)).re ∧
      0 ≤ ∑ l ∈ Finset.range k, ((A i l).sizeMul (B l j)).im :=
    ⟨Finset.sum_nonneg fun l _ => by simp only [Cx.sizeMul]; positivity,
      Finset.sum_nonneg fun l _ => by simp only [Cx.sizeMul]; positivity⟩
  obtain ⟨a1, a2⟩ := cxSumTerms_sum alpha (cxPairsAt A B k i j)
  obtain ⟨a3, a4⟩ := cxSumTerms_size alpha (cxPairsAt A B k i j)
  simp only [cxPairsAt, List.map_map, Function.comp_def, sum_range_list] at a1 a2 a3 a4
  simp only [cxProductTerms_eq, Cx.add_re, Cx.add_im, Terms.sum_add, Terms.size_add, Cx.mul_re, Cx.mul_im,
    Cx.map_re, Cx.map_im, Terms.sum_sub, Terms.sum_mul, Terms.sum_one, Terms.size_sub, Terms.size_mul,
    Terms.size_one, cxProductAt, cxSizeAt, Cx.sizeMul, cxPairsAt]
  simp only [Cx.sizeMul] at nn a3 a4
  rw [abs_of_nonneg nn.1, abs_of_nonneg nn.2]
  exact ⟨by rw [a1]; rfl, by rw [a2]; rfl, by rw [a3], by rw [a4]⟩

end Householder.Spec
