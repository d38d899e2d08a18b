import Verif.Lemmas.Terms
import Mathlib.Tactic.Abel

/-!
# The loop of the unit tests with complex scalars
-/

namespace Householder.Spec

variable {F : Type} [Add F] [Sub F] [Mul F] {f : Format}

/-- The operations of `s + alpha * a * b`. -/
def cxTerm (alpha : Cx F) (p : Cx F × Cx F) : Cx (Fp F) :=
  alpha.map .lit * p.1.map .lit * p.2.map .lit

/-- The operations of the loop. -/
def cxLoop (alpha : Cx F) (ps : List (Cx F × Cx F)) (beta c : Cx F) : Cx (Fp F) :=
  ps.foldl (fun s p => s + cxTerm alpha p) (c.map .lit * beta.map .lit)

omit [Add F] [Sub F] [Mul F] in
theorem cxLoop_append (alpha : Cx F) (ps : List (Cx F × Cx F)) (p : Cx F × Cx F) (beta c : Cx F) :
    cxLoop alpha (ps ++ [p]) beta c = cxLoop alpha ps beta c + cxTerm alpha p := by
  simp [cxLoop]

theorem run_add (R : Ieee f F) (s t : Cx (Fp F)) :
    (s + t).map (Fp.run R) = s.map (Fp.run R) + t.map (Fp.run R) := rfl

theorem run_mul (R : Ieee f F) (s t : Cx (Fp F)) :
    (s * t).map (Fp.run R) = s.map (Fp.run R) * t.map (Fp.run R) := rfl

theorem run_lit (R : Ieee f F) (z : Cx F) : (z.map Fp.lit).map (Fp.run R) = z := rfl

theorem cxLoop_run (R : Ieee f F) (alpha : Cx F) (ps : List (Cx F × Cx F)) (beta c : Cx F) :
    (cxLoop alpha ps beta c).map (Fp.run R) = ps.foldl (fun s p => s + alpha * p.1 * p.2) (c * beta) := by
  induction ps using List.reverseRecOn with
  | nil => rfl
  | append_singleton ps p ih =>
    rw [cxLoop_append, run_add, ih, List.foldl_append]
    rfl

theorem Cx.Stands.num_eq {R : Ieee f F} {z : Cx F} {x : Cx ℚ} (h : z.Stands R x) : z.num R = x := by
  obtain ⟨h1, h2⟩ := h
  simp [Cx.num, h1, h2]

/-- The same for pairs. -/
def numPair (R : Ieee f F) (p : Cx F × Cx F) : Cx ℚ × Cx ℚ := (p.1.num R, p.2.num R)

theorem cxSumTerms_append (alpha : Cx ℚ) (ps : List (Cx ℚ × Cx ℚ)) (p : Cx ℚ × Cx ℚ) :
    (cxSumTerms alpha (ps ++ [p])).re =
      (cxSumTerms alpha ps).re + (alpha.map Terms.one * p.1.map Terms.one * p.2.map Terms.one).re ∧
    (cxSumTerms alpha (ps ++ [p])).im =
      (cxSumTerms alpha ps).im + (alpha.map Terms.one * p.1.map Terms.one * p.2.map Terms.one).im := by
  induction ps with
  | nil => exact ⟨Terms.add_comm' _ _, Terms.add_comm' _ _⟩
  | cons q ps ih =>
    rw [List.cons_append, cxSumTerms_cons, cxSumTerms_cons]
    simp only [Cx.add_re, Cx.add_im, ih]
    exact ⟨(Terms.add_assoc' _ _ _).symm, (Terms.add_assoc' _ _ _).symm⟩

theorem cxLoop_terms (R : Ieee f F) (alpha : Cx F) (ps : List (Cx F × Cx F)) (beta c : Cx F) :
    (cxLoop alpha ps beta c).re.terms R =
      (cxProductTerms (alpha.num R) (ps.map (numPair R)) (beta.num R) (c.num R)).re ∧
    (cxLoop alpha ps beta c).im.terms R =
      (cxProductTerms (alpha.num R) (ps.map (numPair R)) (beta.num R) (c.num R)).im := by
  induction ps using List.reverseRecOn with
  | nil =>
    constructor
    · show Terms.one _ * Terms.one _ - Terms.one _ * Terms.one _ =
        0 + (Terms.one (beta.num R).re * Terms.one (c.num R).re -
          Terms.one (beta.num R).im * Terms.one (c.num R).im)
      rw [Terms.zero_add', Terms.one_mul_one, Terms.one_mul_one, Terms.one_mul_one, Terms.one_mul_one,
        mul_comm (beta.num R).re, mul_comm (beta.num R).im]
      rfl
    · show Terms.one _ * Terms.one _ + Terms.one _ * Terms.one _ =
        0 + (Terms.one (beta.num R).re * Terms.one (c.num R).im +
          Terms.one (beta.num R).im * Terms.one (c.num R).re)
      rw [Terms.zero_add', Terms.one_mul_one, Terms.one_mul_one, Terms.one_mul_one, Terms.one_mul_one,
        mul_comm (beta.num R).re, mul_comm (beta.num R).im, Terms.add_comm']
      rfl
  | append_singleton ps p ih =>
    rw [cxLoop_append, List.map_append, cxProductTerms_eq]
    obtain ⟨a1, a2⟩ := cxSumTerms_append (alpha.num R) (ps.map (numPair R)) (numPair R p)
    rw [cxProductTerms_eq] at ih
    simp only [Cx.add_re, Cx.add_im] at ih ⊢
    rw [List.map_singleton, a1, a2]
    have h1 : ((cxLoop alpha ps beta c).re + (cxTerm alpha p).re).terms R =
      (cxLoop alpha ps beta c).re.terms R + (cxTerm alpha p).re.terms R := rfl
    have h2 : ((cxLoop alpha ps beta c).im + (cxTerm alpha p).im).terms R =
      (cxLoop alpha ps beta c).im.terms R + (cxTerm alpha p).im.terms R := rfl
    have h3 : (cxTerm alpha p).re.terms R = 
        ((alpha.num R).map Terms.one * (numPair R p).1.map Terms.one * (numPair R p).2.map Terms.one).re := rfl
    have h4 : (cxTerm alpha p).im.terms R = 
        ((alpha.num R).map Terms.one * (numPair R p).1.map Terms.one * (numPair R p).2.map Terms.one).im := rfl
    rw [h1, h2, ih.1, ih.2, h3, h4, Terms.add_assoc', Terms.add_assoc', Terms.add_assoc', Terms.add_assoc']
    exact ⟨congrArg _ (Terms.add_comm' _ _), congrArg _ (Terms.add_comm' _ _)⟩

/-! ## Roundings, underflow and intermediate results -/

/-- The bound for the operations of one term. -/
def termLargest (eta : ℚ) (alpha : Cx ℚ) (p : Cx ℚ × Cx ℚ) : ℚ :=
  (alpha.sizeMul p.1).re + (alpha.sizeMul p.1).im + 4 * eta +
    (((alpha.sizeMul p.1).sizeMul p.2).re + ((alpha.sizeMul p.1).sizeMul p.2).im) +
    2 * (1 + |p.2.re| + |p.2.im|) * eta

theorem abs_sizes (a b c d : ℚ) : |(|a| * |b| + |c| * |d|)| = |a| * |b| + |c| * |d| :=
  abs_of_nonneg (by positivity)

omit [Add F] [Sub F] [Mul F] in
theorem cxTerm_re (alpha : Cx F) (p : Cx F × Cx F) : (cxTerm alpha p).re =
    .sub (.mul (.sub (.mul (.lit alpha.re) (.lit p.1.re)) (.mul (.lit alpha.im) (.lit p.1.im)))
        (.lit p.2.re))
      (.mul (.add (.mul (.lit alpha.re) (.lit p.1.im)) (.mul (.lit alpha.im) (.lit p.1.re)))
        (.lit p.2.im)) := rfl

omit [Add F] [Sub F] [Mul F] in
theorem cxTerm_im (alpha : Cx F) (p : Cx F × Cx F) : (cxTerm alpha p).im =
    .add (.mul (.sub (.mul (.lit alpha.re) (.lit p.1.re)) (.mul (.lit alpha.im) (.lit p.1.im)))
        (.lit p.2.im))
      (.mul (.add (.mul (.lit alpha.re) (.lit p.1.im)) (.mul (.lit alpha.im) (.lit p.1.re)))
        (.lit p.2.re)) := rfl

theorem cxTerm_reach (R : Ieee f F) (alpha : Cx F) (p : Cx F × Cx F) :
    (cxTerm alpha p).re.reach R = (((alpha.num R).sizeMul (p.1.num R)).sizeMul (p.2.num R)).re +
      2 * (1 + |(p.2.num R).re| + |(p.2.num R).im|) * f.eta ∧
    (cxTerm alpha p).im.reach R = (((alpha.num R).sizeMul (p.1.num R)).sizeMul (p.2.num R)).im +
      2 * (1 + |(p.2.num R).re| + |(p.2.num R).im|) * f.eta ∧
    (cxTerm alpha p).re.magnitude R = (((alpha.num R).sizeMul (p.1.num R)).sizeMul (p.2.num R)).re ∧
    (cxTerm alpha p).im.magnitude R = (((alpha.num R).sizeMul (p.1.num R)).sizeMul (p.2.num R)).im := by
  simp only [Cx.sizeMul, abs_sizes, cxTerm_re, cxTerm_im, Fp.reach, Fp.magnitude, Cx.num]
  exact ⟨by ring, by ring, trivial, trivial⟩

theorem cxTerm_every (R : Ieee f F) (alpha : Cx F) (p : Cx F × Cx F) :
    ((cxTerm alpha p).re.Every fun s => s.roundings ≤ 4 ∧
      s.reach R ≤ termLargest f.eta (alpha.num R) (numPair R p)) ∧
    ((cxTerm alpha p).im.Every fun s => s.roundings ≤ 4 ∧
      s.reach R ≤ termLargest f.eta (alpha.num R) (numPair R p)) := by
  have he := f.eta_pos.le
  simp only [cxTerm_re, cxTerm_im, Fp.Every, Fp.roundings, Fp.reach, termLargest, Cx.sizeMul, abs_sizes, Cx.num,
    numPair]
  have n1 := abs_nonneg ((R.val alpha.re).getD 0)
  have n2 := abs_nonneg ((R.val alpha.im).getD 0)
  have n3 := abs_nonneg ((R.val p.1.re).getD 0)
  have n4 := abs_nonneg ((R.val p.1.im).getD 0)
  have n5 := abs_nonneg ((R.val p.2.re).getD 0)
  have n6 := abs_nonneg ((R.val p.2.im).getD 0)
  generalize |(R.val alpha.re).getD 0| = ar at *
  generalize |(R.val alpha.im).getD 0| = ai at *
  generalize |(R.val p.1.re).getD 0| = br at *
  generalize |(R.val p.1.im).getD 0| = bi at *
  generalize |(R.val p.2.re).getD 0| = cr at *
  generalize |(R.val p.2.im).getD 0| = ci at *
  generalize f.eta = e at *
  have m1 := mul_nonneg n1 n3
  have m2 := mul_nonneg n2 n4
  have m3 := mul_nonneg n1 n4
  have m4 := mul_nonneg n2 n3
  have t1 := mul_nonneg m1 n5
  have t2 := mul_nonneg m2 n5
  have t3 := mul_nonneg m3 n5
  have t4 := mul_nonneg m4 n5
  have t5 := mul_nonneg m1 n6
  have t6 := mul_nonneg m2 n6
  have t7 := mul_nonneg m3 n6
  have t8 := mul_nonneg m4 n6
  have e1 := mul_nonneg he n5
  have e2 := mul_nonneg he n6
  simp only [and_true]
  refine ⟨⟨⟨by omega, by linarith⟩, ⟨⟨by omega, by linarith⟩, ⟨by omega, by linarith⟩, ⟨by omega, by linarith⟩,
    ⟨by omega, by linarith⟩⟩, ⟨by omega, by linarith⟩, ⟨by omega, by linarith⟩, ⟨by omega, by linarith⟩,
    ⟨by omega, by linarith⟩⟩, ⟨by omega, by linarith⟩, ⟨⟨by omega, by linarith⟩, ⟨by omega, by linarith⟩,
    ⟨by omega, by linarith⟩, ⟨by omega, by linarith⟩⟩, ⟨by omega, by linarith⟩, ⟨by omega, by linarith⟩,
    ⟨by omega, by linarith⟩, ⟨by omega, by linarith⟩⟩

theorem loopUnderflow_append (ps : List (Cx ℚ × Cx ℚ)) (p : Cx ℚ × Cx ℚ) :
    loopUnderflow (ps ++ [p]) = loopUnderflow ps + 2 * (1 + |p.2.re| + |p.2.im|) := by
  simp [loopUnderflow, add_assoc]

theorem loopLargest_append (eta : ℚ) (alpha : Cx ℚ) (ps : List (Cx ℚ × Cx ℚ)) (p : Cx ℚ × Cx ℚ)
    (beta c : Cx ℚ) : loopLargest eta alpha (ps ++ [p]) beta c =
      loopLargest eta alpha ps beta c + termLargest eta alpha p := by
  simp only [loopLargest, loopUnderflow_append, List.map_append, List.sum_append, List.map_singleton,
    List.sum_singleton, termLargest]
  ring

theorem termLargest_nonneg {eta : ℚ} (he : 0 ≤ eta) (alpha : Cx ℚ) (p : Cx ℚ × Cx ℚ) :
    0 ≤ termLargest eta alpha p := by
  simp only [termLargest, Cx.sizeMul, abs_sizes]
  positivity

/-- Sizes of the loop. -/
theorem cxLoop_sizes (R : Ieee f F) (alpha : Cx F) (ps : List (Cx F × Cx F)) (beta c : Cx F) :
    (cxLoop alpha ps beta c).re.roundings ≤ ps.length + 4 ∧
    (cxLoop alpha ps beta c).im.roundings ≤ ps.length + 4 ∧
    (cxLoop alpha ps beta c).re.reach R =
      (cxLoop alpha ps beta c).re.magnitude R + loopUnderflow (ps.map (numPair R)) * f.eta ∧
    (cxLoop alpha ps beta c).im.reach R =
      (cxLoop alpha ps beta c).im.magnitude R + loopUnderflow (ps.map (numPair R)) * f.eta ∧
    (cxLoop alpha ps beta c).re.reach R ≤
      loopLargest f.eta (alpha.num R) (ps.map (numPair R)) (beta.num R) (c.num R) ∧
    (cxLoop alpha ps beta c).im.reach R ≤
      loopLargest f.eta (alpha.num R) (ps.map (numPair R)) (beta.num R) (c.num R) := by
  have he := f.eta_pos.le
  induction ps using List.reverseRecOn with
  | nil =>
    have h1 : (cxLoop alpha [] beta c).re =
      .sub (.mul (.lit c.re) (.lit beta.re)) (.mul (.lit c.im) (.lit beta.im)) := rfl
    have h2 : (cxLoop alpha [] beta c).im =
      .add (.mul (.lit c.re) (.lit beta.im)) (.mul (.lit c.im) (.lit beta.re)) := rfl
    simp only [h1, h2, Fp.roundings, Fp.reach, Fp.magnitude, List.map_nil, loopUnderflow, loopLargest,
      List.sum_nil, Cx.sizeMul, Cx.num]
    have n1 := mul_nonneg (abs_nonneg ((R.val c.re).getD 0)) (abs_nonneg ((R.val beta.re).getD 0))
    have n2 := mul_nonneg (abs_nonneg ((R.val c.re).getD 0)) (abs_nonneg ((R.val beta.im).getD 0))
    have n3 := mul_nonneg (abs_nonneg ((R.val c.im).getD 0)) (abs_nonneg ((R.val beta.re).getD 0))
    have n4 := mul_nonneg (abs_nonneg ((R.val c.im).getD 0)) (abs_nonneg ((R.val beta.im).getD 0))
    refine ⟨by simp, by simp, by ring, by ring, by linarith, by linarith⟩
  | append_singleton ps p ih =>
    obtain ⟨i1, i2, i3, i4, i5, i6⟩ := ih
    obtain ⟨t1, t2, t3, t4⟩ := cxTerm_reach R alpha p
    have e1 : (cxLoop alpha (ps ++ [p]) beta c).re =
      .add (cxLoop alpha ps beta c).re (cxTerm alpha p).re := by rw [cxLoop_append]; rfl
    have e2 : (cxLoop alpha (ps ++ [p]) beta c).im =
      .add (cxLoop alpha ps beta c).im (cxTerm alpha p).im := by rw [cxLoop_append]; rfl
    have hp : (numPair R p).1 = p.1.num R := rfl
    have hq : (numPair R p).2 = p.2.num R := rfl
    have r1 : (cxTerm alpha p).re.roundings = 4 := rfl
    have r2 : (cxTerm alpha p).im.roundings = 4 := rfl
    have c1 : (cxTerm alpha p).re.reach R ≤ termLargest f.eta (alpha.num R) (numPair R p) :=
      (cxTerm_every R alpha p).1.1.2
    have c2 : (cxTerm alpha p).im.reach R ≤ termLargest f.eta (alpha.num R) (numPair R p) :=
      (cxTerm_every R alpha p).2.1.2
    simp only [e1, e2, Fp.roundings, Fp.reach, Fp.magnitude, List.map_append, List.map_singleton,
      loopUnderflow_append, loopLargest_append, List.length_append, List.length_singleton, r1, r2]
    refine ⟨by omega, by omega, ?_, ?_, add_le_add i5 c1, add_le_add i6 c2⟩
    · rw [i3, t1, t3, hq]; ring
    · rw [i4, t2, t4, hq]; ring

theorem cxLoop_every (R : Ieee f F) (alpha : Cx F) (ps : List (Cx F × Cx F)) (beta c : Cx F) :
    ((cxLoop alpha ps beta c).re.Every fun s => s.roundings ≤ ps.length + 4 ∧
      s.reach R ≤ loopLargest f.eta (alpha.num R) (ps.map (numPair R)) (beta.num R) (c.num R)) ∧
    ((cxLoop alpha ps beta c).im.Every fun s => s.roundings ≤ ps.length + 4 ∧
      s.reach R ≤ loopLargest f.eta (alpha.num R) (ps.map (numPair R)) (beta.num R) (c.num R)) := by
  have he := f.eta_pos.le
  induction ps using List.reverseRecOn with
  | nil =>
    obtain ⟨s1, s2, -, -, s5, s6⟩ := cxLoop_sizes R alpha [] beta c
    have h1 : (cxLoop alpha [] beta c).re =
      .sub (.mul (.lit c.re) (.lit beta.re)) (.mul (.lit c.im) (.lit beta.im)) := rfl
    have h2 : (cxLoop alpha [] beta c).im =
      .add (.mul (.lit c.re) (.lit beta.im)) (.mul (.lit c.im) (.lit beta.re)) := rfl
    rw [h1] at s1 s5
    rw [h2] at s2 s6
    rw [h1, h2]
    have n : ∀ a b, 0 ≤ (Fp.mul (.lit a) (.lit b) : Fp F).reach R := fun a b => Fp.reach_nonneg R _
    have k1 := n c.re beta.re
    have k2 := n c.im beta.im
    have k3 := n c.re beta.im
    have k4 := n c.im beta.re
    generalize loopLargest _ _ _ _ _ = L at *
    simp only [Fp.Every, Fp.roundings, List.length_nil, and_true]
    have u5 : (Fp.mul (.lit c.re) (.lit beta.re) : Fp F).reach R +
      (Fp.mul (.lit c.im) (.lit beta.im) : Fp F).reach R ≤ L := s5
    have u6 : (Fp.mul (.lit c.re) (.lit beta.im) : Fp F).reach R +
      (Fp.mul (.lit c.im) (.lit beta.re) : Fp F).reach R ≤ L := s6
    exact ⟨⟨⟨by simp, s5⟩, ⟨by simp, by linarith⟩, by simp, by linarith⟩, ⟨by simp, s6⟩,
      ⟨by simp, by linarith⟩, by simp, by linarith⟩
  | append_singleton ps p ih =>
    obtain ⟨s1, s2, -, -, s5, s6⟩ := cxLoop_sizes R alpha (ps ++ [p]) beta c
    have e1 : (cxLoop alpha (ps ++ [p]) beta c).re =
      .add (cxLoop alpha ps beta c).re (cxTerm alpha p).re := by rw [cxLoop_append]; rfl
    have e2 : (cxLoop alpha (ps ++ [p]) beta c).im =
      .add (cxLoop alpha ps beta c).im (cxTerm alpha p).im := by rw [cxLoop_append]; rfl
    have l0 := termLargest_nonneg he (alpha.num R) (numPair R p)
    have l1 : 0 ≤ loopLargest f.eta (alpha.num R) (ps.map (numPair R)) (beta.num R) (c.num R) :=
      (Fp.reach_nonneg R _).trans (cxLoop_sizes R alpha ps beta c).2.2.2.2.1
    obtain ⟨c1, c2⟩ := cxTerm_every R alpha p
    rw [e1] at s1 s5 ⊢
    rw [e2] at s2 s6 ⊢
    rw [List.map_append, List.map_singleton, loopLargest_append] at *
    rw [List.length_append, List.length_singleton] at *
    exact ⟨⟨⟨s1, s5⟩, ih.1.mono fun s h => ⟨by omega, by linarith [h.2]⟩,
      c1.mono fun s h => ⟨by omega, by linarith [h.2]⟩⟩,
      ⟨s2, s6⟩, ih.2.mono fun s h => ⟨by omega, by linarith [h.2]⟩,
      c2.mono fun s h => ⟨by omega, by linarith [h.2]⟩⟩

omit [Add F] [Sub F] [Mul F] in
/-- The scalars of the loop. -/
theorem cxLoop_literals (alpha : Cx F) (ps : List (Cx F × Cx F)) (beta c : Cx F) (P : F → Prop)
    (h : ∀ z : Cx F, z = alpha ∨ z = beta ∨ z = c ∨ (∃ p ∈ ps, z = p.1 ∨ z = p.2) → P z.re ∧ P z.im) :
    (cxLoop alpha ps beta c).re.Literals P ∧ (cxLoop alpha ps beta c).im.Literals P := by
  induction ps using List.reverseRecOn with
  | nil =>
    obtain ⟨b1, b2⟩ := h beta (by simp)
    obtain ⟨c1, c2⟩ := h c (by simp)
    exact ⟨⟨⟨c1, b1⟩, c2, b2⟩, ⟨c1, b2⟩, c2, b1⟩
  | append_singleton ps p ih =>
    rw [cxLoop_append]
    obtain ⟨i1, i2⟩ := ih fun z hz => h z (by
      rcases hz with hz | hz | hz | ⟨q, hq, hz⟩
      · simp [hz]
      · simp [hz]
      · simp [hz]
      · exact .inr (.inr (.inr ⟨q, by simp [hq], hz⟩)))
    obtain ⟨a1, a2⟩ := h alpha (by simp)
    obtain ⟨b1, b2⟩ := h p.1 (.inr (.inr (.inr ⟨p, by simp, .inl rfl⟩)))
    obtain ⟨c1, c2⟩ := h p.2 (.inr (.inr (.inr ⟨p, by simp, .inr rfl⟩)))
    exact ⟨⟨i1, ⟨⟨⟨a1, b1⟩, a2, b2⟩, c1⟩, ⟨⟨a1, b2⟩, a2, b1⟩, c2⟩,
      i2, ⟨⟨⟨a1, b1⟩, a2, b2⟩, c2⟩, ⟨⟨a1, b2⟩, a2, b1⟩, c1⟩

/-- The loop is an algorithm. -/
theorem cxLoop_algorithm (R : Ieee f F) {alpha beta c : Cx F} {ps : List (Cx F × Cx F)} {al be z : Cx ℚ}
    {qs : List (Cx ℚ × Cx ℚ)} (ha : alpha.Stands R al) (hb : beta.Stands R be) (hc : c.Stands R z)
    (hp : List.Forall₂ (fun p q => Cx.Stands R p.1 q.1 ∧ Cx.Stands R p.2 q.2) ps qs) :
    (cxLoop alpha ps beta c).re.Algorithm R (cxFactors al qs be z) (cxProductTerms al qs be z).re
      (ps.length + 4) (loopUnderflow qs) (loopLargest f.eta al qs be z) ∧
    (cxLoop alpha ps beta c).im.Algorithm R (cxFactors al qs be z) (cxProductTerms al qs be z).im
      (ps.length + 4) (loopUnderflow qs) (loopLargest f.eta al qs be z) := by
  have hq : qs = ps.map (numPair R) := by
    induction hp with
    | nil => rfl
    | cons h _ ih => rw [List.map_cons, ← ih, numPair, h.1.num_eq, h.2.num_eq]
  have hl : ∀ w : Cx F, w = alpha ∨ w = beta ∨ w = c ∨ (∃ p ∈ ps, w = p.1 ∨ w = p.2) →
      (∃ x ∈ 0 :: 1 :: cxFactors al qs be z, R.val w.re = some x ∨ R.val w.re = some (-x)) ∧
      ∃ x ∈ 0 :: 1 :: cxFactors al qs be z, R.val w.im = some x ∨ R.val w.im = some (-x) := by
    rintro w (rfl | rfl | rfl | ⟨p, hm, hw⟩)
    · exact ⟨⟨_, by simp [cxFactors], .inl ha.1⟩, ⟨_, by simp [cxFactors], .inl ha.2⟩⟩
    · exact ⟨⟨_, by simp [cxFactors], .inl hb.1⟩, ⟨_, by simp [cxFactors], .inl hb.2⟩⟩
    · exact ⟨⟨_, by simp [cxFactors], .inl hc.1⟩, ⟨_, by simp [cxFactors], .inl hc.2⟩⟩
    · obtain ⟨q, hqm, h1, h2⟩ : ∃ q ∈ qs, Cx.Stands R p.1 q.1 ∧ Cx.Stands R p.2 q.2 := by
        clear hq
        induction hp with
        | nil => cases hm
        | cons h _ ih =>
          rcases List.mem_cons.1 hm with rfl | hm
          · exact ⟨_, by simp, h⟩
          · obtain ⟨q, h1, h2⟩ := ih hm
            exact ⟨q, by simp [h1], h2⟩
      have hf : ∀ x ∈ [q.1.re, q.1.im, q.2.re, q.2.im], x ∈ 0 :: 1 :: cxFactors al qs be z := by
        intro x hx
        refine List.mem_cons_of_mem _ (List.mem_cons_of_mem _ (List.mem_append_right _ ?_))
        exact List.mem_flatMap.2 ⟨q, hqm, hx⟩
      rcases hw with rfl | rfl
      · exact ⟨⟨_, hf _ (by simp), .inl h1.1⟩, ⟨_, hf _ (by simp), .inl h1.2⟩⟩
      · exact ⟨⟨_, hf _ (by simp), .inl h2.1⟩, ⟨_, hf _ (by simp), .inl h2.2⟩⟩
  obtain ⟨l1, l2⟩ := cxLoop_literals alpha ps beta c
    (fun a => ∃ x ∈ 0 :: 1 :: cxFactors al qs be z, R.val a = some x ∨ R.val a = some (-x)) hl
  obtain ⟨t1, t2⟩ := cxLoop_terms R alpha ps beta c
  obtain ⟨s1, s2, s3, s4, -, -⟩ := cxLoop_sizes R alpha ps beta c
  obtain ⟨e1, e2⟩ := cxLoop_every R alpha ps beta c
  rw [ha.num_eq, hb.num_eq, hc.num_eq, ← hq] at *
  exact ⟨⟨congrArg _ t1, l1, s1, s3.le, e1⟩, ⟨congrArg _ t2, l2, s2, s4.le, e2⟩⟩

end Householder.Spec
