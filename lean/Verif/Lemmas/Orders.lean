import Verif.Lemmas.Terms

/-!
# Every order of computing a product is an algorithm
-/

namespace Householder.Spec

variable {F : Type} [Add F] [Sub F] [Mul F] {f : Format}

/-- The terms other than 0 of a sum of products. -/
def termsOf (R : Ieee f F) (x : ℚ) (ps : List (F × F)) : Multiset ℚ :=
  ((ps.map fun p => x * ((R.val p.1).getD 0 * (R.val p.2).getD 0) : List ℚ) : Multiset ℚ).filter (· ≠ 0)

theorem termsOf_append (R : Ieee f F) (x : ℚ) (ps qs : List (F × F)) :
    termsOf R x (ps ++ qs) = termsOf R x ps + termsOf R x qs := by
  simp only [termsOf, List.map_append, ← Multiset.coe_add, Multiset.filter_add]

theorem termsOf_perm (R : Ieee f F) (x : ℚ) {ps qs : List (F × F)} (h : ps.Perm qs) :
    termsOf R x ps = termsOf R x qs := by
  unfold termsOf
  rw [Multiset.coe_eq_coe.2 (h.map _)]

theorem nonzero_one_mul (x : ℚ) (s : Terms) :
    (Terms.one x * s).nonzero = (s.nonzero.map (x * ·)).filter (· ≠ 0) := by
  show (Multiset.bind {x} _).filter _ = _
  rw [Multiset.singleton_bind]
  unfold Terms.nonzero
  rw [Multiset.filter_map, Multiset.filter_map, Multiset.filter_filter]
  congr 1
  refine Multiset.filter_congr fun a _ => ?_
  simp only [Function.comp_def, ne_eq, mul_eq_zero]
  tauto

theorem termsOf_scale (R : Ieee f F) (x : ℚ) (ps : List (F × F)) :
    ((termsOf R 1 ps).map (x * ·)).filter (· ≠ 0) = termsOf R x ps := by
  have h := nonzero_one_mul x
    ⟨((ps.map fun p => 1 * ((R.val p.1).getD 0 * (R.val p.2).getD 0) : List ℚ) : Multiset ℚ)⟩
  refine Eq.trans h.symm ?_
  show (Multiset.bind {x} _).filter _ = _
  rw [Multiset.singleton_bind, Multiset.map_coe, List.map_map]
  simp only [Function.comp_def, one_mul, termsOf]

theorem nonzero_zero : (Terms.one 0).nonzero = 0 := by decide +kernel

theorem termsOf_single (R : Ieee f F) (x : ℚ) (a b : F) :
    termsOf R x [(a, b)] = (Terms.one (x * ((R.val a).getD 0 * (R.val b).getD 0))).nonzero := rfl

theorem SumOf.terms {R : Ieee f F} {ps : List (F × F)} {t : Fp F} (h : SumOf R ps t) :
    (t.terms R).nonzero = termsOf R 1 ps := by
  induction h with
  | empty hz => simp only [Fp.terms, hz, Option.getD_some, nonzero_zero]; rfl
  | one => simp only [Fp.terms, Terms.one_mul_one, termsOf_single, one_mul]
  | @fused ps t a b _ ih =>
    simp only [Fp.terms, Terms.one_mul_one, Terms.nonzero_add, ih]
    rw [show (a, b) :: ps = [(a, b)] ++ ps from rfl, termsOf_append, termsOf_single, one_mul]
  | sum _ _ _ _ ih1 ih2 => simp only [Fp.terms, Terms.nonzero_add, ih1, ih2, termsOf_append]
  | order hp _ ih => rw [ih, termsOf_perm R 1 hp]

theorem ProductOf.terms {R : Ieee f F} {alpha beta c : F} {ps : List (F × F)} {t : Fp F}
    (h : ProductOf R alpha beta c ps t) :
    (t.terms R).nonzero = termsOf R ((R.val alpha).getD 0) ps +
      (Terms.one ((R.val beta).getD 0 * (R.val c).getD 0)).nonzero := by
  have e : termsOf R ((R.val alpha).getD 0) [] = 0 := rfl
  have blk : ∀ {qs t}, SumOf R qs t → (Terms.one ((R.val alpha).getD 0) * t.terms R).nonzero =
      termsOf R ((R.val alpha).getD 0) qs := fun ht => by
    rw [nonzero_one_mul, ht.terms, termsOf_scale]
  have swap : ∀ A B C : Multiset ℚ, A + B + C = A + C + B := fun A B C => by
    rw [add_assoc, add_comm B, ← add_assoc]
  induction h with
  | scaled => simp only [Fp.terms, Terms.one_mul_one, e, zero_add]
  | scaled' => simp only [Fp.terms, Terms.one_mul_one, e, zero_add, mul_comm]
  | cleared h hz => simp [Fp.terms, h, hz, e]
  | kept h => simp [Fp.terms, h, e]
  | block _ _ ht ih => simp only [Fp.terms, Terms.nonzero_add, ih, blk ht, termsOf_append, swap]
  | blockFused _ _ ht ih =>
    simp only [Fp.terms, Terms.nonzero_add, ih, blk ht, termsOf_append]
    rw [← add_assoc, add_comm (termsOf _ _ _) (termsOf _ _ _)]
  | blockPlain _ h1 _ ht ih =>
    simp only [Fp.terms, Terms.nonzero_add, ih, ht.terms, termsOf_append, swap, h1, Option.getD_some]
  | term _ ih =>
    simp only [Fp.terms, Terms.nonzero_add, ih, termsOf_append, Terms.one_mul_one, termsOf_single, mul_assoc,
      swap]
  | termFused _ ih =>
    simp only [Fp.terms, Terms.nonzero_add, ih, termsOf_append, Terms.one_mul_one, termsOf_single, mul_assoc]
    rw [← add_assoc, add_comm (Terms.nonzero _) (termsOf _ _ _)]
  | order hp _ ih => rw [ih, termsOf_perm R _ hp]

/-- The numbers of a pair. -/
def realPair (R : Ieee f F) (p : F × F) : ℚ × ℚ := ((R.val p.1).getD 0, (R.val p.2).getD 0)

theorem productTerms_nonzero (R : Ieee f F) (alpha : ℚ) (ps : List (F × F)) (beta c : ℚ) :
    (productTerms alpha (ps.map (realPair R)) beta c).nonzero =
      termsOf R alpha ps + (Terms.one (beta * c)).nonzero := by
  unfold productTerms
  rw [Terms.nonzero_add, Terms.one_mul_one]
  congr 1
  induction ps with
  | nil => rfl
  | cons p ps ih =>
    simp only [List.map_cons, List.foldr_cons, Terms.nonzero_add, Terms.one_mul_one, mul_assoc] at ih ⊢
    rw [ih, show p :: ps = [(p.1, p.2)] ++ ps from rfl, termsOf_append, termsOf_single]
    rfl

theorem realPairs_eq {R : Ieee f F} {ps : List (F × F)} {qs : List (ℚ × ℚ)}
    (h : List.Forall₂ (fun p q => R.val p.1 = some q.1 ∧ R.val p.2 = some q.2) ps qs) :
    ps.map (realPair R) = qs := by
  induction h with
  | nil => rfl
  | cons h _ ih => simp [realPair, h.1, h.2, ih]

theorem sum_map_add_const {G : Type} (g : G → ℚ) (e : ℚ) (ps : List G) :
    (ps.map fun p => g p + e).sum = (ps.map g).sum + ps.length * e := by
  induction ps with
  | nil => simp
  | cons p ps ih => simp only [List.map_cons, List.sum_cons, ih, List.length_cons]; push_cast; ring

theorem le_sum_map {G : Type} (g : G → ℚ) (hg : ∀ p, 0 ≤ g p) {ps : List G} {p : G} (h : p ∈ ps) :
    g p ≤ (ps.map g).sum :=
  List.single_le_sum (by simpa using fun x _ => hg x) _ (List.mem_map_of_mem h)

theorem sum_map_nonneg {G : Type} (g : G → ℚ) (hg : ∀ p, 0 ≤ g p) (ps : List G) :
    0 ≤ (ps.map g).sum := List.sum_nonneg (by simpa using fun x _ => hg x)

/-- The orders of `ProductOf` are algorithms. -/
theorem ProductOf.algorithm {R : Ieee f F} {alpha beta c : F} {ps : List (F × F)} {t : Fp F} {al be z : ℚ}
    {qs : List (ℚ × ℚ)} (ha : R.val alpha = some al) (hb : R.val beta = some be) (hc : R.val c = some z)
    (hp : List.Forall₂ (fun p q => R.val p.1 = some q.1 ∧ R.val p.2 = some q.2) ps qs)
    (h : ProductOf R alpha beta c ps t) :
    t.Algorithm R (factors al qs be z) (productTerms al qs be z) (ps.length + 2) (orderUnderflow al qs)
      (orderLargest f.eta al qs be z) := by
  have he := f.eta_pos
  have hm := h.exact.2
  obtain ⟨b1, b2⟩ := h.bounds
  obtain rfl := realPairs_eq hp
  have d2 : dotSize R ps = ((ps.map (realPair R)).map fun p => |p.1| * |p.2|).sum := by
    rw [List.map_map]; rfl
  have d3 : factorSize R ps = ((ps.map (realPair R)).map fun p => |p.2|).sum := by
    rw [List.map_map]; rfl
  have hr : productReach R alpha beta c ps =
      |al| * ((ps.map (realPair R)).map fun p => |p.1| * |p.2|).sum + |be| * |z| +
        orderUnderflow al (ps.map (realPair R)) * f.eta := by
    simp only [productReach, d2, d3, ha, hb, hc, Option.getD_some, orderUnderflow, List.length_map]
  rw [d2, ha, hb, hc] at hm
  simp only [Option.getD_some] at hm
  have p1 : 0 ≤ ((ps.map (realPair R)).map fun p : ℚ × ℚ => |p.1| * |p.2| + f.eta).sum :=
    sum_map_nonneg _ (fun p => by positivity) _
  have p2 : 0 ≤ ((ps.map (realPair R)).map fun p : ℚ × ℚ => |al| * |p.1| + f.eta).sum :=
    sum_map_nonneg _ (fun p => by positivity) _
  have p3 : 0 ≤ |al| * ((ps.map (realPair R)).map fun p => |p.1| * |p.2|).sum + |be| * |z| +
        orderUnderflow al (ps.map (realPair R)) * f.eta := by
    have h1 : 0 ≤ ((ps.map (realPair R)).map fun p : ℚ × ℚ => |p.1| * |p.2|).sum :=
      sum_map_nonneg _ (fun p => by positivity) _
    have h2 : 0 ≤ ((ps.map (realPair R)).map fun p : ℚ × ℚ => |p.2|).sum :=
      sum_map_nonneg _ (fun p => by positivity) _
    have h3 : 0 ≤ orderUnderflow al (ps.map (realPair R)) := by unfold orderUnderflow; positivity
    positivity
  refine ⟨?_, h.literals.mono ?_, b1, ?_, h.every.mono ?_⟩
  · rw [h.terms, productTerms_nonzero, ha, hb, hc]; rfl
  · rintro a (h | h | h | h | ⟨p, hm, h⟩)
    · exact ⟨0, by simp, .inl h⟩
    · exact ⟨al, by simp [factors], .inl (h ▸ ha)⟩
    · exact ⟨be, by simp [factors], .inl (h ▸ hb)⟩
    · exact ⟨z, by simp [factors], .inl (h ▸ hc)⟩
    · have hq : R.val p.1 = some (realPair R p).1 ∧ R.val p.2 = some (realPair R p).2 := by
        obtain ⟨i, hi, e⟩ := List.mem_iff_getElem.1 hm
        have := (List.forall₂_iff_get.1 hp).2 i hi (by simpa using hi)
        simpa [e] using this
      have hx : ∀ x, x = (realPair R p).1 ∨ x = (realPair R p).2 →
          x ∈ 0 :: 1 :: factors al (ps.map (realPair R)) be z := by
        intro x hx
        simp only [factors, List.mem_cons, List.mem_flatMap, List.mem_map]
        exact .inr (.inr (.inr (.inr (.inr ⟨_, ⟨p, hm, rfl⟩, by simpa using hx⟩))))
      rcases h with h | h
      · exact ⟨_, hx _ (.inl rfl), .inl (h ▸ hq.1)⟩
      · exact ⟨_, hx _ (.inr rfl), .inl (h ▸ hq.2)⟩
  · rw [hr] at b2
    rw [hm]
    exact b2
  · rintro s ⟨h1, h2⟩
    refine ⟨h1, ?_⟩
    unfold orderLargest
    rcases h2 with ⟨h2, -⟩ | ⟨h2, -⟩ | ⟨p, hm, h2, -⟩
    · rw [d2, ← List.length_map (realPair R), ← sum_map_add_const] at h2
      linarith
    · rw [hr] at h2
      linarith
    · have := le_sum_map (fun p : ℚ × ℚ => |al| * |p.1| + f.eta) (fun p => by positivity)
        (List.mem_map_of_mem (f := realPair R) hm)
      rw [ha] at h2
      have h3 : s.reach R ≤ |al| * |(realPair R p).1| + f.eta := h2
      linarith

/-- A kernel that sums in any order is a kernel that uses any algorithm. -/
theorem AnyOrder.algorithm {R : Ieee f F} {kern : Kern F} (h : AnyOrder R kern) :
    AnyAlgorithm R (· + 2) (fun al qs _ _ => orderUnderflow al qs) (orderLargest f.eta) kern := by
  intro site alpha ps beta c al qs be z ha hb hc hp
  obtain ⟨t, ht, e⟩ := h site alpha ps beta c
  exact ⟨t, ht.algorithm ha hb hc hp, e⟩

end Householder.Spec
