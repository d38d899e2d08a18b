import Verif.Lemmas.Monotone
import Verif.Props.Signs

/-!
# C101: larger operands give larger results
-/

namespace Householder.Props

open Spec Datum

variable {F : Type} [Add F] [Sub F] [Mul F] {f : Format}

/-! ## Products -/

theorem between_self {d : Datum} (h : d = .nan ∨ (fin false 0).Le d) : d.Between d := by
  rcases h with rfl | h
  · exact .inl rfl
  · exact .inr (.inr ⟨h, Le.refl h.right⟩)

theorem operand_between {S : Ieee754 f F} {z alpha alpha' beta beta' c c' : F} {k : ℕ} {a a' b b' : ℕ → F}
    (hz : (S.datum z).IsZero) (h1 : (S.datum alpha).Between (S.datum alpha'))
    (h2 : (S.datum beta).Between (S.datum beta')) (h3 : (S.datum c).Between (S.datum c'))
    (h4 : ∀ l < k, (S.datum (a l)).Between (S.datum (a' l)))
    (h5 : ∀ l < k, (S.datum (b l)).Between (S.datum (b' l))) (o : Operand) :
    (S.datum (o.value z alpha ((List.range k).map fun l => (a l, b l)) beta c)).Between
      (S.datum (o.value z alpha' ((List.range k).map fun l => (a' l, b' l)) beta' c')) := by
  have h0 : (S.datum z).Between (S.datum z) := by
    obtain ⟨s, e⟩ := hz
    rw [e]
    exact between_self (.inr (le_refl (0 : ℚ)))
  cases o with
  | alpha => exact h1
  | beta => exact h2
  | old => exact h3
  | zero => exact h0
  | left l =>
    by_cases hl : l < k
    · simpa [Operand.value, hl] using h4 l hl
    · simpa [Operand.value, hl] using h0
  | right l =>
    by_cases hl : l < k
    · simpa [Operand.value, hl] using h5 l hl
    · simpa [Operand.value, hl] using h0

theorem fixed_between {S : Ieee754 f F} {R : Ieee f F} (hR : S.Refines R) {kern : Kern F} (hk : Fixed S R kern)
    (site : Site) {alpha alpha' beta beta' c c' : F} {k : ℕ} {a a' b b' : ℕ → F}
    (h1 : (S.datum alpha).Between (S.datum alpha'))
    (h2 : (S.datum beta).Between (S.datum beta'))
    (h0 : (S.datum beta).val = some 0 ↔ (S.datum beta').val = some 0)
    (h3 : (S.datum c).Between (S.datum c'))
    (h4 : ∀ l < k, (S.datum (a l)).Between (S.datum (a' l)))
    (h5 : ∀ l < k, (S.datum (b l)).Between (S.datum (b' l))) :
    (S.datum (kern site alpha ((List.range k).map fun l => (a l, b l)) beta c)).Between
      (S.datum (kern site alpha' ((List.range k).map fun l => (a' l, b' l)) beta' c')) := by
  obtain ⟨z, T, hz, hT, e⟩ := hk
  have := Fp.between hR (operand_between hz h1 h2 h3 h4 h5) 
    (T ((S.datum beta).val = some 0) site k) (hT _ site k)
  rw [e, e, ← decide_eq_decide.2 h0]
  simpa using this

/-- The operations of the loop of the reference product. -/
def loopTree (clear : Bool) : ℕ → Fp Operand
  | 0 => if clear then .lit .zero else .mul (.lit .old) (.lit .beta)
  | k + 1 => .add (loopTree clear k) (.mul (.mul (.lit .alpha) (.lit (.left k))) (.lit (.right k)))

theorem loopTree_additive (clear : Bool) : ∀ k, (loopTree clear k).Additive
  | 0 => by cases clear <;> simp [loopTree, Fp.Additive]
  | k + 1 => ⟨loopTree_additive clear k, ⟨trivial, trivial⟩, trivial⟩

theorem loopTree_run (R : Ieee f F) (clear : Bool) (z alpha beta c : F) (ps qs : List (F × F)) :
    ((loopTree clear ps.length).fill (Operand.value z alpha (ps ++ qs) beta c)).run R =
      ps.foldl (fun s p => s + alpha * p.1 * p.2) (if clear then z else c * beta) := by
  induction ps using List.reverseRecOn generalizing qs with
  | nil => cases clear <;> rfl
  | append_singleton ps p ih =>
    have := ih (p :: qs)
    simp only [List.length_append, List.length_singleton, loopTree, Fp.fill, Fp.run, List.foldl_append,
      List.foldl_cons, List.foldl_nil, List.append_assoc, List.singleton_append, Operand.value] at this ⊢
    rw [this]
    simp

theorem loopKern_fixed (S : Ieee754 f F) (R : Ieee f F) (z : F) (hz : (S.datum z).IsZero) :
    Fixed S R loopKern :=
  ⟨z, fun _ _ => loopTree false, hz, fun _ _ => loopTree_additive _, fun _ alpha ps beta c => by
    have := loopTree_run R false z alpha beta c ps []
    rw [List.append_nil] at this
    rw [this]
    rfl⟩

/-- The kernel that does not read the old element if `beta` is 0 is fixed too. -/
theorem clearingKern_fixed (S : Ieee754 f F) (R : Ieee f F) (z : F) (hz : (S.datum z).IsZero) :
    Fixed S R (clearingKern S z) :=
  ⟨z, fun b _ => loopTree b, hz, fun _ _ => loopTree_additive _, fun site alpha ps beta c => by
    have := loopTree_run R ((S.datum beta).val = some 0) z alpha beta c ps []
    rw [List.append_nil] at this
    rw [this]
    unfold clearingKern
    by_cases h : (S.datum beta).val = some 0 <;> simp [h, loopKern]⟩

omit [Sub F] in
theorem accumulate_loop (alpha : F) (A B : Arr F) (beta : F) (C : Arr F) (i j k : ℕ) (site : Site) :
    loopKern site alpha ((List.range k).map fun l => (A i l, B l j)) beta (C i j) =
      accumulate alpha A B beta C i j k := by
  induction k with
  | zero => rfl
  | succ k ih =>
    simp only [loopKern, List.range_succ, List.map_append, List.foldl_append] at ih ⊢
    rw [ih]
    rfl

/-- **C101, matmul.** With scalars that follow IEEE-754 and a kernel that always does the same sums,
products and fused multiply-adds for the same shape (it may leave out the old element if `beta` is 0),
`matmul` of matrices whose elements are not negative is
monotone: if no element of the operands, nor `alpha` or `beta`, becomes smaller, no element of the result
does, through all roundings, underflow and overflow (unless it is NaN before or after). `beta` must not change
from 0 to another number. The same holds of the
reference product of the unit tests. -/
theorem C101_matmul [Target] (S : Ieee754 f F) (R : Ieee f F) (hR : S.Refines R) (kern : Kern F)
    (hk : Fixed S R kern) (cfg : Cfg) (alpha beta alpha' beta' : F) (a b c : BaseMatrix) (mem mem' : Mem F)
    (ha : Sound a mem) (hb : Sound b mem) (hc : Sound c mem) (ha' : Sound a mem') (hb' : Sound b mem')
    (hc' : Sound c mem') (hoa : Honest a.layout) (hob : Honest b.layout) (hoc : Honest c.layout)
    (hn : NonOverlapping c.layout) (hd : Compatible a.layout b.layout c.layout) (hca : Separate c a)
    (hcb : Separate c b) (A B C A' B' C' : Arr F)
    (hA : Represents a mem A) (hB : Represents b mem B) (hC : Represents c mem C)
    (hA' : Represents a mem' A') (hB' : Represents b mem' B') (hC' : Represents c mem' C')
    (h1 : (S.datum alpha).Between (S.datum alpha')) (h2 : (S.datum beta).Between (S.datum beta'))
    (h0 : (S.datum beta).val = some 0 ↔ (S.datum beta').val = some 0)
    (h3 : ∀ i j, Stored c.layout i j → (S.datum (C i j)).Between (S.datum (C' i j)))
    (h4 : ∀ i j, Stored a.layout i j → (S.datum (A i j)).Between (S.datum (A' i j)))
    (h5 : ∀ i j, Stored b.layout i j → (S.datum (B i j)).Between (S.datum (B' i j))) :
    ∃ m1 m2 m1' m2', matmul kern alpha a b beta c mem = .ok m1 ∧ matmul kern alpha' a b beta' c mem' = .ok m1' ∧
      matmul_expect cfg alpha a b beta c mem = .ok m2 ∧ matmul_expect cfg alpha' a b beta' c mem' = .ok m2' ∧
      ∀ i j, i < c.layout.dim.1 → j < c.layout.dim.2 →
        ∃ v v' w w', c.get cfg m1 i j = .ok v ∧ c.get cfg m1' i j = .ok v' ∧
          c.get cfg m2 i j = .ok w ∧ c.get cfg m2' i j = .ok w' ∧
          (S.datum v).Between (S.datum v') ∧ (S.datum w).Between (S.datum w') := by
  obtain ⟨m1, e1, hf1, hr1⟩ := matmul_honest (kern := kern) (alpha := alpha) (beta := beta)
    ha hb hc hoa hob hoc hn hd hca hcb hA hB hC
  obtain ⟨m2, e2, hf2, hr2⟩ := matmul_expect_any cfg alpha beta ha hb hc hoa.notTri hob.notTri
    hoc.notTri hn hd hca hcb hA hB hC
  obtain ⟨m1', e1', hf1', hr1'⟩ := matmul_honest (kern := kern) (alpha := alpha') (beta := beta')
    ha' hb' hc' hoa hob hoc hn hd hca hcb hA' hB' hC'
  obtain ⟨m2', e2', hf2', hr2'⟩ := matmul_expect_any cfg alpha' beta' ha' hb' hc' hoa.notTri hob.notTri
    hoc.notTri hn hd hca hcb hA' hB' hC'
  refine ⟨m1, m2, m1', m2', e1, e1', e2, e2', fun i j hi hj => ?_⟩
  have hs : Stored c.layout i j := (stored_of_notTri hoc.notTri).2 ⟨hi, hj⟩
  obtain ⟨d1, d2, d3⟩ := hd
  have hl : ∀ l < a.layout.dim.2, Stored a.layout i l := fun l hl =>
    (stored_of_notTri hoa.notTri).2 ⟨by omega, hl⟩
  have hr : ∀ l < a.layout.dim.2, Stored b.layout l j := fun l hl =>
    (stored_of_notTri hob.notTri).2 ⟨by omega, by omega⟩
  refine ⟨_, _, _, _, (hc.mono (by rw [hf1.size])).get cfg hs (hr1 i j hs),
    (hc'.mono (by rw [hf1'.size])).get cfg hs (hr1' i j hs),
    (hc.mono (by rw [hf2.size])).get cfg hs (hr2 i j hs),
    (hc'.mono (by rw [hf2'.size])).get cfg hs (hr2' i j hs),
    fixed_between hR hk _ h1 h2 h0 (h3 i j hs) (fun l h => h4 i l (hl l h)) (fun l h => h5 l j (hr l h)), ?_⟩
  obtain ⟨z, -, hz, -⟩ := hk
  simp only [← accumulate_loop (site := ⟨0, 0, 0, 0⟩)]
  exact fixed_between hR (loopKern_fixed S R z hz) _ h1 h2 h0 (h3 i j hs) (fun l h => h4 i l (hl l h))
    (fun l h => h5 l j (hr l h))

/-- **C101, dot.** The same for `a.dot(&b)`. -/
theorem C101_dot [Target] [Zero F] [One F] (S : Ieee754 f F) (R : Ieee f F) (hR : S.Refines R)
    (h0 : S.datum 0 = .fin false 0) (h1 : S.datum 1 = .fin false 1) (kern : Kern F)
    (hk : Fixed S R kern) (cfg : Cfg) (i : DotImpl) (a b : BaseMatrix) (mem mem' : Mem F)
    (ha : Sound a mem) (hb : Sound b mem) (ha' : Sound a mem') (hb' : Sound b mem')
    (hoa : Honest a.layout) (hob : Honest b.layout)
    (hd : a.layout.dim.2 = b.layout.dim.1) (hv : VectorShape i a b)
    (hsz : a.layout.dim.1 * b.layout.dim.2 * cfg.item.size ≤ isizeMax) (A B A' B' : Arr F)
    (hA : Represents a mem A) (hB : Represents b mem B) (hA' : Represents a mem' A') (hB' : Represents b mem' B')
    (h4 : ∀ i j, Stored a.layout i j → (S.datum (A i j)).Between (S.datum (A' i j)))
    (h5 : ∀ i j, Stored b.layout i j → (S.datum (B i j)).Between (S.datum (B' i j))) :
    ∃ M m1 M' m1', dot cfg kern i a b mem = .ok (M, m1) ∧ dot cfg kern i a b mem' = .ok (M', m1') ∧
      ∀ r c, r < a.layout.dim.1 → c < b.layout.dim.2 →
        ∃ v v', M.get cfg m1 r c = .ok v ∧ M'.get cfg m1' r c = .ok v' ∧ (S.datum v).Between (S.datum v') := by
  obtain ⟨M, m1, e, hl, hnew, hrep⟩ := dot_kern kern ha hb hoa hob hd hv hsz hA hB
  obtain ⟨M', m1', e', hl', hnew', hrep'⟩ := dot_kern kern ha' hb' hoa hob hd hv hsz hA' hB'
  have hdim := productLayout_dim hv
  have hnt := (productLayout_props i a.layout.dim.1 b.layout.dim.2).2.2.notTri
  refine ⟨M, m1, M', m1', e, e', fun r c hr hc => ?_⟩
  have hs : Stored M.layout r c := by rw [hl]; exact (stored_of_notTri hnt).2 (by rw [hdim]; exact ⟨hr, hc⟩)
  have hs' : Stored M'.layout r c := by rw [hl']; exact (stored_of_notTri hnt).2 (by rw [hdim]; exact ⟨hr, hc⟩)
  refine ⟨_, _, hnew.sound.get cfg hs (hrep r c hs), hnew'.sound.get cfg hs' (hrep' r c hs'), ?_⟩
  have z0 : (S.datum 0).Between (S.datum 0) := between_self (.inr (by rw [h0]; exact le_refl (0 : ℚ)))
  exact fixed_between hR hk _ (between_self (.inr (by rw [h1]; exact zero_le_one (α := ℚ)))) z0 Iff.rfl z0
    (fun l h => h4 r l ((stored_of_notTri hoa.notTri).2 ⟨hr, h⟩))
    (fun l h => h5 l c ((stored_of_notTri hob.notTri).2 ⟨by omega, hc⟩))

/-! ## Expressions -/

theorem grows_run (S : Ieee754 f F) (X X' : BaseMatrix → F) (e : Ex F) (s : Bool) (h : e.Grows S X X' s) :
    if s then (S.datum ((e.operations X').run S.toIeee)).UpTo (S.datum ((e.operations X).run S.toIeee))
    else (S.datum ((e.operations X).run S.toIeee)).UpTo (S.datum ((e.operations X').run S.toIeee)) := by
  induction e generalizing s with
  | leaf b => cases s <;> exact h
  | ref a ih => exact ih s (by cases s <;> exact h)
  | add _ _ a b iha ihb =>
    cases s
    · exact sum_upTo (S.add_datum _ _) (S.add_datum _ _) (iha false h.1) (ihb false h.2)
    · exact sum_upTo (S.add_datum _ _) (S.add_datum _ _) (iha true h.1) (ihb true h.2)
  | scale _ _ k a ih =>
    have h1 := S.mul_datum k ((a.operations X).run S.toIeee)
    have h2 := S.mul_datum k ((a.operations X').run S.toIeee)
    have pk := S.proper k
    cases hk : (S.datum k).negative <;> cases s
    · have h' : a.Grows S X X' (false != (S.datum k).negative) := h
      rw [hk] at h'
      have := product_upTo pk (S.proper _) (S.proper _) h1 h2 (ih false h')
      rwa [hk] at this
    · have h' : a.Grows S X X' (true != (S.datum k).negative) := h
      rw [hk] at h'
      have := product_upTo pk (S.proper _) (S.proper _) h2 h1 (ih true h')
      rwa [hk] at this
    · have h' : a.Grows S X X' (false != (S.datum k).negative) := h
      rw [hk] at h'
      have := product_upTo pk (S.proper _) (S.proper _) h2 h1 (ih true h')
      rwa [hk] at this
    · have h' : a.Grows S X X' (true != (S.datum k).negative) := h
      rw [hk] at h'
      have := product_upTo pk (S.proper _) (S.proper _) h1 h2 (ih false h')
      rwa [hk] at this

/-- **C101, expressions.** If, by the rule of signs, no part of an expression becomes smaller when the
elements of its matrices change (elements under an odd number of negative factors must not become larger, all
others must not become smaller), then the element of the built expression does not become smaller, and
neither does that of the matrix that `eval` returns (unless it is NaN before or after). Elements and factors
may be of any sign. -/
theorem C101_expressions [Target] [Zero F] (S : Ieee754 f F) (cfg : Cfg) (e : Ex F) (mem mem' : Mem F) (m : Mat F)
    (ht : e.Typed) (hl : ∀ b ∈ e.leaves, Sound b mem) (hl' : ∀ b ∈ e.leaves, Sound b mem') (hb : e.build = .ok m)
    (r c : Nat) (hrc : (r, c) ∈ orderOf e.kind e.dim) (X X' : BaseMatrix → F)
    (hX : ∀ b ∈ e.leaves, b.get cfg mem r c = .ok (X b)) (hX' : ∀ b ∈ e.leaves, b.get cfg mem' r c = .ok (X' b))
    (hg : e.Grows S X X' false) :
    ∃ v v', m.get cfg mem r c = .ok v ∧ m.get cfg mem' r c = .ok v' ∧
      ((e.kind = .columnVector → e.dim.1 = 1) →
        (orderOf e.kind e.dim).length * cfg.item.size ≤ isizeMax →
        ∃ N m1 N' m1', m.eval cfg mem = .ok (N, m1) ∧ m.eval cfg mem' = .ok (N', m1') ∧
          N.get cfg m1 r c = .ok v ∧ N'.get cfg m1' r c = .ok v') ∧
      (S.datum v).UpTo (S.datum v') := by
  have run : ∀ (mem : Mem F) (X : BaseMatrix → F), (∀ b ∈ e.leaves, Sound b mem) →
      (∀ b ∈ e.leaves, b.get cfg mem r c = .ok (X b)) →
      ∃ v, m.get cfg mem r c = .ok v ∧ (e.operations X).run S.toIeee = v ∧
      ((e.kind = .columnVector → e.dim.1 = 1) →
        (orderOf e.kind e.dim).length * cfg.item.size ≤ isizeMax →
        ∃ N mem', m.eval cfg mem = .ok (N, mem') ∧ N.get cfg mem' r c = .ok v) := by
    intro mem X hl hX
    obtain ⟨v, h1, h2, -⟩ := C80_expressions S.toIeee cfg e mem m ht hl hb r c hrc X hX
    refine ⟨v, h1, ?_, h2⟩
    have hc := conform_of_build ht hb
    have hX' : ∀ b ∈ e.leaves, elem b mem r c = some (X b) := by
      intro b hb
      obtain ⟨hd, hki⟩ := leaf_shape e ht hc b hb
      have hs : Stored b.layout r c := by rw [← mem_order, order_eq_orderOf, hd, hki]; exact hrc
      obtain ⟨w, hw⟩ := (hl b hb).elem_some hs
      have := hX b hb
      rw [(hl b hb).get cfg hs hw] at this
      rw [hw]
      simpa using this
    obtain ⟨k, hk⟩ := List.mem_iff_getElem?.1 hrc
    obtain ⟨w, g1, g2, -⟩ := (C35_get1d_get cfg e mem m ht hl hb k).1 r c hk
    obtain rfl : v = w := by rw [h1] at g2; simpa using g2
    exact operations_run S.toIeee X e mem r c v hX' g1
  obtain ⟨v, h1, h2, h3⟩ := run mem X hl hX
  obtain ⟨v', h1', h2', h3'⟩ := run mem' X' hl' hX'
  refine ⟨v, v', h1, h1', fun g1 g2 => ?_, ?_⟩
  · obtain ⟨N, m1, a1, a2⟩ := h3 g1 g2
    obtain ⟨N', m1', a1', a2'⟩ := h3' g1 g2
    exact ⟨N, m1, N', m1', a1, a1', a2, a2'⟩
  · have := grows_run S X X' e false hg
    rw [h2, h2'] at this
    exact this

/-! ## Kernels that choose -/

/-- A kernel that sums from the first term to the last, or, if the last element of the row is less than 1,
from the last to the first with fused multiply-adds. Both are orders that the theorems on accuracy allow. -/
def choosingKern : Kern (Num754 .f64) := fun site alpha ps beta c =>
  match ps.getLast? with
  | some (⟨.fin _ x, _⟩, _) => if x < 1 then fusedKern (Num754.ieee754 .f64).toIeee 0 site alpha ps beta c
    else loopKern site alpha ps beta c
  | _ => loopKern site alpha ps beta c

theorem fusedKern_exactly (S : Ieee754 f F) (R : Ieee f F) (zero : F) (hz : R.val zero = some 0) :
    Exactly S R (fusedKern R zero) := by
  intro site alpha ps beta c
  have hs : ∃ t, SumOf R ps t ∧ t.run R = ps.foldr (fun p s => R.fma p.1 p.2 s) zero := by
    induction ps with
    | nil => exact ⟨_, .empty hz, rfl⟩
    | cons p ps ih =>
      obtain ⟨t, h1, h2⟩ := ih
      exact ⟨_, h1.fused (a := p.1) (b := p.2), by simp only [Fp.run, List.foldr_cons, h2]⟩
  unfold fusedKern
  by_cases hp : ps = []
  · subst hp
    exact ⟨_, .scaled, by rw [if_pos rfl]; rfl⟩
  · obtain ⟨t, h1, h2⟩ := hs
    refine ⟨_, .blockFused (ps := []) hp .scaled h1, ?_⟩
    rw [if_neg hp]
    simp only [Fp.run, h2]

theorem choosingKern_site (s s' : Site) : choosingKern s = choosingKern s' := rfl

/-- **C101, choosing kernels.** It is not enough that a kernel sums in one of the allowed orders: one that
chooses the order by the elements can give a smaller sum for larger elements. For the row
`[2^53, 1, 1/2]` it gives `2^53 + 2`, for `[2^53, 1, 1]` it gives `2^53`. -/
theorem C101_choice [Target] :
    Exactly (Num754.ieee754 .f64) (Num754.ieee754 .f64).toIeee choosingKern ∧
    ¬ Fixed (Num754.ieee754 .f64) (Num754.ieee754 .f64).toIeee choosingKern ∧
    (∀ site, (choosingKern site 1 [(.ofRat (2 ^ 53), 1), (1, 1), (.ofRat (1 / 2), 1)] 0 0).1 =
      .fin false (2 ^ 53 + 2)) ∧
    ∀ site, (choosingKern site 1 [(.ofRat (2 ^ 53), 1), (1, 1), (1, 1)] 0 0).1 = .fin false (2 ^ 53) := by
  have h1 : ∀ site, (choosingKern site 1 [(.ofRat (2 ^ 53), 1), (1, 1), (.ofRat (1 / 2), 1)] 0 0).1 =
      .fin false (2 ^ 53 + 2) := fun site => by
    rw [choosingKern_site site ⟨0, 0, 0, 0⟩]; decide +kernel
  have h2 : ∀ site, (choosingKern site 1 [(.ofRat (2 ^ 53), 1), (1, 1), (1, 1)] 0 0).1 =
      .fin false (2 ^ 53) := fun site => by
    rw [choosingKern_site site ⟨0, 0, 0, 0⟩]; decide +kernel
  refine ⟨fun site alpha ps beta c => ?_, fun h => ?_, h1, h2⟩
  · unfold choosingKern
    split
    · split
      · exact fusedKern_exactly _ _ _ rfl site alpha ps beta c
      · exact loopKern_exactly _ _ site alpha ps beta c
    · exact loopKern_exactly _ _ site alpha ps beta c
  · have o : ((1 : Num754 .f64)).1.Between ((1 : Num754 .f64)).1 :=
      between_self (.inr (zero_le_one (α := ℚ)))
    have z : ((0 : Num754 .f64)).1.Between ((0 : Num754 .f64)).1 := between_self (.inr (le_refl (0 : ℚ)))
    have := fixed_between (k := 3) (Ieee754.toIeee_refines _) h ⟨0, 0, 0, 0⟩ (alpha := 1) (alpha' := 1) (beta := 0)
      (beta' := 0) (c := 0) (c' := 0)
      (a := fun l => if l = 0 then .ofRat (2 ^ 53) else if l = 1 then 1 else .ofRat (1 / 2))
      (a' := fun l => if l = 0 then .ofRat (2 ^ 53) else 1) (b := fun _ => 1) (b' := fun _ => 1) o z Iff.rfl z
      (fun l hl => by
        match l, hl with
        | 0, _ =>
          refine between_self (.inr ?_)
          show (fin false 0).Le (Num754.ofRat (2 ^ 53) : Num754 .f64).1
          rw [show (Num754.ofRat (2 ^ 53) : Num754 .f64).1 = .fin false (2 ^ 53) by decide +kernel]
          show (0 : ℚ) ≤ 2 ^ 53
          norm_num
        | 1, _ => exact o
        | 2, _ =>
          show (Num754.ofRat (1 / 2) : Num754 .f64).1.Between (.fin false 1)
          rw [show (Num754.ofRat (1 / 2) : Num754 .f64).1 = .fin false (1 / 2) by decide +kernel]
          refine .inr (.inr ⟨?_, ?_⟩)
          · show (0 : ℚ) ≤ 1 / 2
            norm_num
          · show (1 / 2 : ℚ) ≤ 1
            norm_num)
      (fun l hl => o)
    have e1 := h1 ⟨0, 0, 0, 0⟩
    have e2 := h2 ⟨0, 0, 0, 0⟩
    change (choosingKern ⟨0, 0, 0, 0⟩ 1 [(.ofRat (2 ^ 53), 1), (1, 1), (.ofRat (1 / 2), 1)] 0 0).1.Between
      (choosingKern ⟨0, 0, 0, 0⟩ 1 [(.ofRat (2 ^ 53), 1), (1, 1), (1, 1)] 0 0).1 at this
    rw [e1, e2] at this
    rcases this with h | h | ⟨-, h⟩
    · cases h
    · cases h
    · have : (2 ^ 53 + 2 : ℚ) ≤ 2 ^ 53 := h
      norm_num at this

/-! ## Examples -/

/-- By `C101_matmul`, with a kernel that does not read the old element if `beta` is 0, raising the element
`x = 1` of `1 * [x] * [3] + 1 * [5]` to 2 does not make the result smaller. -/
example : ∃ m1 m1' v v', matmul (clearingKern (Num754.ieee754 .f64) 0) 1 (exSign 0) (exSign 1) 1 (exSign 2)
        (⟨[[1], [.ofRat 3], [.ofRat 5]]⟩ : Mem (Num754 .f64)) = .ok m1 ∧
      matmul (clearingKern (Num754.ieee754 .f64) 0) 1 (exSign 0) (exSign 1) 1 (exSign 2)
        (⟨[[.ofRat 2], [.ofRat 3], [.ofRat 5]]⟩ : Mem (Num754 .f64)) = .ok m1' ∧
      (exSign 2).get dbg m1 0 0 = .ok v ∧ (exSign 2).get dbg m1' 0 0 = .ok v' ∧ v.1.Between v'.1 := by
  have hz : ∀ {n i j : Nat}, Stored (exSign n).layout i j → i = 0 ∧ j = 0 := fun h =>
    ⟨Nat.lt_one_iff.1 h.1, Nat.lt_one_iff.1 h.2.1⟩
  have o : ((1 : Num754 .f64)).1.Between ((1 : Num754 .f64)).1 := between_self (.inr (zero_le_one (α := ℚ)))
  have e2 : (Num754.ofRat 2 : Num754 .f64).1 = .fin false 2 := by decide +kernel
  have e3 : (Num754.ofRat 3 : Num754 .f64).1 = .fin false 3 := by decide +kernel
  have e5 : (Num754.ofRat 5 : Num754 .f64).1 = .fin false 5 := by decide +kernel
  obtain ⟨m1, _, m1', _, g1, g2, -, -, h⟩ := C101_matmul (Num754.ieee754 .f64) _ (Ieee754.toIeee_refines _)
    (clearingKern (Num754.ieee754 .f64) 0) (clearingKern_fixed _ _ 0 ⟨_, rfl⟩) dbg 1 1 1 1 (exSign 0) (exSign 1) (exSign 2)
    ⟨[[1], [.ofRat 3], [.ofRat 5]]⟩ ⟨[[.ofRat 2], [.ofRat 3], [.ofRat 5]]⟩
    (sound_of_contiguous trivial ⟨by decide, by decide⟩ (by decide))
    (sound_of_contiguous trivial ⟨by decide, by decide⟩ (by decide))
    (sound_of_contiguous trivial ⟨by decide, by decide⟩ (by decide))
    (sound_of_contiguous trivial ⟨by decide, by decide⟩ (by decide))
    (sound_of_contiguous trivial ⟨by decide, by decide⟩ (by decide))
    (sound_of_contiguous trivial ⟨by decide, by decide⟩ (by decide)) trivial trivial trivial trivial
    ⟨rfl, rfl, rfl⟩ (fun _ _ _ _ _ _ h => absurd (show 2 = 0 from congrArg Loc.buf h) (by decide))
    (fun _ _ _ _ _ _ h => absurd (show 2 = 1 from congrArg Loc.buf h) (by decide))
    (fun _ _ => 1) (fun _ _ => .ofRat 3) (fun _ _ => .ofRat 5)
    (fun _ _ => .ofRat 2) (fun _ _ => .ofRat 3) (fun _ _ => .ofRat 5)
    (fun i j h => by obtain ⟨rfl, rfl⟩ := hz (n := 0) h; rfl)
    (fun i j h => by obtain ⟨rfl, rfl⟩ := hz (n := 1) h; rfl)
    (fun i j h => by obtain ⟨rfl, rfl⟩ := hz (n := 2) h; rfl)
    (fun i j h => by obtain ⟨rfl, rfl⟩ := hz (n := 0) h; rfl)
    (fun i j h => by obtain ⟨rfl, rfl⟩ := hz (n := 1) h; rfl)
    (fun i j h => by obtain ⟨rfl, rfl⟩ := hz (n := 2) h; rfl) o o Iff.rfl
    (fun _ _ _ => between_self (.inr (by
      show (fin false 0).Le (Num754.ofRat 5 : Num754 .f64).1
      rw [e5]; show (0 : ℚ) ≤ 5; norm_num)))
    (fun _ _ _ => by
      show (Datum.fin false 1).Between (Num754.ofRat 2 : Num754 .f64).1
      rw [e2]
      exact .inr (.inr ⟨by show (0 : ℚ) ≤ 1; norm_num, by show (1 : ℚ) ≤ 2; norm_num⟩))
    (fun _ _ _ => between_self (.inr (by
      show (fin false 0).Le (Num754.ofRat 3 : Num754 .f64).1
      rw [e3]; show (0 : ℚ) ≤ 3; norm_num)))
  obtain ⟨v, v', _, _, a1, a2, -, -, a3, -⟩ := h 0 0 (by decide) (by decide)
  exact ⟨m1, m1', v, v', g1, g2, a1, a2, a3⟩

/-- By `C101_dot` the product of the row `[x, 2, 3]` and the column `[1, 5, 6]` does not become smaller when
`x` grows from 1 to infinity, whatever the fixed kernel does. -/
example (kern : Kern (Num754 .f64)) (hk : Fixed (Num754.ieee754 .f64) (Num754.ieee754 .f64).toIeee kern) :
    ∃ M m1 M' m1' v v', dot dbg kern .matMat exRowNum exColNum (exMem754 1 1 0) = .ok (M, m1) ∧
      dot dbg kern .matMat exRowNum exColNum (exMem754 (.infinity false) 1 0) = .ok (M', m1') ∧
      M.get dbg m1 0 0 = .ok v ∧ M'.get dbg m1' 0 0 = .ok v' ∧ v.1.Between v'.1 := by
  have hA : ∀ x, Represents exRowNum (exMem754 x 1 0)
      (fun _ l => if l = 0 then x else if l = 1 then .ofRat 2 else .ofRat 3) := by
    rintro x i j ⟨hi, hj, -⟩
    obtain rfl : i = 0 := Nat.lt_one_iff.1 hi
    match j, hj with
    | 0, _ => rfl
    | 1, _ => rfl
    | 2, _ => rfl
  have hB : ∀ x, Represents exColNum (exMem754 x 1 0)
      (fun l _ => if l = 0 then 1 else if l = 1 then .ofRat 5 else .ofRat 6) := by
    rintro x i j ⟨hi, hj, -⟩
    obtain rfl : j = 0 := Nat.lt_one_iff.1 hj
    match i, hi with
    | 0, _ => rfl
    | 1, _ => rfl
    | 2, _ => rfl
  have hq : ∀ q : ℚ, 0 ≤ q → (Num754.ofRat q : Num754 .f64).1 = .fin false q →
      (Num754.ofRat q : Num754 .f64).1.Between (Num754.ofRat q : Num754 .f64).1 := fun q hq h =>
    between_self (.inr (by rw [h]; exact hq))
  obtain ⟨M, m1, M', m1', e, e', h⟩ := C101_dot (Num754.ieee754 .f64) _ (Ieee754.toIeee_refines _) rfl rfl kern hk
    dbg .matMat exRowNum exColNum (exMem754 1 1 0) (exMem754 (.infinity false) 1 0)
    (sound_of_contiguous trivial ⟨by decide, by decide⟩ (by decide))
    (sound_of_contiguous trivial ⟨by decide, by decide⟩ (by decide))
    (sound_of_contiguous trivial ⟨by decide, by decide⟩ (by decide))
    (sound_of_contiguous trivial ⟨by decide, by decide⟩ (by decide)) trivial trivial rfl trivial
    (by decide) _ _ _ _ (hA 1) (hB 1) (hA _) (hB _)
    (fun i j hs => by
      have hj : j < 3 := hs.2.1
      match j, hj with
      | 0, _ => exact .inr (.inr ⟨zero_le_one (α := ℚ), trivial⟩)
      | 1, _ => exact hq 2 (by norm_num) (by decide +kernel)
      | 2, _ => exact hq 3 (by norm_num) (by decide +kernel))
    (fun i j hs => by
      have hi : i < 3 := hs.1
      match i, hi with
      | 0, _ => exact between_self (.inr (zero_le_one (α := ℚ)))
      | 1, _ => exact hq 5 (by norm_num) (by decide +kernel)
      | 2, _ => exact hq 6 (by norm_num) (by decide +kernel))
  obtain ⟨v, v', g1, g2, g3⟩ := h 0 0 (by decide) (by decide)
  exact ⟨M, m1, M', m1', v, v', e, e', g1, g2, g3⟩

/-- Without the condition on signs products are not monotone: `2 * (-3) < 1 * (-3)`. -/
example : exSignProduct loopKern 1 1 (.ofRat (-3)) 0 0 = .ok (.fin true (-3)) ∧
    exSignProduct loopKern 1 (.ofRat 2) (.ofRat (-3)) 0 0 = .ok (.fin true (-6)) ∧
    ¬ (Datum.fin true (-3)).Le (.fin true (-6)) :=
  ⟨by decide +kernel, by decide +kernel, fun h => absurd (show (-3 : ℚ) ≤ -6 from h) (by norm_num)⟩

/-- By `C101_expressions` the element of `a + (-2) * b` does not become smaller when that of `a` grows from 1
to infinity and that of `b` falls from 1 to -1. -/
example : ∃ (m : Mat (Num754 .f64)) (v v' : Num754 .f64), (Ex.add true true (.leaf (exSign 0))
      (.scale true true (.ofRat (-2)) (.leaf (exSign 1)))).build = .ok m ∧
    m.get dbg ⟨[[1], [1]]⟩ 0 0 = .ok v ∧ m.get dbg ⟨[[.infinity false], [.ofRat (-1)]]⟩ 0 0 = .ok v' ∧
    v.1.UpTo v'.1 := by
  set e : Ex (Num754 .f64) := Ex.add true true (.leaf (exSign 0))
    (.scale true true (.ofRat (-2)) (.leaf (exSign 1))) with he
  have ht : e.Typed := by simp [he, exSign, Ex.Typed, Ex.kind, Ex.sizes]
  have hc : e.Conform := by simp [he, exSign, Ex.Conform, Ex.dim]
  obtain ⟨m, hm, -⟩ := (e.build_spec ht).1 hc
  have hl : ∀ b ∈ e.leaves, b = exSign 0 ∨ b = exSign 1 := by
    intro b hb
    simpa [he, Ex.leaves] using hb
  have hs : ∀ (x y : Num754 .f64) n, n < 2 → Sound (exSign n) (⟨[[x], [y]]⟩ : Mem (Num754 .f64)) := by
    intro x y n hn
    match n, hn with
    | 0, _ => exact sound_of_contiguous trivial ⟨by show 0 + 1 ≤ 1; omega, by show 1 * 4 ≤ isizeMax; decide⟩ (by decide)
    | 1, _ => exact sound_of_contiguous trivial ⟨by show 0 + 1 ≤ 1; omega, by show 1 * 4 ≤ isizeMax; decide⟩ (by decide)
  have hg : ∀ (x y : Num754 .f64) b, b ∈ e.leaves → b.get dbg ⟨[[x], [y]]⟩ 0 0 =
      .ok (if b = exSign 0 then x else y) := by
    intro x y b hb
    rcases hl b hb with rfl | rfl
    · exact Sound.get (m := exSign 0) (r := 0) (c := 0) (hs x y 0 (by decide)) dbg
        ⟨Nat.zero_lt_one, Nat.zero_lt_one, fun _ h => nomatch h⟩ rfl
    · exact Sound.get (m := exSign 1) (r := 0) (c := 0) (hs x y 1 (by decide)) dbg
        ⟨Nat.zero_lt_one, Nat.zero_lt_one, fun _ h => nomatch h⟩ rfl
  have hk : ((Num754.ieee754 .f64).datum (.ofRat (-2))).negative = true := by decide +kernel
  obtain ⟨v, v', h1, h2, -, h3⟩ := C101_expressions (Num754.ieee754 .f64) dbg e ⟨[[1], [1]]⟩
    ⟨[[.infinity false], [.ofRat (-1)]]⟩ m ht
    (fun b hb => by rcases hl b hb with rfl | rfl <;> exact hs _ _ _ (by decide))
    (fun b hb => by rcases hl b hb with rfl | rfl <;> exact hs _ _ _ (by decide))
    hm 0 0 (by decide) _ _ (hg _ _) (hg _ _) (by
      refine ⟨.inr (.inr trivial), ?_⟩
      show Ex.Grows _ _ _ (false != _) _
      rw [hk]
      show (Num754.ofRat (-1) : Num754 .f64).1.UpTo (.fin false 1)
      rw [show (Num754.ofRat (-1) : Num754 .f64).1 = .fin true (-1) by decide +kernel]
      exact .inr (.inr (show (-1 : ℚ) ≤ 1 by norm_num)))
  exact ⟨m, v, v', hm, h1, h2, h3⟩

end Householder.Props
