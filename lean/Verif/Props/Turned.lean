import Verif.Lemmas.Turned
import Verif.Props.Monotone

/-!
# C103: changing the signs of the operands changes the signs of the results
-/

namespace Householder.Props

open Spec Datum

variable {F : Type} [Add F] [Sub F] [Mul F] {f : Format}

/-! ## Products -/

theorem oblivious_turned {S : Ieee754 f F} {R : Ieee f F} (hR : S.Refines R) {kern : Kern F} (hk : Oblivious S R kern)
    (site : Site) {alpha beta c c' : F} {k : ℕ} {a a' b b' : ℕ → F} {p q : Bool}
    (h3 : (S.datum c).Turned (p != q) (S.datum c'))
    (h4 : ∀ l < k, (S.datum (a l)).Turned p (S.datum (a' l)))
    (h5 : ∀ l < k, (S.datum (b l)).Turned q (S.datum (b' l))) :
    (S.datum (kern site alpha ((List.range k).map fun l => (a l, b l)) beta c)).Turned (p != q)
      (S.datum (kern site alpha ((List.range k).map fun l => (a' l, b' l)) beta c')) := by
  obtain ⟨z, T, hz, hT, e⟩ := hk
  have := Fp.turned (p := p) (q := q) hR
    (v := Operand.value z alpha ((List.range k).map fun l => (a l, b l)) beta c)
    (v' := Operand.value z alpha ((List.range k).map fun l => (a' l, b' l)) beta c') (fun o m ho => by
      cases o with
      | alpha => obtain rfl : m = .scalar := ho; exact turned_self _
      | beta => obtain rfl : m = .scalar := ho; exact turned_self _
      | old => obtain rfl : m = .term := ho; exact h3
      | zero => exact turned_zero hz _
      | left l =>
        obtain rfl : m = .row := ho
        by_cases hl : l < k
        · simpa [Operand.value, hl, Made.sign] using h4 l hl
        · simpa [Operand.value, hl, Made.sign] using turned_zero hz p
      | right l =>
        obtain rfl : m = .column := ho
        by_cases hl : l < k
        · simpa [Operand.value, hl, Made.sign] using h5 l hl
        · simpa [Operand.value, hl, Made.sign] using turned_zero hz q)
    (T alpha beta site k) .term (hT ..)
  rw [e, e]
  simpa [Made.sign] using this

theorem loopTree_is (clear : Bool) : ∀ k, (loopTree clear k).Is .term
  | 0 => by
    cases clear
    · exact ⟨.term, .scalar, rfl, rfl, rfl⟩
    · exact trivial
  | k + 1 => ⟨loopTree_is clear k, .row, .column, rfl, ⟨.scalar, .row, rfl, rfl, rfl⟩, rfl⟩

/-- The kernel of the unit tests' reference product is oblivious. -/
theorem loopKern_oblivious (S : Ieee754 f F) (R : Ieee f F) (z : F) (hz : (S.datum z).IsZero) :
    Oblivious S R loopKern :=
  ⟨z, fun _ _ _ => loopTree false, hz, fun _ _ _ => loopTree_is _, fun _ alpha ps beta c => by
    have := loopTree_run R false z alpha beta c ps []
    rw [List.append_nil] at this
    rw [this]
    rfl⟩

/-- The kernel that does not read the old element if `beta` is 0 is oblivious. -/
theorem clearingKern_oblivious (S : Ieee754 f F) (R : Ieee f F) (z : F) (hz : (S.datum z).IsZero) :
    Oblivious S R (clearingKern S z) :=
  ⟨z, fun _ beta _ => loopTree (decide ((S.datum beta).val = some 0)), hz, fun _ _ _ => loopTree_is _,
    fun site alpha ps beta c => by
    have := loopTree_run R ((S.datum beta).val = some 0) z alpha beta c ps []
    rw [List.append_nil] at this
    rw [this]
    unfold clearingKern
    by_cases h : (S.datum beta).val = some 0 <;> simp [h, loopKern]⟩

/-- The fused multiply-adds of `n` terms from the `l`-th on. -/
def fusedTree (l : ℕ) : ℕ → Fp Operand
  | 0 => .lit .zero
  | n + 1 => .fma (.lit (.left l)) (.lit (.right l)) (fusedTree (l + 1) n)

theorem fusedTree_is : ∀ n l, (fusedTree l n).Is .term
  | 0, _ => trivial
  | n + 1, l => ⟨⟨.row, .column, rfl, rfl, rfl⟩, fusedTree_is n (l + 1)⟩

theorem fusedTree_run (R : Ieee f F) (z alpha beta c : F) (ps qs : List (F × F)) :
    ((fusedTree qs.length ps.length).fill (Operand.value z alpha (qs ++ ps) beta c)).run R =
      ps.foldr (fun p s => R.fma p.1 p.2 s) z := by
  induction ps generalizing qs with
  | nil => rfl
  | cons p ps ih =>
    have := ih (qs ++ [p])
    simp only [List.length_append, List.length_singleton, List.append_assoc, List.singleton_append] at this
    simp only [List.length_cons, fusedTree, Fp.fill, Fp.run, List.foldr_cons, this, Operand.value]
    simp

/-- The kernel with fused multiply-adds, from the last term to the first, is oblivious. -/
theorem fusedKern_oblivious (S : Ieee754 f F) (R : Ieee f F) (z : F) (hz : (S.datum z).IsZero) :
    Oblivious S R (fusedKern R z) := by
  refine ⟨z, fun _ _ _ k => if k = 0 then .mul (.lit .beta) (.lit .old) else
    .fma (.lit .alpha) (fusedTree 0 k) (.mul (.lit .beta) (.lit .old)), hz, fun _ _ _ k => ?_,
    fun site alpha ps beta c => ?_⟩
  · have h : (Fp.mul (.lit Operand.beta) (.lit .old)).Is .term := ⟨.scalar, .term, rfl, rfl, rfl⟩
    show Fp.Is .term (if k = 0 then _ else _)
    split_ifs
    · exact h
    · exact ⟨⟨.scalar, .term, rfl, rfl, fusedTree_is k 0⟩, h⟩
  · unfold fusedKern
    by_cases hp : ps = []
    · subst hp
      rfl
    · have hn : ps.length ≠ 0 := fun h => hp (List.length_eq_zero_iff.1 h)
      have := fusedTree_run R z alpha beta c ps []
      simp only [List.nil_append, List.length_nil] at this
      simp only [if_neg hp, if_neg hn, Fp.fill, Fp.run, this]
      rfl

/-- **C103, matmul.** With scalars that follow IEEE-754 and a kernel whose order of operations does not depend on
the elements: if the elements of `a` change their signs (`p`) or those of `b` do (`q`), and those of `c` do when
exactly one of the two does, then every element of the result changes its sign exactly when those of `c` did,
and nothing else, through all roundings, underflow, overflow, infinities and NaN (the signs of zeros and NaN left
open). The same holds of the reference product of the unit tests. -/
theorem C103_matmul [Target] (S : Ieee754 f F) (R : Ieee f F) (hR : S.Refines R) (kern : Kern F)
    (hk : Oblivious S R kern) (cfg : Cfg) (alpha beta : F) (a b c : BaseMatrix) (mem mem' : Mem F)
    (ha : Sound a mem) (hb : Sound b mem) (hc : Sound c mem) (ha' : Sound a mem') (hb' : Sound b mem')
    (hc' : Sound c mem') (hoa : Honest a.layout) (hob : Honest b.layout) (hoc : Honest c.layout)
    (hn : NonOverlapping c.layout) (hd : Compatible a.layout b.layout c.layout) (hca : Separate c a)
    (hcb : Separate c b) (A B C A' B' C' : Arr F)
    (hA : Represents a mem A) (hB : Represents b mem B) (hC : Represents c mem C)
    (hA' : Represents a mem' A') (hB' : Represents b mem' B') (hC' : Represents c mem' C') (p q : Bool)
    (h3 : ∀ i j, Stored c.layout i j → (S.datum (C i j)).Turned (p != q) (S.datum (C' i j)))
    (h4 : ∀ i j, Stored a.layout i j → (S.datum (A i j)).Turned p (S.datum (A' i j)))
    (h5 : ∀ i j, Stored b.layout i j → (S.datum (B i j)).Turned q (S.datum (B' i j))) :
    ∃ m1 m2 m1' m2', matmul kern alpha a b beta c mem = .ok m1 ∧ matmul kern alpha a b beta c mem' = .ok m1' ∧
      matmul_expect cfg alpha a b beta c mem = .ok m2 ∧ matmul_expect cfg alpha a b beta c mem' = .ok m2' ∧
      ∀ i j, i < c.layout.dim.1 → j < c.layout.dim.2 →
        ∃ v v' w w', c.get cfg m1 i j = .ok v ∧ c.get cfg m1' i j = .ok v' ∧
          c.get cfg m2 i j = .ok w ∧ c.get cfg m2' i j = .ok w' ∧
          (S.datum v).Turned (p != q) (S.datum v') ∧ (S.datum w).Turned (p != q) (S.datum w') := by
  obtain ⟨m1, e1, hf1, hr1⟩ := matmul_honest (kern := kern) (alpha := alpha) (beta := beta)
    ha hb hc hoa hob hoc hn hd hca hcb hA hB hC
  obtain ⟨m2, e2, hf2, hr2⟩ := matmul_expect_any cfg alpha beta ha hb hc hoa.notTri hob.notTri
    hoc.notTri hn hd hca hcb hA hB hC
  obtain ⟨m1', e1', hf1', hr1'⟩ := matmul_honest (kern := kern) (alpha := alpha) (beta := beta)
    ha' hb' hc' hoa hob hoc hn hd hca hcb hA' hB' hC'
  obtain ⟨m2', e2', hf2', hr2'⟩ := matmul_expect_any cfg alpha beta ha' hb' hc' hoa.notTri hob.notTri
    hoc.notTri hn hd hca hcb hA' hB' hC'
  refine ⟨m1, m2, m1', m2', e1, e1', e2, e2', fun i j hi hj => ?_⟩
  have hs : Stored c.layout i j := (stored_of_notTri hoc.notTri).2 ⟨hi, hj⟩
  obtain ⟨d1, d2, d3⟩ := hd
  have hl : ∀ l < a.layout.dim.2, Stored a.layout i l := fun l hl =>
    (stored_of_notTri hoa.notTri).2 ⟨by omega, hl⟩
  have hr : ∀ l < a.layout.dim.2, Stored b.layout l j := fun l hl =>
    (stored_of_notTri hob.notTri).2 ⟨by omega, by omega⟩
  refine ⟨_, _, _, _, (hc.mono (by rw [hf1.size])).get cfg hs (hr1 i j hs),
    (hc'.mono (by rw [hf1'.size])).get cfg hs (hr1' i j hs),
    (hc.mono (by rw [hf2.size])).get cfg hs (hr2 i j hs),
    (hc'.mono (by rw [hf2'.size])).get cfg hs (hr2' i j hs),
    oblivious_turned hR hk _ (h3 i j hs) (fun l h => h4 i l (hl l h)) (fun l h => h5 l j (hr l h)), ?_⟩
  obtain ⟨z, -, hz, -⟩ := hk
  simp only [← accumulate_loop (site := ⟨0, 0, 0, 0⟩)]
  exact oblivious_turned hR (loopKern_oblivious S R z hz) _ (h3 i j hs) (fun l h => h4 i l (hl l h))
    (fun l h => h5 l j (hr l h))

/-- **C103, dot.** The same for `a.dot(&b)`: the product of `-a` and `b`, or of `a` and `-b`, is the opposite of
the product of `a` and `b`; that of `-a` and `-b` is the same. -/
theorem C103_dot [Target] [Zero F] [One F] (S : Ieee754 f F) (R : Ieee f F) (hR : S.Refines R)
    (h0 : (S.datum 0).IsZero) (kern : Kern F)
    (hk : Oblivious S R kern) (cfg : Cfg) (i : DotImpl) (a b : BaseMatrix) (mem mem' : Mem F)
    (ha : Sound a mem) (hb : Sound b mem) (ha' : Sound a mem') (hb' : Sound b mem')
    (hoa : Honest a.layout) (hob : Honest b.layout)
    (hd : a.layout.dim.2 = b.layout.dim.1) (hv : VectorShape i a b)
    (hsz : a.layout.dim.1 * b.layout.dim.2 * cfg.item.size ≤ isizeMax) (A B A' B' : Arr F)
    (hA : Represents a mem A) (hB : Represents b mem B) (hA' : Represents a mem' A') (hB' : Represents b mem' B')
    (p q : Bool)
    (h4 : ∀ i j, Stored a.layout i j → (S.datum (A i j)).Turned p (S.datum (A' i j)))
    (h5 : ∀ i j, Stored b.layout i j → (S.datum (B i j)).Turned q (S.datum (B' i j))) :
    ∃ M m1 M' m1', dot cfg kern i a b mem = .ok (M, m1) ∧ dot cfg kern i a b mem' = .ok (M', m1') ∧
      ∀ r c, r < a.layout.dim.1 → c < b.layout.dim.2 →
        ∃ v v', M.get cfg m1 r c = .ok v ∧ M'.get cfg m1' r c = .ok v' ∧
          (S.datum v).Turned (p != q) (S.datum v') := by
  obtain ⟨M, m1, e, hl, hnew, hrep⟩ := dot_kern kern ha hb hoa hob hd hv hsz hA hB
  obtain ⟨M', m1', e', hl', hnew', hrep'⟩ := dot_kern kern ha' hb' hoa hob hd hv hsz hA' hB'
  have hdim := productLayout_dim hv
  have hnt := (productLayout_props i a.layout.dim.1 b.layout.dim.2).2.2.notTri
  refine ⟨M, m1, M', m1', e, e', fun r c hr hc => ?_⟩
  have hs : Stored M.layout r c := by rw [hl]; exact (stored_of_notTri hnt).2 (by rw [hdim]; exact ⟨hr, hc⟩)
  have hs' : Stored M'.layout r c := by rw [hl']; exact (stored_of_notTri hnt).2 (by rw [hdim]; exact ⟨hr, hc⟩)
  refine ⟨_, _, hnew.sound.get cfg hs (hrep r c hs), hnew'.sound.get cfg hs' (hrep' r c hs'), ?_⟩
  exact oblivious_turned hR hk _ (turned_zero h0 _)
    (fun l h => h4 r l ((stored_of_notTri hoa.notTri).2 ⟨hr, h⟩))
    (fun l h => h5 l c ((stored_of_notTri hob.notTri).2 ⟨by omega, hc⟩))

/-! ## Expressions -/

theorem turned_run (S : Ieee754 f F) (X X' : BaseMatrix → F) (s : Bool) (e : Ex F)
    (h : ∀ b ∈ e.leaves, (S.datum (X b)).Turned s (S.datum (X' b))) :
    (S.datum ((e.operations X).run S.toIeee)).Turned s (S.datum ((e.operations X').run S.toIeee)) := by
  induction e with
  | leaf b => exact h b (by simp [Ex.leaves])
  | ref a ih => exact ih h
  | add _ _ a b iha ihb =>
    exact sum_turned (S.add_datum _ _) (S.add_datum _ _) (iha fun b hb => h b (List.mem_append.2 (.inl hb)))
      (ihb fun b hb => h b (List.mem_append.2 (.inr hb)))
  | scale _ _ k a ih =>
    have := product_turned (S.mul_datum k ((a.operations X).run S.toIeee))
      (S.mul_datum k ((a.operations X').run S.toIeee)) (S.proper _) (S.proper _) (S.proper _) (S.proper _)
      (turned_self _) (ih h)
    rwa [Bool.false_bne] at this

theorem expression_run [Target] [Zero F] (R : Ieee f F) {cfg : Cfg} {e : Ex F} {mem : Mem F} {m : Mat F}
    (ht : e.Typed) (hl : ∀ b ∈ e.leaves, Sound b mem) (hb : e.build = .ok m)
    {r c : Nat} (hrc : (r, c) ∈ orderOf e.kind e.dim) {X : BaseMatrix → F}
    (hX : ∀ b ∈ e.leaves, b.get cfg mem r c = .ok (X b)) :
    ∃ v, m.get cfg mem r c = .ok v ∧ (e.operations X).run R = v ∧
      ((e.kind = .columnVector → e.dim.1 = 1) →
        (orderOf e.kind e.dim).length * cfg.item.size ≤ isizeMax →
        ∃ N mem', m.eval cfg mem = .ok (N, mem') ∧ N.get cfg mem' r c = .ok v) := by
  obtain ⟨v, h1, h2, -⟩ := C80_expressions R cfg e mem m ht hl hb r c hrc X hX
  refine ⟨v, h1, ?_, h2⟩
  have hc := conform_of_build ht hb
  have hX' : ∀ b ∈ e.leaves, elem b mem r c = some (X b) := by
    intro b hb
    obtain ⟨hd, hki⟩ := leaf_shape e ht hc b hb
    have hs : Stored b.layout r c := by rw [← mem_order, order_eq_orderOf, hd, hki]; exact hrc
    obtain ⟨w, hw⟩ := (hl b hb).elem_some hs
    have := hX b hb
    rw [(hl b hb).get cfg hs hw] at this
    rw [hw]
    simpa using this
  obtain ⟨k, hk⟩ := List.mem_iff_getElem?.1 hrc
  obtain ⟨w, g1, g2, -⟩ := (C35_get1d_get cfg e mem m ht hl hb k).1 r c hk
  obtain rfl : v = w := by rw [h1] at g2; simpa using g2
  exact operations_run R X e mem r c v hX' g1

/-- **C103, expressions.** If the elements of all matrices of an expression change their signs, the element of the
built expression does, and that of the matrix that `eval` returns, and nothing else changes (the signs of zeros
and NaN left open). -/
theorem C103_expressions [Target] [Zero F] (S : Ieee754 f F) (cfg : Cfg) (e : Ex F) (mem mem' : Mem F) (m : Mat F)
    (ht : e.Typed) (hl : ∀ b ∈ e.leaves, Sound b mem) (hl' : ∀ b ∈ e.leaves, Sound b mem') (hb : e.build = .ok m)
    (r c : Nat) (hrc : (r, c) ∈ orderOf e.kind e.dim) (X X' : BaseMatrix → F)
    (hX : ∀ b ∈ e.leaves, b.get cfg mem r c = .ok (X b)) (hX' : ∀ b ∈ e.leaves, b.get cfg mem' r c = .ok (X' b))
    (s : Bool) (hg : ∀ b ∈ e.leaves, (S.datum (X b)).Turned s (S.datum (X' b))) :
    ∃ v v', m.get cfg mem r c = .ok v ∧ m.get cfg mem' r c = .ok v' ∧
      ((e.kind = .columnVector → e.dim.1 = 1) →
        (orderOf e.kind e.dim).length * cfg.item.size ≤ isizeMax →
        ∃ N m1 N' m1', m.eval cfg mem = .ok (N, m1) ∧ m.eval cfg mem' = .ok (N', m1') ∧
          N.get cfg m1 r c = .ok v ∧ N'.get cfg m1' r c = .ok v') ∧
      (S.datum v).Turned s (S.datum v') := by
  obtain ⟨v, h1, h2, h3⟩ := expression_run S.toIeee ht hl hb hrc hX
  obtain ⟨v', h1', h2', h3'⟩ := expression_run S.toIeee ht hl' hb hrc hX'
  refine ⟨v, v', h1, h1', fun g1 g2 => ?_, ?_⟩
  · obtain ⟨N, m1, a1, a2⟩ := h3 g1 g2
    obtain ⟨N', m1', a1', a2'⟩ := h3' g1 g2
    exact ⟨N, m1, N', m1', a1, a1', a2, a2'⟩
  · have := turned_run S X X' s e hg
    rwa [h2, h2'] at this

/-! ## Kernels that choose -/

/-- **C103, choosing kernels.** A kernel that chooses one of the allowed orders by the elements need not give
opposite results for opposite elements: for the row `[2^53, 1, 1]` it gives `2^53`, for `[-2^53, -1, -1]` it
gives `-(2^53 + 2)`. -/
theorem C103_choice [Target] :
    Exactly (Num754.ieee754 .f64) (Num754.ieee754 .f64).toIeee choosingKern ∧
    ¬ Oblivious (Num754.ieee754 .f64) (Num754.ieee754 .f64).toIeee choosingKern ∧
    (∀ site, (choosingKern site 1 [(.ofRat (2 ^ 53), 1), (1, 1), (1, 1)] 0 0).1 = .fin false (2 ^ 53)) ∧
    ∀ site, (choosingKern site 1 [(.ofRat (-2 ^ 53), 1), (.ofRat (-1), 1), (.ofRat (-1), 1)] 0 0).1 =
      .fin true (-(2 ^ 53 + 2)) := by
  obtain ⟨h0, -, -, h1⟩ := C101_choice
  have h2 : ∀ site, (choosingKern site 1 [(.ofRat (-2 ^ 53), 1), (.ofRat (-1), 1), (.ofRat (-1), 1)] 0 0).1 =
      .fin true (-(2 ^ 53 + 2)) := fun site => by
    rw [choosingKern_site site ⟨0, 0, 0, 0⟩]; decide +kernel
  refine ⟨h0, fun h => ?_, h1, h2⟩
  have := oblivious_turned (k := 3) (Ieee754.toIeee_refines _) h ⟨0, 0, 0, 0⟩ (alpha := 1) (beta := 0)
    (c := 0) (c' := 0) (p := true) (q := false)
    (a := fun l => if l = 0 then .ofRat (2 ^ 53) else 1)
    (a' := fun l => if l = 0 then .ofRat (-2 ^ 53) else .ofRat (-1)) (b := fun _ => 1) (b' := fun _ => 1)
    (turned_zero ⟨_, rfl⟩ _)
    (fun l hl => by
      have t0 : (Num754.ofRat (2 ^ 53) : Num754 .f64).1.Turned true (Num754.ofRat (-2 ^ 53) : Num754 .f64).1 := by
        rw [show (Num754.ofRat (2 ^ 53) : Num754 .f64).1 = .fin false (2 ^ 53) by decide +kernel,
          show (Num754.ofRat (-2 ^ 53) : Num754 .f64).1 = .fin true (-2 ^ 53) by decide +kernel]
        rfl
      have t1 : (1 : Num754 .f64).1.Turned true (Num754.ofRat (-1) : Num754 .f64).1 := by
        rw [show (Num754.ofRat (-1) : Num754 .f64).1 = .fin true (-1) by decide +kernel]
        rfl
      match l, hl with
      | 0, _ => exact t0
      | 1, _ => exact t1
      | 2, _ => exact t1)
    (fun l hl => turned_self _)
  have e1 := h1 ⟨0, 0, 0, 0⟩
  have e2 := h2 ⟨0, 0, 0, 0⟩
  change (choosingKern ⟨0, 0, 0, 0⟩ 1 [(.ofRat (2 ^ 53), 1), (1, 1), (1, 1)] 0 0).1.Turned true
    (choosingKern ⟨0, 0, 0, 0⟩ 1 [(.ofRat (-2 ^ 53), 1), (.ofRat (-1), 1), (.ofRat (-1), 1)] 0 0).1 at this
  rw [e1, e2] at this
  have : (-(2 ^ 53 + 2) : ℚ) = -2 ^ 53 := this
  norm_num at this

/-! ## Examples -/

/-- By `C103_matmul`, with the kernel of fused multiply-adds: `1 * [x] * [3] + 1 * [z]` for `x = 1`, `z = 5` and
`x = -1`, `z = -5`. -/
example : ∃ m1 m1' v v', matmul (fusedKern (Num754.ieee754 .f64).toIeee 0) 1 (exSign 0) (exSign 1) 1 (exSign 2)
        (⟨[[1], [.ofRat 3], [.ofRat 5]]⟩ : Mem (Num754 .f64)) = .ok m1 ∧
      matmul (fusedKern (Num754.ieee754 .f64).toIeee 0) 1 (exSign 0) (exSign 1) 1 (exSign 2)
        (⟨[[.ofRat (-1)], [.ofRat 3], [.ofRat (-5)]]⟩ : Mem (Num754 .f64)) = .ok m1' ∧
      (exSign 2).get dbg m1 0 0 = .ok v ∧ (exSign 2).get dbg m1' 0 0 = .ok v' ∧ v.1.Turned true v'.1 := by
  have hz : ∀ {n i j : Nat}, Stored (exSign n).layout i j → i = 0 ∧ j = 0 := fun h =>
    ⟨Nat.lt_one_iff.1 h.1, Nat.lt_one_iff.1 h.2.1⟩
  have e1 : (Num754.ofRat (-1) : Num754 .f64).1 = .fin true (-1) := by decide +kernel
  have e5 : (Num754.ofRat 5 : Num754 .f64).1 = .fin false 5 := by decide +kernel
  have e5' : (Num754.ofRat (-5) : Num754 .f64).1 = .fin true (-5) := by decide +kernel
  obtain ⟨m1, _, m1', _, g1, g2, -, -, h⟩ := C103_matmul (Num754.ieee754 .f64) _ (Ieee754.toIeee_refines _)
    (fusedKern (Num754.ieee754 .f64).toIeee 0) (fusedKern_oblivious _ _ 0 ⟨_, rfl⟩) dbg 1 1 (exSign 0) (exSign 1)
    (exSign 2)
    ⟨[[1], [.ofRat 3], [.ofRat 5]]⟩ ⟨[[.ofRat (-1)], [.ofRat 3], [.ofRat (-5)]]⟩
    (sound_of_contiguous trivial ⟨by decide, by decide⟩ (by decide))
    (sound_of_contiguous trivial ⟨by decide, by decide⟩ (by decide))
    (sound_of_contiguous trivial ⟨by decide, by decide⟩ (by decide))
    (sound_of_contiguous trivial ⟨by decide, by decide⟩ (by decide))
    (sound_of_contiguous trivial ⟨by decide, by decide⟩ (by decide))
    (sound_of_contiguous trivial ⟨by decide, by decide⟩ (by decide)) trivial trivial trivial trivial
    ⟨rfl, rfl, rfl⟩ (fun _ _ _ _ _ _ h => absurd (show 2 = 0 from congrArg Loc.buf h) (by decide))
    (fun _ _ _ _ _ _ h => absurd (show 2 = 1 from congrArg Loc.buf h) (by decide))
    (fun _ _ => 1) (fun _ _ => .ofRat 3) (fun _ _ => .ofRat 5)
    (fun _ _ => .ofRat (-1)) (fun _ _ => .ofRat 3) (fun _ _ => .ofRat (-5))
    (fun i j h => by obtain ⟨rfl, rfl⟩ := hz (n := 0) h; rfl)
    (fun i j h => by obtain ⟨rfl, rfl⟩ := hz (n := 1) h; rfl)
    (fun i j h => by obtain ⟨rfl, rfl⟩ := hz (n := 2) h; rfl)
    (fun i j h => by obtain ⟨rfl, rfl⟩ := hz (n := 0) h; rfl)
    (fun i j h => by obtain ⟨rfl, rfl⟩ := hz (n := 1) h; rfl)
    (fun i j h => by obtain ⟨rfl, rfl⟩ := hz (n := 2) h; rfl) true false
    (fun _ _ _ => by
      show (Num754.ofRat 5 : Num754 .f64).1.Turned true (Num754.ofRat (-5) : Num754 .f64).1
      rw [e5, e5']; rfl)
    (fun _ _ _ => by
      show (Datum.fin false 1).Turned true (Num754.ofRat (-1) : Num754 .f64).1
      rw [e1]; rfl)
    (fun _ _ _ => turned_self _)
  obtain ⟨v, v', _, _, a1, a2, -, -, a3, -⟩ := h 0 0 (by decide) (by decide)
  exact ⟨m1, m1', v, v', g1, g2, a1, a2, a3⟩

/-- By `C103_dot` the product of the row `[x, 2, 3]` and `[1, 5, 6]`, and that of the same row and the opposite
column: what is NaN stays NaN, infinities and numbers change their signs. -/
example (kern : Kern (Num754 .f64)) (hk : Oblivious (Num754.ieee754 .f64) (Num754.ieee754 .f64).toIeee kern)
    (x : Num754 .f64) :
    ∃ M m1 M' m1' v v', dot dbg kern .matMat exRowNum exColNum (exMem754 x 1 0) = .ok (M, m1) ∧
      dot dbg kern .matMat exRowNum exColNum
        ⟨[[x, .ofRat 2, .ofRat 3], [.ofRat (-1), .ofRat (-5), .ofRat (-6)], [0]]⟩ = .ok (M', m1') ∧
      M.get dbg m1 0 0 = .ok v ∧ M'.get dbg m1' 0 0 = .ok v' ∧ v.1.Turned true v'.1 := by
  have hA : ∀ l : List (Num754 .f64), Represents exRowNum ⟨[[x, .ofRat 2, .ofRat 3], l, [0]]⟩
      (fun _ l => if l = 0 then x else if l = 1 then .ofRat 2 else .ofRat 3) := by
    rintro _ i j ⟨hi, hj, -⟩
    obtain rfl : i = 0 := Nat.lt_one_iff.1 hi
    match j, hj with
    | 0, _ => rfl
    | 1, _ => rfl
    | 2, _ => rfl
  have hB : ∀ u v w : Num754 .f64, Represents exColNum ⟨[[x, .ofRat 2, .ofRat 3], [u, v, w], [0]]⟩
      (fun l _ => if l = 0 then u else if l = 1 then v else w) := by
    rintro u v w i j ⟨hi, hj, -⟩
    obtain rfl : j = 0 := Nat.lt_one_iff.1 hj
    match i, hi with
    | 0, _ => rfl
    | 1, _ => rfl
    | 2, _ => rfl
  have hq : ∀ q : ℚ, (Num754.ofRat q : Num754 .f64).1 = .fin false q →
      (Num754.ofRat (-q) : Num754 .f64).1 = .fin true (-q) →
      (Num754.ofRat q : Num754 .f64).1.Turned true (Num754.ofRat (-q) : Num754 .f64).1 := fun q h h' => by
    rw [h, h']; rfl
  obtain ⟨M, m1, M', m1', e, e', h⟩ := C103_dot (Num754.ieee754 .f64) _ (Ieee754.toIeee_refines _) ⟨_, rfl⟩ kern hk
    dbg .matMat exRowNum exColNum (exMem754 x 1 0)
    ⟨[[x, .ofRat 2, .ofRat 3], [.ofRat (-1), .ofRat (-5), .ofRat (-6)], [0]]⟩
    (sound_of_contiguous trivial ⟨by show 0 + 3 ≤ 3; omega, by show 3 * 4 ≤ isizeMax; decide⟩ (by decide))
    (sound_of_contiguous trivial ⟨by show 0 + 3 ≤ 3; omega, by show 3 * 4 ≤ isizeMax; decide⟩ (by decide))
    (sound_of_contiguous trivial ⟨by show 0 + 3 ≤ 3; omega, by show 3 * 4 ≤ isizeMax; decide⟩ (by decide))
    (sound_of_contiguous trivial ⟨by show 0 + 3 ≤ 3; omega, by show 3 * 4 ≤ isizeMax; decide⟩ (by decide))
    trivial trivial rfl trivial
    (by decide) _ _ _ _ (hA _) (hB _ _ _) (hA _) (hB _ _ _) false true
    (fun i j hs => turned_self _)
    (fun i j hs => by
      have hi : i < 3 := hs.1
      match i, hi with
      | 0, _ =>
        show (Datum.fin false 1).Turned true (Num754.ofRat (-1) : Num754 .f64).1
        rw [show (Num754.ofRat (-1) : Num754 .f64).1 = .fin true (-1) by decide +kernel]
        rfl
      | 1, _ => exact hq 5 (by decide +kernel) (by decide +kernel)
      | 2, _ => exact hq 6 (by decide +kernel) (by decide +kernel))
  obtain ⟨v, v', g1, g2, g3⟩ := h 0 0 (by decide) (by decide)
  exact ⟨M, m1, M', m1', v, v', e, e', g1, g2, g3⟩

/-- By `C103_expressions`: the element of `a + (-2) * b` for the elements 1, infinity, and for -1, -infinity. -/
example : ∃ (m : Mat (Num754 .f64)) (v v' : Num754 .f64), (Ex.add true true (.leaf (exSign 0))
      (.scale true true (.ofRat (-2)) (.leaf (exSign 1)))).build = .ok m ∧
    m.get dbg ⟨[[1], [.infinity false]]⟩ 0 0 = .ok v ∧ m.get dbg ⟨[[.ofRat (-1)], [.infinity true]]⟩ 0 0 = .ok v' ∧
    v.1.Turned true v'.1 := by
  set e : Ex (Num754 .f64) := Ex.add true true (.leaf (exSign 0))
    (.scale true true (.ofRat (-2)) (.leaf (exSign 1))) with he
  have ht : e.Typed := by simp [he, exSign, Ex.Typed, Ex.kind, Ex.sizes]
  have hc : e.Conform := by simp [he, exSign, Ex.Conform, Ex.dim]
  obtain ⟨m, hm, -⟩ := (e.build_spec ht).1 hc
  have hl : ∀ b ∈ e.leaves, b = exSign 0 ∨ b = exSign 1 := by
    intro b hb
    simpa [he, Ex.leaves] using hb
  have hs : ∀ (x y : Num754 .f64) n, n < 2 → Sound (exSign n) (⟨[[x], [y]]⟩ : Mem (Num754 .f64)) := by
    intro x y n hn
    match n, hn with
    | 0, _ => exact sound_of_contiguous trivial ⟨by show 0 + 1 ≤ 1; omega, by show 1 * 4 ≤ isizeMax; decide⟩ (by decide)
    | 1, _ => exact sound_of_contiguous trivial ⟨by show 0 + 1 ≤ 1; omega, by show 1 * 4 ≤ isizeMax; decide⟩ (by decide)
  have hg : ∀ (x y : Num754 .f64) b, b ∈ e.leaves → b.get dbg ⟨[[x], [y]]⟩ 0 0 =
      .ok (if b = exSign 0 then x else y) := by
    intro x y b hb
    rcases hl b hb with rfl | rfl
    · exact Sound.get (m := exSign 0) (r := 0) (c := 0) (hs x y 0 (by decide)) dbg
        ⟨Nat.zero_lt_one, Nat.zero_lt_one, fun _ h => nomatch h⟩ rfl
    · exact Sound.get (m := exSign 1) (r := 0) (c := 0) (hs x y 1 (by decide)) dbg
        ⟨Nat.zero_lt_one, Nat.zero_lt_one, fun _ h => nomatch h⟩ rfl
  obtain ⟨v, v', h1, h2, -, h3⟩ := C103_expressions (Num754.ieee754 .f64) dbg e ⟨[[1], [.infinity false]]⟩
    ⟨[[.ofRat (-1)], [.infinity true]]⟩ m ht
    (fun b hb => by rcases hl b hb with rfl | rfl <;> exact hs _ _ _ (by decide))
    (fun b hb => by rcases hl b hb with rfl | rfl <;> exact hs _ _ _ (by decide))
    hm 0 0 (by decide) _ _ (hg _ _) (hg _ _) true (fun b hb => by
      rcases hl b hb with rfl | rfl
      · show (Datum.fin false 1).Turned true (Num754.ofRat (-1) : Num754 .f64).1
        rw [show (Num754.ofRat (-1) : Num754 .f64).1 = .fin true (-1) by decide +kernel]
        rfl
      · exact rfl)
  exact ⟨m, v, v', hm, h1, h2, h3⟩

end Householder.Props
