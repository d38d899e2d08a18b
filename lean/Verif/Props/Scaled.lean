import Verif.Lemmas.Scaled
import Verif.Props.Turned

/-!
# C104: multiplying the operands by powers of two multiplies the results by powers of two
-/

namespace Householder.Props

open Spec

variable {F : Type} [Add F] [Sub F] [Mul F] {f : Format}

/-! ## Products -/

theorem times_zero {R : Ieee f F} {z : F} (hz : R.val z = some 0) (k : ℤ) : R.Times k z z := by
  intro x x' h h'
  rw [hz] at h h'
  cases h
  cases h'
  simp

theorem times_self (R : Ieee f F) (a : F) : R.Times 0 a a := by
  intro x x' h h'
  rw [h] at h'
  cases h'
  simp

theorem performs_times {R : Ieee f F} {kern : Kern F} {z : F} {T : F → F → Site → ℕ → Fp Operand}
    (hk : Performs R kern z T) (site : Site) {alpha beta c c' : F} {k : ℕ} {a a' b b' : ℕ → F} {m n : ℤ}
    (h3 : R.Times (m + n) c c') (h4 : ∀ l < k, R.Times m (a l) (a' l)) (h5 : ∀ l < k, R.Times n (b l) (b' l))
    (hr : ((T alpha beta site k).fill
      (Operand.value z alpha ((List.range k).map fun l => (a l, b l)) beta c)).Retains R)
    (hr' : ((T alpha beta site k).fill
      (Operand.value z alpha ((List.range k).map fun l => (a' l, b' l)) beta c')).Retains R) :
    R.Times (m + n) (kern site alpha ((List.range k).map fun l => (a l, b l)) beta c)
      (kern site alpha ((List.range k).map fun l => (a' l, b' l)) beta c') := by
  intro x x' hx hx'
  rw [hk.result] at hx hx'
  simp only [List.length_map, List.length_range] at hx hx'
  refine Fp.scaled R (m := m) (n := n) (fun o w ho => ?_) _ .term (hk.terms ..) hr hr' hx hx'
  cases o with
  | alpha => obtain rfl : w = .scalar := ho; exact times_self R _
  | beta => obtain rfl : w = .scalar := ho; exact times_self R _
  | old => obtain rfl : w = .term := ho; exact h3
  | zero => exact times_zero hk.zero _
  | left l =>
    obtain rfl : w = .row := ho
    by_cases hl : l < k
    · simpa [Operand.value, hl, Made.power] using h4 l hl
    · simpa [Operand.value, hl, Made.power] using times_zero hk.zero m
  | right l =>
    obtain rfl : w = .column := ho
    by_cases hl : l < k
    · simpa [Operand.value, hl, Made.power] using h5 l hl
    · simpa [Operand.value, hl, Made.power] using times_zero hk.zero n

/-- What the kernel of the unit tests' reference product does. -/
theorem loopKern_performs (R : Ieee f F) (z : F) (hz : R.val z = some 0) :
    Performs R loopKern z (fun _ _ _ => loopTree false) where
  zero := hz
  terms _ _ _ := loopTree_is _
  result _ alpha ps beta c := by
    have := loopTree_run R false z alpha beta c ps []
    rw [List.append_nil] at this
    rw [this]
    rfl

/-- What the kernel that does not read the old element if `beta` is 0 does. -/
theorem clearingKern_performs (S : Ieee754 f F) (R : Ieee f F) (z : F) (hz : R.val z = some 0) :
    Performs R (clearingKern S z) z (fun _ beta _ => loopTree (decide ((S.datum beta).val = some 0))) where
  zero := hz
  terms _ _ _ := loopTree_is _
  result site alpha ps beta c := by
    have := loopTree_run R ((S.datum beta).val = some 0) z alpha beta c ps []
    rw [List.append_nil] at this
    rw [this]
    unfold clearingKern
    by_cases h : (S.datum beta).val = some 0 <;> simp [h, loopKern]

/-- What the kernel of fused multiply-adds does. -/
theorem fusedKern_performs (R : Ieee f F) (z : F) (hz : R.val z = some 0) :
    Performs R (fusedKern R z) z (fun _ _ _ k => if k = 0 then .mul (.lit .beta) (.lit .old) else
      .fma (.lit .alpha) (fusedTree 0 k) (.mul (.lit .beta) (.lit .old))) where
  zero := hz
  terms _ _ _ k := by
    have h : (Fp.mul (.lit Operand.beta) (.lit .old)).Is .term := ⟨.scalar, .term, rfl, rfl, rfl⟩
    show Fp.Is .term (if k = 0 then _ else _)
    split_ifs
    · exact h
    · exact ⟨⟨.scalar, .term, rfl, rfl, fusedTree_is k 0⟩, h⟩
  result site alpha ps beta c := by
    unfold fusedKern
    by_cases hp : ps = []
    · subst hp
      rfl
    · have hn : ps.length ≠ 0 := fun h => hp (List.length_eq_zero_iff.1 h)
      have := fusedTree_run R z alpha beta c ps []
      simp only [List.nil_append, List.length_nil] at this
      simp only [if_neg hp, if_neg hn, Fp.fill, Fp.run, this]
      rfl

/-- **C104, matmul.** With scalars that follow IEEE-754 and a kernel whose order of operations does not depend on
the elements: if the elements of `a` are multiplied by `2 ^ m`, those of `b` by `2 ^ n` and those of `c` by
`2 ^ (m + n)`, then every element of the result is multiplied by exactly `2 ^ (m + n)`, with the same roundings,
unless one of the two results is not finite (overflow) or one of the products loses digits to underflow. -/
theorem C104_matmul [Target] (R : Ieee f F) (kern : Kern F) (z : F) (T : F → F → Site → ℕ → Fp Operand)
    (hk : Performs R kern z T) (cfg : Cfg) (alpha beta : F) (a b c : BaseMatrix) (mem mem' : Mem F)
    (ha : Sound a mem) (hb : Sound b mem) (hc : Sound c mem) (ha' : Sound a mem') (hb' : Sound b mem')
    (hc' : Sound c mem') (hoa : Honest a.layout) (hob : Honest b.layout) (hoc : Honest c.layout)
    (hn : NonOverlapping c.layout) (hd : Compatible a.layout b.layout c.layout) (hca : Separate c a)
    (hcb : Separate c b) (A B C A' B' C' : Arr F)
    (hA : Represents a mem A) (hB : Represents b mem B) (hC : Represents c mem C)
    (hA' : Represents a mem' A') (hB' : Represents b mem' B') (hC' : Represents c mem' C') (m n : ℤ)
    (h3 : ∀ i j, Stored c.layout i j → R.Times (m + n) (C i j) (C' i j))
    (h4 : ∀ i j, Stored a.layout i j → R.Times m (A i j) (A' i j))
    (h5 : ∀ i j, Stored b.layout i j → R.Times n (B i j) (B' i j)) :
    ∃ m1 m1', matmul kern alpha a b beta c mem = .ok m1 ∧ matmul kern alpha a b beta c mem' = .ok m1' ∧
      ∀ i j, i < c.layout.dim.1 → j < c.layout.dim.2 →
        ∃ v v', c.get cfg m1 i j = .ok v ∧ c.get cfg m1' i j = .ok v' ∧
          (((T alpha beta ⟨c.layout.dim.1, c.layout.dim.2, i, j⟩ a.layout.dim.2).fill (Operand.value z alpha
            ((List.range a.layout.dim.2).map fun l => (A i l, B l j)) beta (C i j))).Retains R →
          ((T alpha beta ⟨c.layout.dim.1, c.layout.dim.2, i, j⟩ a.layout.dim.2).fill (Operand.value z alpha
            ((List.range a.layout.dim.2).map fun l => (A' i l, B' l j)) beta (C' i j))).Retains R →
          R.Times (m + n) v v') := by
  obtain ⟨m1, e1, hf1, hr1⟩ := matmul_honest (kern := kern) (alpha := alpha) (beta := beta)
    ha hb hc hoa hob hoc hn hd hca hcb hA hB hC
  obtain ⟨m1', e1', hf1', hr1'⟩ := matmul_honest (kern := kern) (alpha := alpha) (beta := beta)
    ha' hb' hc' hoa hob hoc hn hd hca hcb hA' hB' hC'
  refine ⟨m1, m1', e1, e1', fun i j hi hj => ?_⟩
  have hs : Stored c.layout i j := (stored_of_notTri hoc.notTri).2 ⟨hi, hj⟩
  obtain ⟨d1, d2, d3⟩ := hd
  have hl : ∀ l < a.layout.dim.2, Stored a.layout i l := fun l hl =>
    (stored_of_notTri hoa.notTri).2 ⟨by omega, hl⟩
  have hr : ∀ l < a.layout.dim.2, Stored b.layout l j := fun l hl =>
    (stored_of_notTri hob.notTri).2 ⟨by omega, by omega⟩
  exact ⟨_, _, (hc.mono (by rw [hf1.size])).get cfg hs (hr1 i j hs),
    (hc'.mono (by rw [hf1'.size])).get cfg hs (hr1' i j hs), fun g g' =>
    performs_times hk _ (h3 i j hs) (fun l h => h4 i l (hl l h)) (fun l h => h5 l j (hr l h)) g g'⟩

/-- **C104, reference.** The same for the reference product of the unit tests, which computes
`beta * c + alpha * a * b + …` in this order. -/
theorem C104_reference [Target] (R : Ieee f F) (z : F) (hz : R.val z = some 0)
    (cfg : Cfg) (alpha beta : F) (a b c : BaseMatrix) (mem mem' : Mem F)
    (ha : Sound a mem) (hb : Sound b mem) (hc : Sound c mem) (ha' : Sound a mem') (hb' : Sound b mem')
    (hc' : Sound c mem') (hoa : NotTriangular a.layout) (hob : NotTriangular b.layout) (hoc : NotTriangular c.layout)
    (hn : NonOverlapping c.layout) (hd : Compatible a.layout b.layout c.layout) (hca : Separate c a)
    (hcb : Separate c b) (A B C A' B' C' : Arr F)
    (hA : Represents a mem A) (hB : Represents b mem B) (hC : Represents c mem C)
    (hA' : Represents a mem' A') (hB' : Represents b mem' B') (hC' : Represents c mem' C') (m n : ℤ)
    (h3 : ∀ i j, Stored c.layout i j → R.Times (m + n) (C i j) (C' i j))
    (h4 : ∀ i j, Stored a.layout i j → R.Times m (A i j) (A' i j))
    (h5 : ∀ i j, Stored b.layout i j → R.Times n (B i j) (B' i j)) :
    ∃ m1 m1', matmul_expect cfg alpha a b beta c mem = .ok m1 ∧ matmul_expect cfg alpha a b beta c mem' = .ok m1' ∧
      ∀ i j, i < c.layout.dim.1 → j < c.layout.dim.2 →
        ∃ v v', c.get cfg m1 i j = .ok v ∧ c.get cfg m1' i j = .ok v' ∧
          (((loopTree false a.layout.dim.2).fill (Operand.value z alpha
            ((List.range a.layout.dim.2).map fun l => (A i l, B l j)) beta (C i j))).Retains R →
          ((loopTree false a.layout.dim.2).fill (Operand.value z alpha
            ((List.range a.layout.dim.2).map fun l => (A' i l, B' l j)) beta (C' i j))).Retains R →
          R.Times (m + n) v v') := by
  obtain ⟨m2, e2, hf2, hr2⟩ := matmul_expect_any cfg alpha beta ha hb hc hoa hob hoc hn hd hca hcb
    hA hB hC
  obtain ⟨m2', e2', hf2', hr2'⟩ := matmul_expect_any cfg alpha beta ha' hb' hc' hoa hob hoc hn hd hca hcb
    hA' hB' hC'
  refine ⟨m2, m2', e2, e2', fun i j hi hj => ?_⟩
  have hs : Stored c.layout i j := (stored_of_notTri hoc).2 ⟨hi, hj⟩
  obtain ⟨d1, d2, d3⟩ := hd
  have hl : ∀ l < a.layout.dim.2, Stored a.layout i l := fun l hl =>
    (stored_of_notTri hoa).2 ⟨by omega, hl⟩
  have hr : ∀ l < a.layout.dim.2, Stored b.layout l j := fun l hl =>
    (stored_of_notTri hob).2 ⟨by omega, by omega⟩
  refine ⟨_, _, (hc.mono (by rw [hf2.size])).get cfg hs (hr2 i j hs),
    (hc'.mono (by rw [hf2'.size])).get cfg hs (hr2' i j hs), fun g g' => ?_⟩
  simp only [← accumulate_loop (site := ⟨0, 0, 0, 0⟩)]
  exact performs_times (loopKern_performs R z hz) ⟨0, 0, 0, 0⟩ (h3 i j hs) (fun l h => h4 i l (hl l h))
    (fun l h => h5 l j (hr l h)) g g'

/-- **C104, dot.** The same for `a.dot(&b)`. -/
theorem C104_dot [Target] [Zero F] [One F] (R : Ieee f F) (h0 : R.val 0 = some 0) (kern : Kern F) (z : F)
    (T : F → F → Site → ℕ → Fp Operand) (hk : Performs R kern z T)
    (cfg : Cfg) (i : DotImpl) (a b : BaseMatrix) (mem mem' : Mem F)
    (ha : Sound a mem) (hb : Sound b mem) (ha' : Sound a mem') (hb' : Sound b mem')
    (hoa : Honest a.layout) (hob : Honest b.layout)
    (hd : a.layout.dim.2 = b.layout.dim.1) (hv : VectorShape i a b)
    (hsz : a.layout.dim.1 * b.layout.dim.2 * cfg.item.size ≤ isizeMax) (A B A' B' : Arr F)
    (hA : Represents a mem A) (hB : Represents b mem B) (hA' : Represents a mem' A') (hB' : Represents b mem' B')
    (m n : ℤ)
    (h4 : ∀ i j, Stored a.layout i j → R.Times m (A i j) (A' i j))
    (h5 : ∀ i j, Stored b.layout i j → R.Times n (B i j) (B' i j)) :
    ∃ M m1 M' m1', dot cfg kern i a b mem = .ok (M, m1) ∧ dot cfg kern i a b mem' = .ok (M', m1') ∧
      ∀ r c, r < a.layout.dim.1 → c < b.layout.dim.2 →
        ∃ v v', M.get cfg m1 r c = .ok v ∧ M'.get cfg m1' r c = .ok v' ∧
          (((T 1 0 ⟨a.layout.dim.1, b.layout.dim.2, r, c⟩ a.layout.dim.2).fill (Operand.value z 1
            ((List.range a.layout.dim.2).map fun l => (A r l, B l c)) 0 0)).Retains R →
          ((T 1 0 ⟨a.layout.dim.1, b.layout.dim.2, r, c⟩ a.layout.dim.2).fill (Operand.value z 1
            ((List.range a.layout.dim.2).map fun l => (A' r l, B' l c)) 0 0)).Retains R →
          R.Times (m + n) v v') := by
  obtain ⟨M, m1, e, hl, hnew, hrep⟩ := dot_kern kern ha hb hoa hob hd hv hsz hA hB
  obtain ⟨M', m1', e', hl', hnew', hrep'⟩ := dot_kern kern ha' hb' hoa hob hd hv hsz hA' hB'
  have hdim := productLayout_dim hv
  have hnt := (productLayout_props i a.layout.dim.1 b.layout.dim.2).2.2.notTri
  refine ⟨M, m1, M', m1', e, e', fun r c hr hc => ?_⟩
  have hs : Stored M.layout r c := by rw [hl]; exact (stored_of_notTri hnt).2 (by rw [hdim]; exact ⟨hr, hc⟩)
  have hs' : Stored M'.layout r c := by rw [hl']; exact (stored_of_notTri hnt).2 (by rw [hdim]; exact ⟨hr, hc⟩)
  exact ⟨_, _, hnew.sound.get cfg hs (hrep r c hs), hnew'.sound.get cfg hs' (hrep' r c hs'), fun g g' =>
    performs_times hk _ (times_zero h0 _)
      (fun l h => h4 r l ((stored_of_notTri hoa.notTri).2 ⟨hr, h⟩))
      (fun l h => h5 l c ((stored_of_notTri hob.notTri).2 ⟨by omega, hc⟩)) g g'⟩

/-! ## Expressions -/

theorem times_run (R : Ieee f F) (X X' : BaseMatrix → F) (k : ℤ) (e : Ex F)
    (h : ∀ b ∈ e.leaves, R.Times k (X b) (X' b)) (hr : (e.operations X).Retains R)
    (hr' : (e.operations X').Retains R) :
    R.Times k ((e.operations X).run R) ((e.operations X').run R) := by
  induction e with
  | leaf b => exact h b (by simp [Ex.leaves])
  | ref a ih => exact ih h hr hr'
  | add _ _ a b iha ihb =>
    intro x x' hx hx'
    obtain ⟨p, q, hp, hq, hl, hs⟩ := Fp.result_finite (g := (· + ·)) (R.add_result _ _) hx
    obtain ⟨p', q', hp', hq', hl', hs'⟩ := Fp.result_finite (g := (· + ·)) (R.add_result _ _) hx'
    exact R.scaled_add hp hq hp' hq' hs hs' hl hl'
      (iha (fun b hb => h b (List.mem_append.2 (.inl hb))) hr.1 hr'.1 _ _ hp hp')
      (ihb (fun b hb => h b (List.mem_append.2 (.inr hb))) hr.2 hr'.2 _ _ hq hq')
  | scale _ _ s a ih =>
    intro x x' hx hx'
    obtain ⟨p, q, hp, hq, hl, hs⟩ := Fp.result_finite (g := (· * ·)) (R.mul_result _ _) hx
    obtain ⟨p', q', hp', hq', hl', hs'⟩ := Fp.result_finite (g := (· * ·)) (R.mul_result _ _) hx'
    have h1 := hr.2.2 p q hp hq
    have h2 := hr'.2.2 p' q' hp' hq'
    have e : p' * q' = 2 ^ k * (p * q) := by
      rw [times_self R _ _ _ hp hp', ih h hr.2.1 hr'.2.1 _ _ hq hq']
      simp only [zpow_zero]
      ring
    simp only [e] at hs' hl' h2
    exact hs.scaled f hs' hl hl' h1 h2

/-- **C104, expressions.** If the elements of all matrices of an expression are multiplied by `2 ^ k`, so is the
element of the built expression and that of the matrix that `eval` returns, unless one of the two is not finite
or one of the products by a scalar loses digits to underflow; sums of matrices never do. -/
theorem C104_expressions [Target] [Zero F] (R : Ieee f F) (cfg : Cfg) (e : Ex F) (mem mem' : Mem F) (m : Mat F)
    (ht : e.Typed) (hl : ∀ b ∈ e.leaves, Sound b mem) (hl' : ∀ b ∈ e.leaves, Sound b mem') (hb : e.build = .ok m)
    (r c : Nat) (hrc : (r, c) ∈ orderOf e.kind e.dim) (X X' : BaseMatrix → F)
    (hX : ∀ b ∈ e.leaves, b.get cfg mem r c = .ok (X b)) (hX' : ∀ b ∈ e.leaves, b.get cfg mem' r c = .ok (X' b))
    (k : ℤ) (hg : ∀ b ∈ e.leaves, R.Times k (X b) (X' b)) (hr : (e.operations X).Retains R)
    (hr' : (e.operations X').Retains R) :
    ∃ v v', m.get cfg mem r c = .ok v ∧ m.get cfg mem' r c = .ok v' ∧
      ((e.kind = .columnVector → e.dim.1 = 1) →
        (orderOf e.kind e.dim).length * cfg.item.size ≤ isizeMax →
        ∃ N m1 N' m1', m.eval cfg mem = .ok (N, m1) ∧ m.eval cfg mem' = .ok (N', m1') ∧
          N.get cfg m1 r c = .ok v ∧ N'.get cfg m1' r c = .ok v') ∧
      R.Times k v v' := by
  obtain ⟨v, h1, h2, h3⟩ := expression_run R ht hl hb hrc hX
  obtain ⟨v', h1', h2', h3'⟩ := expression_run R ht hl' hb hrc hX'
  refine ⟨v, v', h1, h1', fun g1 g2 => ?_, ?_⟩
  · obtain ⟨N, m1, a1, a2⟩ := h3 g1 g2
    obtain ⟨N', m1', a1', a2'⟩ := h3' g1 g2
    exact ⟨N, m1, N', m1', a1, a1', a2, a2'⟩
  · have := times_run R X X' k e hg hr hr'
    rwa [h2, h2'] at this

theorem sums_retain (R : Ieee f F) (X : BaseMatrix → F) (e : Ex F) (h : e.SumsOnly) :
    (e.operations X).Retains R := by
  induction e with
  | leaf b => trivial
  | ref a ih => exact ih h
  | add _ _ a b iha ihb => exact ⟨iha h.1, ihb h.2⟩
  | scale => exact h.elim

/-- **C104, sums.** For sums of matrices there is no condition on underflow: multiplying the elements of all
matrices by `2 ^ k` multiplies the sum by `2 ^ k`, unless one of the two sums is not finite. -/
theorem C104_sums [Target] [Zero F] (R : Ieee f F) (cfg : Cfg) (e : Ex F) (he : e.SumsOnly) (mem mem' : Mem F)
    (m : Mat F) (ht : e.Typed) (hl : ∀ b ∈ e.leaves, Sound b mem) (hl' : ∀ b ∈ e.leaves, Sound b mem')
    (hb : e.build = .ok m) (r c : Nat) (hrc : (r, c) ∈ orderOf e.kind e.dim) (X X' : BaseMatrix → F)
    (hX : ∀ b ∈ e.leaves, b.get cfg mem r c = .ok (X b)) (hX' : ∀ b ∈ e.leaves, b.get cfg mem' r c = .ok (X' b))
    (k : ℤ) (hg : ∀ b ∈ e.leaves, R.Times k (X b) (X' b)) :
    ∃ v v', m.get cfg mem r c = .ok v ∧ m.get cfg mem' r c = .ok v' ∧
      ((e.kind = .columnVector → e.dim.1 = 1) →
        (orderOf e.kind e.dim).length * cfg.item.size ≤ isizeMax →
        ∃ N m1 N' m1', m.eval cfg mem = .ok (N, m1) ∧ m.eval cfg mem' = .ok (N', m1') ∧
          N.get cfg m1 r c = .ok v ∧ N'.get cfg m1' r c = .ok v') ∧
      R.Times k v v' :=
  C104_expressions R cfg e mem mem' m ht hl hl' hb r c hrc X X' hX hX' k hg (sums_retain R X e he)
    (sums_retain R X' e he)

/-! ## Underflow -/

/-- **C104, underflow.** The condition on underflow is needed: `[3 / 2^537] * [1 / 2^537]` is three times the
smallest positive number, and with half of the first factor it is twice that number, not one and a half times. -/
theorem C104_underflow [Target] :
    exSignProduct loopKern 1 (.ofRat (3 / 2 ^ 537)) (.ofRat (1 / 2 ^ 537)) 0 0 = .ok (.fin false (3 / 2 ^ 1074)) ∧
    exSignProduct loopKern 1 (.ofRat (3 / 2 ^ 538)) (.ofRat (1 / 2 ^ 537)) 0 0 = .ok (.fin false (2 / 2 ^ 1074)) := by
  constructor <;> decide_width_kernel

/-! ## Examples -/

theorem exRetains {x : ℚ} (h : 1 ≤ |x|) : Format.f64.Retains x :=
  .inr (le_trans (by show (2 : ℚ) ^ (-1022 : ℤ) ≤ 1; exact zpow_le_one_of_nonpos₀ (by norm_num) (by norm_num)) h)

/-- The numbers 1, 3 and 5 multiplied by `2 ^ 1`, `2 ^ (-2)` and `2 ^ (-1)`. -/
theorem exTimes : (Num754.ieee754 .f64).toIeee.Times 1 1 (.ofRat 2) ∧
    (Num754.ieee754 .f64).toIeee.Times (-2) (.ofRat 3) (.ofRat (3 / 4)) ∧
    (Num754.ieee754 .f64).toIeee.Times (1 + -2) (.ofRat 5) (.ofRat (5 / 2)) := by
  have h : ∀ (k : ℤ) (a a' : Num754 .f64) (q q' : ℚ), (Num754.ieee754 .f64).toIeee.val a = some q →
      (Num754.ieee754 .f64).toIeee.val a' = some q' → q' = 2 ^ k * q →
      (Num754.ieee754 .f64).toIeee.Times k a a' := by
    intro k a a' q q' h1 h2 h3 x x' hx hx'
    rw [h1] at hx
    rw [h2] at hx'
    cases hx
    cases hx'
    exact h3
  exact ⟨h _ _ _ 1 2 (by decide +kernel) (by decide +kernel) (by norm_num),
    h _ _ _ 3 (3 / 4) (by decide +kernel) (by decide +kernel) (by norm_num),
    h _ _ _ 5 (5 / 2) (by decide +kernel) (by decide +kernel) (by norm_num)⟩

/-- By `C104_matmul`, with the kernel of fused multiply-adds: `[1] * [3] + [5]` and `[2] * [3/4] + [5/2]`. -/
example : ∃ m1 m1' v v', matmul (fusedKern (Num754.ieee754 .f64).toIeee 0) 1 (exSign 0) (exSign 1) 1 (exSign 2)
        (⟨[[1], [.ofRat 3], [.ofRat 5]]⟩ : Mem (Num754 .f64)) = .ok m1 ∧
      matmul (fusedKern (Num754.ieee754 .f64).toIeee 0) 1 (exSign 0) (exSign 1) 1 (exSign 2)
        (⟨[[.ofRat 2], [.ofRat (3 / 4)], [.ofRat (5 / 2)]]⟩ : Mem (Num754 .f64)) = .ok m1' ∧
      (exSign 2).get dbg m1 0 0 = .ok v ∧ (exSign 2).get dbg m1' 0 0 = .ok v' ∧
      (Num754.ieee754 .f64).toIeee.Times (-1) v v' := by
  have hz : ∀ {n i j : Nat}, Stored (exSign n).layout i j → i = 0 ∧ j = 0 := fun h =>
    ⟨Nat.lt_one_iff.1 h.1, Nat.lt_one_iff.1 h.2.1⟩
  obtain ⟨m1, m1', g1, g2, h⟩ := C104_matmul (Num754.ieee754 .f64).toIeee
    (fusedKern (Num754.ieee754 .f64).toIeee 0) 0 _ (fusedKern_performs _ 0 rfl) dbg 1 1 (exSign 0) (exSign 1)
    (exSign 2)
    ⟨[[1], [.ofRat 3], [.ofRat 5]]⟩ ⟨[[.ofRat 2], [.ofRat (3 / 4)], [.ofRat (5 / 2)]]⟩
    (sound_of_contiguous trivial ⟨by decide, by decide⟩ (by decide))
    (sound_of_contiguous trivial ⟨by decide, by decide⟩ (by decide))
    (sound_of_contiguous trivial ⟨by decide, by decide⟩ (by decide))
    (sound_of_contiguous trivial ⟨by decide, by decide⟩ (by decide))
    (sound_of_contiguous trivial ⟨by decide, by decide⟩ (by decide))
    (sound_of_contiguous trivial ⟨by decide, by decide⟩ (by decide)) trivial trivial trivial trivial
    ⟨rfl, rfl, rfl⟩ (fun _ _ _ _ _ _ h => absurd (show 2 = 0 from congrArg Loc.buf h) (by decide))
    (fun _ _ _ _ _ _ h => absurd (show 2 = 1 from congrArg Loc.buf h) (by decide))
    (fun _ _ => 1) (fun _ _ => .ofRat 3) (fun _ _ => .ofRat 5)
    (fun _ _ => .ofRat 2) (fun _ _ => .ofRat (3 / 4)) (fun _ _ => .ofRat (5 / 2))
    (fun i j h => by obtain ⟨rfl, rfl⟩ := hz (n := 0) h; rfl)
    (fun i j h => by obtain ⟨rfl, rfl⟩ := hz (n := 1) h; rfl)
    (fun i j h => by obtain ⟨rfl, rfl⟩ := hz (n := 2) h; rfl)
    (fun i j h => by obtain ⟨rfl, rfl⟩ := hz (n := 0) h; rfl)
    (fun i j h => by obtain ⟨rfl, rfl⟩ := hz (n := 1) h; rfl)
    (fun i j h => by obtain ⟨rfl, rfl⟩ := hz (n := 2) h; rfl) 1 (-2)
    (fun _ _ _ => exTimes.2.2) (fun _ _ _ => exTimes.1) (fun _ _ _ => exTimes.2.1)
  obtain ⟨v, v', a1, a2, a3⟩ := h 0 0 (by decide) (by decide)
  have key : ∀ (a b c : Num754 .f64) (qa qb qc : ℚ), (Num754.ieee754 .f64).toIeee.val a = some qa →
      (Num754.ieee754 .f64).toIeee.val b = some qb → (Num754.ieee754 .f64).toIeee.val c = some qc →
      (Num754.ieee754 .f64).toIeee.val ((Num754.ieee754 .f64).toIeee.fma a b 0) = some (qa * qb) →
      (Num754.ieee754 .f64).toIeee.val (1 * c) = some qc →
      1 ≤ |qa * qb| → 1 ≤ |qc| → 1 ≤ |qa * qb + qc| →
      ((Fp.fma (.lit .alpha) (fusedTree 0 1) (.mul (.lit .beta) (.lit .old))).fill
        (Operand.value 0 1 [(a, b)] 1 c)).Retains (Num754.ieee754 .f64).toIeee := by
    intro a b c qa qb qc ha hb hc hab h1c g1 g2 g3
    have h0 : (Num754.ieee754 .f64).toIeee.val 0 = some 0 := rfl
    have h1 : (Num754.ieee754 .f64).toIeee.val 1 = some 1 := rfl
    refine ⟨trivial, ⟨trivial, trivial, trivial, fun x y w hx hy hw => ?_⟩,
      ⟨trivial, trivial, fun x y hx hy => ?_⟩, fun x y w hx hy hw => ?_⟩
    · obtain rfl : x = qa := Option.some.inj (hx.symm.trans ha)
      obtain rfl : y = qb := Option.some.inj (hy.symm.trans hb)
      obtain rfl : w = 0 := Option.some.inj (hw.symm.trans h0)
      exact exRetains (by rwa [add_zero])
    · obtain rfl : x = 1 := Option.some.inj (hx.symm.trans h1)
      obtain rfl : y = qc := Option.some.inj (hy.symm.trans hc)
      exact exRetains (by rwa [one_mul])
    · obtain rfl : x = 1 := Option.some.inj (hx.symm.trans h1)
      obtain rfl : y = qa * qb := Option.some.inj (hy.symm.trans hab)
      obtain rfl : w = qc := Option.some.inj (hw.symm.trans h1c)
      exact exRetains (by rwa [one_mul])
  exact ⟨m1, m1', v, v', g1, g2, a1, a2, a3
    (key 1 (.ofRat 3) (.ofRat 5) 1 3 5 (by decide +kernel) (by decide +kernel) (by decide +kernel)
      (by decide +kernel) (by decide +kernel) (by norm_num) (by norm_num) (by norm_num))
    (key (.ofRat 2) (.ofRat (3 / 4)) (.ofRat (5 / 2)) 2 (3 / 4) (5 / 2) (by decide +kernel) (by decide +kernel)
      (by decide +kernel) (by decide +kernel) (by decide +kernel) (by norm_num [abs_of_pos])
      (by norm_num [abs_of_pos]) (by norm_num [abs_of_pos]))⟩

/-- The operations of `1 * [a] * [b] + beta * [c]` in the order of the reference product. -/
theorem exRetains_loop (a b beta c : Num754 .f64) (qa qb qs qc : ℚ)
    (ha : (Num754.ieee754 .f64).toIeee.val a = some qa) (ha1 : (Num754.ieee754 .f64).toIeee.val (1 * a) = some qa)
    (hb : (Num754.ieee754 .f64).toIeee.val b = some qb) (hs : (Num754.ieee754 .f64).toIeee.val beta = some qs)
    (hc : (Num754.ieee754 .f64).toIeee.val c = some qc) (g1 : 1 ≤ |qa|) (g2 : 1 ≤ |qa * qb|)
    (g3 : qc * qs = 0 ∨ 1 ≤ |qc * qs|) :
    ((loopTree false 1).fill (Operand.value 0 1 [(a, b)] beta c)).Retains (Num754.ieee754 .f64).toIeee := by
  have h1 : (Num754.ieee754 .f64).toIeee.val 1 = some 1 := rfl
  refine ⟨⟨trivial, trivial, fun x y hx hy => ?_⟩, ⟨trivial, trivial, fun x y hx hy => ?_⟩, trivial,
    fun x y hx hy => ?_⟩
  · obtain rfl : x = qc := Option.some.inj (hx.symm.trans hc)
    obtain rfl : y = qs := Option.some.inj (hy.symm.trans hs)
    exact g3.elim (fun h => .inl ⟨0, by simpa using h⟩) exRetains
  · obtain rfl : x = 1 := Option.some.inj (hx.symm.trans h1)
    obtain rfl : y = qa := Option.some.inj (hy.symm.trans ha)
    exact exRetains (by rwa [one_mul])
  · obtain rfl : x = qa := Option.some.inj (hx.symm.trans ha1)
    obtain rfl : y = qb := Option.some.inj (hy.symm.trans hb)
    exact exRetains g2

/-- By `C104_reference`: `[1] * [3] + [5]` and `[2] * [3/4] + [5/2]`. -/
example : ∃ m1 m1' v v', matmul_expect dbg 1 (exSign 0) (exSign 1) 1 (exSign 2)
        (⟨[[1], [.ofRat 3], [.ofRat 5]]⟩ : Mem (Num754 .f64)) = .ok m1 ∧
      matmul_expect dbg 1 (exSign 0) (exSign 1) 1 (exSign 2)
        (⟨[[.ofRat 2], [.ofRat (3 / 4)], [.ofRat (5 / 2)]]⟩ : Mem (Num754 .f64)) = .ok m1' ∧
      (exSign 2).get dbg m1 0 0 = .ok v ∧ (exSign 2).get dbg m1' 0 0 = .ok v' ∧
      (Num754.ieee754 .f64).toIeee.Times (-1) v v' := by
  have hz : ∀ {n i j : Nat}, Stored (exSign n).layout i j → i = 0 ∧ j = 0 := fun h =>
    ⟨Nat.lt_one_iff.1 h.1, Nat.lt_one_iff.1 h.2.1⟩
  obtain ⟨m1, m1', g1, g2, h⟩ := C104_reference (Num754.ieee754 .f64).toIeee 0 rfl dbg 1 1 (exSign 0) (exSign 1)
    (exSign 2)
    ⟨[[1], [.ofRat 3], [.ofRat 5]]⟩ ⟨[[.ofRat 2], [.ofRat (3 / 4)], [.ofRat (5 / 2)]]⟩
    (sound_of_contiguous trivial ⟨by decide, by decide⟩ (by decide))
    (sound_of_contiguous trivial ⟨by decide, by decide⟩ (by decide))
    (sound_of_contiguous trivial ⟨by decide, by decide⟩ (by decide))
    (sound_of_contiguous trivial ⟨by decide, by decide⟩ (by decide))
    (sound_of_contiguous trivial ⟨by decide, by decide⟩ (by decide))
    (sound_of_contiguous trivial ⟨by decide, by decide⟩ (by decide))
    (fun _ h => nomatch h) (fun _ h => nomatch h) (fun _ h => nomatch h) trivial
    ⟨rfl, rfl, rfl⟩ (fun _ _ _ _ _ _ h => absurd (show 2 = 0 from congrArg Loc.buf h) (by decide))
    (fun _ _ _ _ _ _ h => absurd (show 2 = 1 from congrArg Loc.buf h) (by decide))
    (fun _ _ => 1) (fun _ _ => .ofRat 3) (fun _ _ => .ofRat 5)
    (fun _ _ => .ofRat 2) (fun _ _ => .ofRat (3 / 4)) (fun _ _ => .ofRat (5 / 2))
    (fun i j h => by obtain ⟨rfl, rfl⟩ := hz (n := 0) h; rfl)
    (fun i j h => by obtain ⟨rfl, rfl⟩ := hz (n := 1) h; rfl)
    (fun i j h => by obtain ⟨rfl, rfl⟩ := hz (n := 2) h; rfl)
    (fun i j h => by obtain ⟨rfl, rfl⟩ := hz (n := 0) h; rfl)
    (fun i j h => by obtain ⟨rfl, rfl⟩ := hz (n := 1) h; rfl)
    (fun i j h => by obtain ⟨rfl, rfl⟩ := hz (n := 2) h; rfl) 1 (-2)
    (fun _ _ _ => exTimes.2.2) (fun _ _ _ => exTimes.1) (fun _ _ _ => exTimes.2.1)
  obtain ⟨v, v', a1, a2, a3⟩ := h 0 0 (by decide) (by decide)
  exact ⟨m1, m1', v, v', g1, g2, a1, a2, a3
    (exRetains_loop 1 (.ofRat 3) 1 (.ofRat 5) 1 3 1 5 (by decide +kernel) (by decide +kernel) (by decide +kernel)
      (by decide +kernel) (by decide +kernel) (by norm_num) (by norm_num) (.inr (by norm_num)))
    (exRetains_loop (.ofRat 2) (.ofRat (3 / 4)) 1 (.ofRat (5 / 2)) 2 (3 / 4) 1 (5 / 2) (by decide +kernel)
      (by decide +kernel) (by decide +kernel) (by decide +kernel) (by decide +kernel) (by norm_num [abs_of_pos])
      (by norm_num [abs_of_pos]) (.inr (by norm_num [abs_of_pos])))⟩

/-- By `C104_dot`: `[1] * [3]` and `[2] * [3/4]`. -/
example : ∃ M m1 M' m1' v v', dot dbg loopKern .matMat (exSign 0) (exSign 1)
        (⟨[[1], [.ofRat 3]]⟩ : Mem (Num754 .f64)) = .ok (M, m1) ∧
      dot dbg loopKern .matMat (exSign 0) (exSign 1)
        (⟨[[.ofRat 2], [.ofRat (3 / 4)]]⟩ : Mem (Num754 .f64)) = .ok (M', m1') ∧
      M.get dbg m1 0 0 = .ok v ∧ M'.get dbg m1' 0 0 = .ok v' ∧
      (Num754.ieee754 .f64).toIeee.Times (-1) v v' := by
  have hz : ∀ {n i j : Nat}, Stored (exSign n).layout i j → i = 0 ∧ j = 0 := fun h =>
    ⟨Nat.lt_one_iff.1 h.1, Nat.lt_one_iff.1 h.2.1⟩
  obtain ⟨M, m1, M', m1', g1, g2, h⟩ := C104_dot (Num754.ieee754 .f64).toIeee rfl loopKern 0 _
    (loopKern_performs _ 0 rfl) dbg .matMat (exSign 0) (exSign 1)
    ⟨[[1], [.ofRat 3]]⟩ ⟨[[.ofRat 2], [.ofRat (3 / 4)]]⟩
    (sound_of_contiguous trivial ⟨by decide, by decide⟩ (by decide))
    (sound_of_contiguous trivial ⟨by decide, by decide⟩ (by decide))
    (sound_of_contiguous trivial ⟨by decide, by decide⟩ (by decide))
    (sound_of_contiguous trivial ⟨by decide, by decide⟩ (by decide)) trivial trivial rfl trivial (by decide)
    (fun _ _ => 1) (fun _ _ => .ofRat 3) (fun _ _ => .ofRat 2) (fun _ _ => .ofRat (3 / 4))
    (fun i j h => by obtain ⟨rfl, rfl⟩ := hz (n := 0) h; rfl)
    (fun i j h => by obtain ⟨rfl, rfl⟩ := hz (n := 1) h; rfl)
    (fun i j h => by obtain ⟨rfl, rfl⟩ := hz (n := 0) h; rfl)
    (fun i j h => by obtain ⟨rfl, rfl⟩ := hz (n := 1) h; rfl) 1 (-2)
    (fun _ _ _ => exTimes.1) (fun _ _ _ => exTimes.2.1)
  obtain ⟨v, v', a1, a2, a3⟩ := h 0 0 (by decide) (by decide)
  exact ⟨M, m1, M', m1', v, v', g1, g2, a1, a2, a3
    (exRetains_loop 1 (.ofRat 3) 0 0 1 3 0 0 (by decide +kernel) (by decide +kernel) (by decide +kernel)
      (by decide +kernel) (by decide +kernel) (by norm_num) (by norm_num) (.inl (by norm_num)))
    (exRetains_loop (.ofRat 2) (.ofRat (3 / 4)) 0 0 2 (3 / 4) 0 0 (by decide +kernel)
      (by decide +kernel) (by decide +kernel) (by decide +kernel) (by decide +kernel) (by norm_num [abs_of_pos])
      (by norm_num [abs_of_pos]) (.inl (by norm_num)))⟩

/-- By `C104_expressions`: the element of `a + (-2) * b` for the elements 1, 1, and for 2, 2. -/
example : ∃ (m : Mat (Num754 .f64)) (v v' : Num754 .f64), (Ex.add true true (.leaf (exSign 0))
      (.scale true true (.ofRat (-2)) (.leaf (exSign 1)))).build = .ok m ∧
    m.get dbg ⟨[[1], [1]]⟩ 0 0 = .ok v ∧ m.get dbg ⟨[[.ofRat 2], [.ofRat 2]]⟩ 0 0 = .ok v' ∧
    (Num754.ieee754 .f64).toIeee.Times 1 v v' := by
  set e : Ex (Num754 .f64) := Ex.add true true (.leaf (exSign 0))
    (.scale true true (.ofRat (-2)) (.leaf (exSign 1))) with he
  have ht : e.Typed := by simp [he, exSign, Ex.Typed, Ex.kind, Ex.sizes]
  have hc : e.Conform := by simp [he, exSign, Ex.Conform, Ex.dim]
  obtain ⟨m, hm, -⟩ := (e.build_spec ht).1 hc
  have hl : ∀ b ∈ e.leaves, b = exSign 0 ∨ b = exSign 1 := by
    intro b hb
    simpa [he, Ex.leaves] using hb
  have hs : ∀ (x : Num754 .f64) n, n < 2 → Sound (exSign n) (⟨[[x], [x]]⟩ : Mem (Num754 .f64)) := by
    intro x n hn
    match n, hn with
    | 0, _ => exact sound_of_contiguous trivial ⟨by show 0 + 1 ≤ 1; omega, by show 1 * 4 ≤ isizeMax; decide⟩ (by decide)
    | 1, _ => exact sound_of_contiguous trivial ⟨by show 0 + 1 ≤ 1; omega, by show 1 * 4 ≤ isizeMax; decide⟩ (by decide)
  have hg : ∀ (x : Num754 .f64) b, b ∈ e.leaves → b.get dbg ⟨[[x], [x]]⟩ 0 0 = .ok x := by
    intro x b hb
    rcases hl b hb with rfl | rfl
    · exact Sound.get (m := exSign 0) (r := 0) (c := 0) (hs x 0 (by decide)) dbg
        ⟨Nat.zero_lt_one, Nat.zero_lt_one, fun _ h => nomatch h⟩ rfl
    · exact Sound.get (m := exSign 1) (r := 0) (c := 0) (hs x 1 (by decide)) dbg
        ⟨Nat.zero_lt_one, Nat.zero_lt_one, fun _ h => nomatch h⟩ rfl
  have hr : ∀ (x : Num754 .f64) (q : ℚ), (Num754.ieee754 .f64).toIeee.val x = some q → 1 ≤ |(-2) * q| →
      (e.operations fun _ => x).Retains (Num754.ieee754 .f64).toIeee := by
    intro x q hx hq
    have h2 : (Num754.ieee754 .f64).toIeee.val (.ofRat (-2)) = some (-2) := by decide +kernel
    refine ⟨trivial, trivial, trivial, fun y w hy hw => ?_⟩
    obtain rfl : y = -2 := Option.some.inj (hy.symm.trans h2)
    obtain rfl : w = q := Option.some.inj (hw.symm.trans hx)
    exact exRetains hq
  obtain ⟨v, v', h1, h2, -, h3⟩ := C104_expressions (Num754.ieee754 .f64).toIeee dbg e ⟨[[1], [1]]⟩
    ⟨[[.ofRat 2], [.ofRat 2]]⟩ m ht
    (fun b hb => by rcases hl b hb with rfl | rfl <;> exact hs _ _ (by decide))
    (fun b hb => by rcases hl b hb with rfl | rfl <;> exact hs _ _ (by decide))
    hm 0 0 (by decide) (fun _ => 1) (fun _ => .ofRat 2) (hg _) (hg _) 1 (fun _ _ => exTimes.1)
    (hr 1 1 (by decide +kernel) (by norm_num)) (hr (.ofRat 2) 2 (by decide +kernel) (by norm_num))
  exact ⟨m, v, v', hm, h1, h2, h3⟩

/-- By `C104_sums`: the element of `a + b` for the elements 1, 1, and for 2, 2. -/
example : ∃ (m : Mat (Num754 .f64)) (v v' : Num754 .f64),
    (Ex.add true true (.leaf (exSign 0)) (.leaf (exSign 1)) : Ex (Num754 .f64)).build = .ok m ∧
    m.get dbg ⟨[[1], [1]]⟩ 0 0 = .ok v ∧ m.get dbg ⟨[[.ofRat 2], [.ofRat 2]]⟩ 0 0 = .ok v' ∧
    (Num754.ieee754 .f64).toIeee.Times 1 v v' := by
  set e : Ex (Num754 .f64) := Ex.add true true (.leaf (exSign 0)) (.leaf (exSign 1)) with he
  have ht : e.Typed := by simp [he, exSign, Ex.Typed, Ex.kind, Ex.sizes]
  have hc : e.Conform := by simp [he, exSign, Ex.Conform, Ex.dim]
  obtain ⟨m, hm, -⟩ := (e.build_spec ht).1 hc
  have hl : ∀ b ∈ e.leaves, b = exSign 0 ∨ b = exSign 1 := by
    intro b hb
    simpa [he, Ex.leaves] using hb
  have hs : ∀ (x : Num754 .f64) n, n < 2 → Sound (exSign n) (⟨[[x], [x]]⟩ : Mem (Num754 .f64)) := by
    intro x n hn
    match n, hn with
    | 0, _ => exact sound_of_contiguous trivial ⟨by show 0 + 1 ≤ 1; omega, by show 1 * 4 ≤ isizeMax; decide⟩ (by decide)
    | 1, _ => exact sound_of_contiguous trivial ⟨by show 0 + 1 ≤ 1; omega, by show 1 * 4 ≤ isizeMax; decide⟩ (by decide)
  have hg : ∀ (x : Num754 .f64) b, b ∈ e.leaves → b.get dbg ⟨[[x], [x]]⟩ 0 0 = .ok x := by
    intro x b hb
    rcases hl b hb with rfl | rfl
    · exact Sound.get (m := exSign 0) (r := 0) (c := 0) (hs x 0 (by decide)) dbg
        ⟨Nat.zero_lt_one, Nat.zero_lt_one, fun _ h => nomatch h⟩ rfl
    · exact Sound.get (m := exSign 1) (r := 0) (c := 0) (hs x 1 (by decide)) dbg
        ⟨Nat.zero_lt_one, Nat.zero_lt_one, fun _ h => nomatch h⟩ rfl
  obtain ⟨v, v', h1, h2, -, h3⟩ := C104_sums (Num754.ieee754 .f64).toIeee dbg e ⟨trivial, trivial⟩ ⟨[[1], [1]]⟩
    ⟨[[.ofRat 2], [.ofRat 2]]⟩ m ht
    (fun b hb => by rcases hl b hb with rfl | rfl <;> exact hs _ _ (by decide))
    (fun b hb => by rcases hl b hb with rfl | rfl <;> exact hs _ _ (by decide))
    hm 0 0 (by decide) (fun _ => 1) (fun _ => .ofRat 2) (hg _) (hg _) 1 (fun _ _ => exTimes.1)
  exact ⟨m, v, v', hm, h1, h2, h3⟩

end Householder.Props
