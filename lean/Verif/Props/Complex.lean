import Verif.Lemmas.CxLoop
import Verif.Lemmas.Orders
import Verif.Props.Ieee

/-!
# C81: products by any algorithm, and complex scalars
-/

namespace Householder.Props

open Spec

variable {F : Type} [Add F] [Sub F] [Mul F] {f : Format}

/-! ## Real products by any algorithm -/

theorem pairs_stand {R : Ieee f F} {A B : Arr F} {X Y : Arr ℚ} {i j k : Nat}
    (hX : ∀ l < k, R.val (A i l) = some (X i l)) (hY : ∀ l < k, R.val (B l j) = some (Y l j)) :
    List.Forall₂ (fun p q => R.val p.1 = some q.1 ∧ R.val p.2 = some q.2)
      ((List.range k).map fun l => (A i l, B l j)) (pairsAt X Y k i j) := by
  unfold pairsAt
  rw [List.forall₂_map_left_iff, List.forall₂_map_right_iff, List.forall₂_same]
  exact fun l hl => ⟨hX l (List.mem_range.1 hl), hY l (List.mem_range.1 hl)⟩

/-- **C81, products.** With scalars that follow IEEE-754 and a kernel that computes every element by
some algorithm that adds up the right terms (`alpha a b` and `beta c`, and nothing else) with at most
`n k` roundings, `U` units of underflow and intermediate results up to `L`, every element of the result
of `matmul` is

* infinite or NaN, or within the error bound of `alpha * Σ a b + beta * c`;
* finite if `(1 + u)^n L` is below the limit of the format;
* exact if all numbers are whole and `L` is at most `2^p`. -/
theorem C81_products [Target] (R : Ieee f F) (n : ℕ → ℕ) (U L : ℚ → List (ℚ × ℚ) → ℚ → ℚ → ℚ)
    (kern : Kern F) (hk : AnyAlgorithm R n U L kern) (cfg : Cfg)
    (alpha beta : F) (a b c : BaseMatrix) (mem : Mem F) (ha : Sound a mem) (hb : Sound b mem)
    (hc : Sound c mem) (hoa : Honest a.layout) (hob : Honest b.layout) (hoc : Honest c.layout)
    (hn : NonOverlapping c.layout) (hd : Compatible a.layout b.layout c.layout)
    (hca : Separate c a) (hcb : Separate c b) (A B C : Arr F) (al be : ℚ) (X Y Z : Arr ℚ)
    (hA : Represents a mem A) (hB : Represents b mem B) (hC : Represents c mem C)
    (hal : R.val alpha = some al) (hbe : R.val beta = some be)
    (hX : ∀ i l, i < a.layout.dim.1 → l < a.layout.dim.2 → R.val (A i l) = some (X i l))
    (hY : ∀ l j, l < b.layout.dim.1 → j < b.layout.dim.2 → R.val (B l j) = some (Y l j))
    (hZ : ∀ i j, i < c.layout.dim.1 → j < c.layout.dim.2 → R.val (C i j) = some (Z i j)) :
    ∃ mem', matmul kern alpha a b beta c mem = .ok mem' ∧
      ∀ i j, i < c.layout.dim.1 → j < c.layout.dim.2 → ∃ v, c.get cfg mem' i j = .ok v ∧
        f.Within (factors al (pairsAt X Y a.layout.dim.2 i j) be (Z i j))
          (productAt al X Y be Z a.layout.dim.2 i j) (sizeAt al X Y be Z a.layout.dim.2 i j)
          (n a.layout.dim.2) (U al (pairsAt X Y a.layout.dim.2 i j) be (Z i j))
          (L al (pairsAt X Y a.layout.dim.2 i j) be (Z i j)) (R.val v) := by
  obtain ⟨mem1, e1, hf1, hr1⟩ := matmul_honest (kern := kern) (alpha := alpha) (beta := beta)
    ha hb hc hoa hob hoc hn hd hca hcb hA hB hC
  refine ⟨mem1, e1, fun i j hi hj => ?_⟩
  have hs : Stored c.layout i j := (stored_of_notTri hoc.notTri).2 ⟨hi, hj⟩
  obtain ⟨d1, d2, d3⟩ := hd
  obtain ⟨t, ht, et⟩ := hk ⟨c.layout.dim.1, c.layout.dim.2, i, j⟩ alpha
    ((List.range a.layout.dim.2).map fun l => (A i l, B l j)) beta (C i j) al _ be (Z i j) hal hbe
    (hZ i j hi hj) (pairs_stand (fun l hl => hX i l (by omega) hl)
      (fun l hl => hY l j (by omega) (by omega)))
  refine ⟨_, (hc.mono (by rw [hf1.size])).get cfg hs (hr1 i j hs), ?_⟩
  obtain ⟨s1, s2⟩ := productTerms_sum al X Y be Z a.layout.dim.2 i j
  have h := ht.within
  rw [s1, s2, List.length_map, List.length_range] at h
  rw [et]
  exact h

/-- **C81, orders.** The kernels of C80, which sum in any order, are among these. -/
theorem C81_orders (R : Ieee f F) (kern : Kern F) (hk : AnyOrder R kern) :
    AnyAlgorithm R (· + 2) (fun al qs _ _ => orderUnderflow al qs) (orderLargest f.eta) kern :=
  hk.algorithm

/-! ## Complex products -/

theorem cxPairs_stand {R : Ieee f F} {A B : Arr (Cx F)} {X Y : Arr (Cx ℚ)} {i j k : Nat}
    (hX : ∀ l < k, (A i l).Stands R (X i l)) (hY : ∀ l < k, (B l j).Stands R (Y l j)) :
    List.Forall₂ (fun p q => Cx.Stands R p.1 q.1 ∧ Cx.Stands R p.2 q.2)
      ((List.range k).map fun l => (A i l, B l j)) (cxPairsAt X Y k i j) := by
  unfold cxPairsAt
  rw [List.forall₂_map_left_iff, List.forall₂_map_right_iff, List.forall₂_same]
  exact fun l hl => ⟨hX l (List.mem_range.1 hl), hY l (List.mem_range.1 hl)⟩

/-- The reference product of the unit tests, with complex scalars. -/
theorem cxAccumulate_loop (R : Ieee f F) (alpha : Cx F) (A B : Arr (Cx F)) (beta : Cx F)
    (C : Arr (Cx F)) (i j k : Nat) :
    (cxLoop alpha ((List.range k).map fun l => (A i l, B l j)) beta (C i j)).map (Fp.run R) =
      accumulate alpha A B beta C i j k := by
  rw [cxLoop_run]
  induction k with
  | zero => rfl
  | succ k ih => rw [List.range_succ, List.map_append, List.foldl_append, ih]; rfl

/-- **C81, complex products.** With complex scalars whose parts follow IEEE-754 and whose sums and
products are those of `num_complex`, and a kernel that computes both parts of every element by some
algorithm that adds up the right terms, both parts of every element of the result of `matmul` are
good approximations of those of `alpha * Σ a b + beta * c`, in the sense of `C81_products`. So are those
of the reference product of the unit tests, with `k + 4` roundings, and the two differ by at most the
sum of the bounds. -/
theorem C81_complex_products [Target] (R : Ieee f F) (n : ℕ → ℕ)
    (U L : Cx ℚ → List (Cx ℚ × Cx ℚ) → Cx ℚ → Cx ℚ → ℚ)
    (kern : Kern (Cx F)) (hk : AnyComplexAlgorithm R n U L kern) (cfg : Cfg)
    (alpha beta : Cx F) (a b c : BaseMatrix) (mem : Mem (Cx F)) (ha : Sound a mem) (hb : Sound b mem)
    (hc : Sound c mem) (hoa : Honest a.layout) (hob : Honest b.layout) (hoc : Honest c.layout)
    (hn : NonOverlapping c.layout) (hd : Compatible a.layout b.layout c.layout)
    (hca : Separate c a) (hcb : Separate c b) (A B C : Arr (Cx F)) (al be : Cx ℚ) (X Y Z : Arr (Cx ℚ))
    (hA : Represents a mem A) (hB : Represents b mem B) (hC : Represents c mem C)
    (hal : alpha.Stands R al) (hbe : beta.Stands R be)
    (hX : ∀ i l, i < a.layout.dim.1 → l < a.layout.dim.2 → (A i l).Stands R (X i l))
    (hY : ∀ l j, l < b.layout.dim.1 → j < b.layout.dim.2 → (B l j).Stands R (Y l j))
    (hZ : ∀ i j, i < c.layout.dim.1 → j < c.layout.dim.2 → (C i j).Stands R (Z i j)) :
    ∃ mem1 mem2, matmul kern alpha a b beta c mem = .ok mem1 ∧
      matmul_expect cfg alpha a b beta c mem = .ok mem2 ∧
      ∀ i j, i < c.layout.dim.1 → j < c.layout.dim.2 →
        ∃ v w, c.get cfg mem1 i j = .ok v ∧ c.get cfg mem2 i j = .ok w ∧
          ∀ p : Part,
            f.Within (cxFactors al (cxPairsAt X Y a.layout.dim.2 i j) be (Z i j))
              ((cxProductAt al X Y be Z a.layout.dim.2 i j).part p)
              ((cxSizeAt al X Y be Z a.layout.dim.2 i j).part p)
              (n a.layout.dim.2) (U al (cxPairsAt X Y a.layout.dim.2 i j) be (Z i j))
              (L al (cxPairsAt X Y a.layout.dim.2 i j) be (Z i j)) (R.val (v.part p)) ∧
            f.Within (cxFactors al (cxPairsAt X Y a.layout.dim.2 i j) be (Z i j))
              ((cxProductAt al X Y be Z a.layout.dim.2 i j).part p)
              ((cxSizeAt al X Y be Z a.layout.dim.2 i j).part p)
              (a.layout.dim.2 + 4) (loopUnderflow (cxPairsAt X Y a.layout.dim.2 i j))
              (loopLargest f.eta al (cxPairsAt X Y a.layout.dim.2 i j) be (Z i j)) (R.val (w.part p)) ∧
            ∀ q r, R.val (v.part p) = some q → R.val (w.part p) = some r →
              |q - r| ≤ f.algorithmError ((cxSizeAt al X Y be Z a.layout.dim.2 i j).part p)
                  (n a.layout.dim.2) (U al (cxPairsAt X Y a.layout.dim.2 i j) be (Z i j)) +
                f.algorithmError ((cxSizeAt al X Y be Z a.layout.dim.2 i j).part p)
                  (a.layout.dim.2 + 4) (loopUnderflow (cxPairsAt X Y a.layout.dim.2 i j)) := by
  obtain ⟨mem1, e1, hf1, hr1⟩ := matmul_honest (kern := kern) (alpha := alpha) (beta := beta)
    ha hb hc hoa hob hoc hn hd hca hcb hA hB hC
  obtain ⟨mem2, e2, hf2, hr2⟩ := matmul_expect_any cfg alpha beta ha hb hc hoa.notTri hob.notTri
    hoc.notTri hn hd hca hcb hA hB hC
  refine ⟨mem1, mem2, e1, e2, fun i j hi hj => ?_⟩
  have hs : Stored c.layout i j := (stored_of_notTri hoc.notTri).2 ⟨hi, hj⟩
  obtain ⟨d1, d2, d3⟩ := hd
  have hp := cxPairs_stand (R := R) (A := A) (B := B) (X := X) (Y := Y) (i := i) (j := j)
    (k := a.layout.dim.2) (fun l hl => hX i l (by omega) hl) (fun l hl => hY l j (by omega) (by omega))
  obtain ⟨s, t, hs', ht, es, et⟩ := hk ⟨c.layout.dim.1, c.layout.dim.2, i, j⟩ alpha
    ((List.range a.layout.dim.2).map fun l => (A i l, B l j)) beta (C i j) al _ be (Z i j) hal hbe
    (hZ i j hi hj) hp
  obtain ⟨l1, l2⟩ := cxLoop_algorithm R hal hbe (hZ i j hi hj) hp
  have ew := cxAccumulate_loop R alpha A B beta C i j a.layout.dim.2
  obtain ⟨s1, s2, s3, s4⟩ := cxProductTerms_sum al X Y be Z a.layout.dim.2 i j
  have w1 := hs'.within
  have w2 := ht.within
  have w3 := l1.within
  have w4 := l2.within
  rw [s1, s3, List.length_map, List.length_range] at w1 w3
  rw [s2, s4, List.length_map, List.length_range] at w2 w4
  rw [← es] at w1
  rw [← et] at w2
  have r1 : ∀ z : Cx (Fp F), (z.map (Fp.run R)).re = z.re.run R := fun _ => rfl
  have r2 : ∀ z : Cx (Fp F), (z.map (Fp.run R)).im = z.im.run R := fun _ => rfl
  rw [← r1, ew] at w3
  rw [← r2, ew] at w4
  have diff : ∀ {xs : List ℚ} {x size : ℚ} {n1 n2 : ℕ} {U1 U2 L1 L2 : ℚ} {r s : Option ℚ},
      f.Within xs x size n1 U1 L1 r → f.Within xs x size n2 U2 L2 s → ∀ q q', r = some q → s = some q' →
      |q - q'| ≤ f.algorithmError size n1 U1 + f.algorithmError size n2 U2 := by
    intro xs x size n1 n2 U1 U2 L1 L2 r s h1 h2 q q' e1 e2
    have g1 := h1.error q e1
    have g2 := h2.error q' e2
    rw [show q - q' = (q - x) - (q' - x) by ring]
    exact (abs_sub _ _).trans (by linarith)
  refine ⟨_, _, (hc.mono (by rw [hf1.size])).get cfg hs (hr1 i j hs),
    (hc.mono (by rw [hf2.size])).get cfg hs (hr2 i j hs), ?_⟩
  rintro (_ | _)
  · exact ⟨w1, w3, diff w1 w3⟩
  · exact ⟨w2, w4, diff w2 w4⟩

/-- **C81, complex dot.** The same for `a.dot(&b)`: both parts of every element of the new matrix are
good approximations of those of `Σ a b`. -/
theorem C81_complex_dot [Target] [Zero F] [One F] (R : Ieee f F) (h0 : R.val 0 = some 0)
    (h1 : R.val 1 = some 1) (n : ℕ → ℕ) (U L : Cx ℚ → List (Cx ℚ × Cx ℚ) → Cx ℚ → Cx ℚ → ℚ)
    (kern : Kern (Cx F)) (hk : AnyComplexAlgorithm R n U L kern) (cfg : Cfg) (i : DotImpl)
    (a b : BaseMatrix) (mem : Mem (Cx F)) (ha : Sound a mem) (hb : Sound b mem) (hoa : Honest a.layout)
    (hob : Honest b.layout) (hd : a.layout.dim.2 = b.layout.dim.1) (hv : VectorShape i a b)
    (hsz : a.layout.dim.1 * b.layout.dim.2 * cfg.item.size ≤ isizeMax) (A B : Arr (Cx F))
    (X Y : Arr (Cx ℚ)) (hA : Represents a mem A) (hB : Represents b mem B)
    (hX : ∀ i l, i < a.layout.dim.1 → l < a.layout.dim.2 → (A i l).Stands R (X i l))
    (hY : ∀ l j, l < b.layout.dim.1 → j < b.layout.dim.2 → (B l j).Stands R (Y l j)) :
    ∃ M mem', dot cfg kern i a b mem = .ok (M, mem') ∧
      M.layout.dim = (a.layout.dim.1, b.layout.dim.2) ∧
      ∀ r c, r < a.layout.dim.1 → c < b.layout.dim.2 → ∃ v, M.get cfg mem' r c = .ok v ∧
        ∀ p : Part,
          f.Within (cxFactors 1 (cxPairsAt X Y a.layout.dim.2 r c) 0 0)
            (∑ l ∈ Finset.range a.layout.dim.2, (X r l * Y l c).part p)
            (∑ l ∈ Finset.range a.layout.dim.2, ((X r l).sizeMul (Y l c)).part p)
            (n a.layout.dim.2) (U 1 (cxPairsAt X Y a.layout.dim.2 r c) 0 0)
            (L 1 (cxPairsAt X Y a.layout.dim.2 r c) 0 0) (R.val (v.part p)) := by
  obtain ⟨M, mem', e, hl, hnew, hrep⟩ := dot_kern kern ha hb hoa hob hd hv hsz hA hB
  have hdim := productLayout_dim hv
  rw [← hl] at hdim
  have hnt : NotTriangular M.layout := by
    have := (productLayout_props i a.layout.dim.1 b.layout.dim.2).2.2
    rw [← hl] at this
    exact this.notTri
  refine ⟨M, mem', e, hdim, fun r c hr hc => ?_⟩
  have hs : Stored M.layout r c := (stored_of_notTri hnt).2 (by rw [hdim]; exact ⟨hr, hc⟩)
  refine ⟨_, hnew.sound.get cfg hs (hrep r c hs), ?_⟩
  have hp := cxPairs_stand (R := R) (A := A) (B := B) (X := X) (Y := Y) (i := r) (j := c)
    (k := a.layout.dim.2) (fun l hl => hX r l hr hl) (fun l hl => hY l c (by omega) hc)
  obtain ⟨s, t, hs', ht, es, et⟩ := hk ⟨a.layout.dim.1, b.layout.dim.2, r, c⟩ 1
    ((List.range a.layout.dim.2).map fun l => (A r l, B l c)) 0 0 1 _ 0 0 ⟨h1, h0⟩ ⟨h0, h0⟩ ⟨h0, h0⟩ hp
  obtain ⟨s1, s2, s3, s4⟩ := cxProductTerms_sum 1 X Y 0 (fun _ _ => 0) a.layout.dim.2 r c
  have o1 : (1 : Cx ℚ).re = 1 := rfl
  have o2 : (1 : Cx ℚ).im = 0 := rfl
  have z1 : (0 : Cx ℚ).re = 0 := rfl
  have z2 : (0 : Cx ℚ).im = 0 := rfl
  have w1 := hs'.within
  have w2 := ht.within
  rw [s1, s3, List.length_map, List.length_range, ← es] at w1
  rw [s2, s4, List.length_map, List.length_range, ← et] at w2
  simp only [cxProductAt, cxSizeAt, Cx.add_re, Cx.add_im, Cx.mul_re, Cx.mul_im, Cx.sizeMul, o1, o2, z1, z2,
    abs_one, abs_zero, one_mul, zero_mul, mul_zero, add_zero, sub_zero] at w1 w2
  have p1 : ∀ g : ℕ → ℚ, (∀ l, 0 ≤ g l) → |∑ l ∈ Finset.range a.layout.dim.2, g l| =
      ∑ l ∈ Finset.range a.layout.dim.2, g l := fun g hg =>
    abs_of_nonneg (Finset.sum_nonneg fun l _ => hg l)
  rw [p1 _ (fun l => by positivity)] at w1
  rw [p1 _ (fun l => by positivity)] at w2
  rintro (_ | _)
  · exact w1
  · exact w2

/-! ## Complex expressions -/

theorem over_run (R : Ieee f F) (X : BaseMatrix → Cx F) (e : Ex (Cx F)) (mem : Mem (Cx F)) (r c : Nat)
    (v : Cx F) (hX : ∀ b ∈ e.leaves, elem b mem r c = some (X b)) (hv : e.value mem r c = some v) :
    (e.over (Cx.map Fp.lit) X).map (Fp.run R) = v := by
  induction e generalizing v with
  | leaf b =>
    have h := hX b (by simp [Ex.leaves])
    simp only [Ex.value] at hv
    rw [h] at hv
    exact Option.some.inj hv
  | ref a ih => exact ih v hX hv
  | add g h a b iha ihb =>
    simp only [Ex.value] at hv
    cases h1 : a.value mem r c with
    | none => simp [h1] at hv
    | some x =>
      cases h2 : b.value mem r c with
      | none => simp [h1, h2] at hv
      | some y =>
        obtain rfl : x + y = v := by simpa [h1, h2] using hv
        simp only [Ex.over]
        rw [run_add, iha x (fun b hb => hX b (by simp [Ex.leaves, hb])) h1,
          ihb y (fun b hb => hX b (by simp [Ex.leaves, hb])) h2]
  | scale g h s a ih =>
    simp only [Ex.value] at hv
    cases h1 : a.value mem r c with
    | none => simp [h1] at hv
    | some x =>
      obtain rfl : s * x = v := by simpa [h1] using hv
      simp only [Ex.over]
      rw [run_mul, run_lit, ih x hX h1]

theorem over_exact (R : Ieee f F) (X : BaseMatrix → Cx F) (e : Ex (Cx F)) :
    (e.over (Cx.map Fp.lit) X).map (Fp.exact R) = e.over (Cx.num R) X := by
  induction e with
  | leaf b => rfl
  | ref a ih => exact ih
  | add g h a b iha ihb => simp only [Ex.over, ← iha, ← ihb]; rfl
  | scale g h s a ih => simp only [Ex.over, ← ih]; rfl

theorem rounded_run (R : Ieee f F) (t : Fp F) : t.Rounded R (t.exact R) (R.val (t.run R)) where
  error q hq := ⟨Fp.finite_of_result R t q hq, Fp.error R t q hq⟩
  finite hf ho := Fp.finite R t hf ho
  whole hw hs := Fp.run_whole R t hw hs

/-- **C81, complex expressions.** With complex scalars whose parts follow IEEE-754, both parts of every
element of a built expression, and of the matrix that `eval` returns, are good approximations of those
of the complex number the expression stands for (`Ex.over` with the numbers): `Fp.Rounded` with the
operations that `num_complex` does for it. -/
theorem C81_complex_expressions [Target] [Zero F] (R : Ieee f F) (cfg : Cfg) (e : Ex (Cx F))
    (mem : Mem (Cx F)) (m : Mat (Cx F)) (ht : e.Typed) (hl : ∀ b ∈ e.leaves, Sound b mem)
    (hb : e.build = .ok m) (r c : Nat) (hrc : (r, c) ∈ orderOf e.kind e.dim) (X : BaseMatrix → Cx F)
    (hX : ∀ b ∈ e.leaves, b.get cfg mem r c = .ok (X b)) :
    ∃ v, m.get cfg mem r c = .ok v ∧
      ((e.kind = .columnVector → e.dim.1 = 1) →
        (orderOf e.kind e.dim).length * cfg.item.size ≤ isizeMax →
        ∃ N mem', m.eval cfg mem = .ok (N, mem') ∧ N.get cfg mem' r c = .ok v) ∧
      (e.over (Cx.map Fp.lit) X).re.Rounded R (e.over (Cx.num R) X).re (R.val v.re) ∧
      (e.over (Cx.map Fp.lit) X).im.Rounded R (e.over (Cx.num R) X).im (R.val v.im) := by
  have hc := conform_of_build ht hb
  have hX' : ∀ b ∈ e.leaves, elem b mem r c = some (X b) := by
    intro b hb
    obtain ⟨hd, hki⟩ := leaf_shape e ht hc b hb
    have hs : Stored b.layout r c := by rw [← mem_order, order_eq_orderOf, hd, hki]; exact hrc
    obtain ⟨w, hw⟩ := (hl b hb).elem_some hs
    have := hX b hb
    rw [(hl b hb).get cfg hs hw] at this
    rw [hw]
    simpa using this
  obtain ⟨k, hk⟩ := List.mem_iff_getElem?.1 hrc
  obtain ⟨v, h1, h2, -⟩ := (C35_get1d_get cfg e mem m ht hl hb k).1 r c hk
  have hv := over_run R X e mem r c v hX' h1
  have hx := over_exact R X e
  refine ⟨v, h2, fun hcv hsz => ?_, ?_, ?_⟩
  · obtain ⟨N, mem', g1, g2, -, -, g4, -, -, -, g5, -⟩ := C37_eval cfg e mem m ht hl hb hcv hsz
    obtain ⟨w, k1, k2, -⟩ := g5 r c (by rw [← mem_order, order_eq_orderOf, g2, g4]; exact hrc)
    rw [h1, Option.some.injEq] at k1
    exact ⟨N, mem', g1, k1 ▸ k2⟩
  · rw [← hv, ← hx]; exact rounded_run R _
  · rw [← hv, ← hx]; exact rounded_run R _

/-! ## Kernels and examples -/

/-- The loop of the reference product is such a kernel. -/
theorem loopKern_complex (R : Ieee f F) : AnyComplexAlgorithm R (· + 4)
    (fun _ qs _ _ => loopUnderflow qs) (loopLargest f.eta) (loopKern : Kern (Cx F)) := by
  intro site alpha ps beta c al qs be z ha hb hc hp
  obtain ⟨h1, h2⟩ := cxLoop_algorithm R ha hb hc hp
  have e : (cxLoop alpha ps beta c).map (Fp.run R) = loopKern site alpha ps beta c := cxLoop_run R alpha ps beta c
  exact ⟨_, _, h1, h2, by rw [← e]; rfl, by rw [← e]; rfl⟩

/-- `c64` scalars. -/
def exCx (x y : ℚ) : Cx (Num .f64) := ⟨exNum x, exNum y⟩

/-- A row `[1 + 2i, 3]`, a column `[4 - i, 5i]` and a result. -/
def exMemCx : Mem (Cx (Num .f64)) := ⟨[[exCx 1 2, exCx 3 0], [exCx 4 (-1), exCx 0 5], [0]]⟩

/-- A 1x2 matrix, a 2x1 matrix and a 1x1 matrix. -/
def exRowCx : BaseMatrix := ⟨⟨0, 0, 2⟩, .rowMajor ⟨(1, 2)⟩, .dynamic, .dynamic⟩
@[inherit_doc exRowCx]
def exColCx : BaseMatrix := ⟨⟨1, 0, 2⟩, .rowMajor ⟨(2, 1)⟩, .dynamic, .dynamic⟩
@[inherit_doc exRowCx]
def exOneCx : BaseMatrix := ⟨⟨2, 0, 1⟩, .rowMajor ⟨(1, 1)⟩, .dynamic, .dynamic⟩

/-- The elements of the row and of the column. -/
def exRowAt (l : ℕ) : ℚ × ℚ := if l = 0 then (1, 2) else (3, 0)
@[inherit_doc exRowAt]
def exColAt (l : ℕ) : ℚ × ℚ := if l = 0 then (4, -1) else (0, 5)

theorem exSepCx (m : BaseMatrix) (hm : m.data.buf ≠ 2) : Separate exOneCx m :=
  fun _ _ _ _ _ _ h => hm (congrArg Loc.buf h).symm

theorem exRowCx_rep : Represents exRowCx exMemCx (fun _ l => exCx (exRowAt l).1 (exRowAt l).2) := by
  rintro i j ⟨hi, hj, -⟩
  obtain rfl : i = 0 := Nat.lt_one_iff.1 hi
  match j, hj with
  | 0, _ | 1, _ => rfl

theorem exColCx_rep : Represents exColCx exMemCx (fun l _ => exCx (exColAt l).1 (exColAt l).2) := by
  rintro i j ⟨hi, hj, -⟩
  obtain rfl : j = 0 := Nat.lt_one_iff.1 hj
  match i, hi with
  | 0, _ | 1, _ => rfl

theorem exOneCx_rep : Represents exOneCx exMemCx (fun _ _ => 0) := by
  rintro i j ⟨hi, hj, -⟩
  obtain rfl : i = 0 := Nat.lt_one_iff.1 hi
  obtain rfl : j = 0 := Nat.lt_one_iff.1 hj
  rfl

theorem exRowCx_stands (l : ℕ) (hl : l < 2) : (exCx (exRowAt l).1 (exRowAt l).2).Stands (Num.ieee .f64)
    ⟨(exRowAt l).1, (exRowAt l).2⟩ := by
  match l, hl with
  | 0, _ | 1, _ => exact ⟨by decide +kernel, by decide +kernel⟩

theorem exColCx_stands (l : ℕ) (hl : l < 2) : (exCx (exColAt l).1 (exColAt l).2).Stands (Num.ieee .f64)
    ⟨(exColAt l).1, (exColAt l).2⟩ := by
  match l, hl with
  | 0, _ | 1, _ => exact ⟨by decide +kernel, by decide +kernel⟩

/-- By `C81_complex_products` the product is exactly `(1 + 2i)(4 - i) + 3 * 5i = 6 + 22i`, for every
kernel with the bounds of the loop. -/
example (kern : Kern (Cx (Num .f64))) (hk : AnyComplexAlgorithm (Num.ieee .f64) (· + 4)
      (fun _ qs _ _ => loopUnderflow qs) (loopLargest Format.f64.eta) kern) :
    ∃ mem' v, matmul kern 1 exRowCx exColCx 0 exOneCx exMemCx = .ok mem' ∧
      exOneCx.get dbg mem' 0 0 = .ok v ∧ v.re.val = some 6 ∧ v.im.val = some 22 := by
  obtain ⟨mem1, mem2, e1, -, h⟩ := C81_complex_products (Num.ieee .f64) _ _ _ kern hk dbg 1 0 exRowCx exColCx
    exOneCx exMemCx (sound_of_contiguous trivial ⟨by decide, by decide⟩ (by decide))
    (sound_of_contiguous trivial ⟨by decide, by decide⟩ (by decide))
    (sound_of_contiguous trivial ⟨by decide, by decide⟩ (by decide)) trivial trivial trivial trivial
    ⟨rfl, rfl, rfl⟩ (exSepCx _ (by decide)) (exSepCx _ (by decide)) _ _ _ ⟨1, 0⟩ ⟨0, 0⟩
    (fun _ l => ⟨(exRowAt l).1, (exRowAt l).2⟩) (fun l _ => ⟨(exColAt l).1, (exColAt l).2⟩)
    (fun _ _ => ⟨0, 0⟩) exRowCx_rep exColCx_rep exOneCx_rep ⟨rfl, rfl⟩ ⟨rfl, rfl⟩
    (fun _ l _ hl => exRowCx_stands l hl) (fun l _ hl _ => exColCx_stands l hl)
    (fun _ _ _ _ => ⟨rfl, rfl⟩)
  obtain ⟨v, w, g1, -, g2⟩ := h 0 0 (by decide) (by decide)
  have hw : ∀ y ∈ cxFactors ⟨1, 0⟩ (cxPairsAt (fun _ l => ⟨(exRowAt l).1, (exRowAt l).2⟩)
      (fun l _ => ⟨(exColAt l).1, (exColAt l).2⟩) exRowCx.layout.dim.2 0 0) ⟨0, 0⟩ ⟨0, 0⟩,
      ∃ m : ℤ, y = m := by
    have : ∀ y ∈ cxFactors ⟨1, 0⟩ (cxPairsAt (fun _ l => ⟨(exRowAt l).1, (exRowAt l).2⟩)
      (fun l _ => ⟨(exColAt l).1, (exColAt l).2⟩) exRowCx.layout.dim.2 0 0) ⟨0, 0⟩ ⟨0, 0⟩,
      y = (y.floor : ℤ) := by decide +kernel
    exact fun y hy => ⟨_, this y hy⟩
  refine ⟨mem1, v, e1, g1, ?_, ?_⟩
  · refine ((g2 .re).1.whole hw (by decide +kernel)).trans (by decide +kernel)
  · refine ((g2 .im).1.whole hw (by decide +kernel)).trans (by decide +kernel)

/-- The dot product of the same. -/
example : (do
      let (M, mem') ← dot dbg loopKern .matMat exRowCx exColCx exMemCx
      let v ← M.get dbg mem' 0 0
      return (v.re.val, v.im.val)) = Out.ok (some 6, some 22) ∧
    VectorShape .matMat exRowCx exColCx ∧
    AnyComplexAlgorithm (Num.ieee .f64) (· + 4) (fun _ qs _ _ => loopUnderflow qs)
      (loopLargest Format.f64.eta) loopKern :=
  ⟨by decide +kernel, trivial, loopKern_complex _⟩

/-- Rounding in one part only: `(1 + 2^-53 i) * (1 + i)` is `1 + i`, the exact result being
`1 - 2^-53 + (1 + 2^-53) i`: the first part is representable, the second is not. -/
example : ((exCx 1 (2 ^ (-53 : ℤ))) * exCx 1 1).re.val = some (1 - 2 ^ (-53 : ℤ)) ∧
    ((exCx 1 (2 ^ (-53 : ℤ))) * exCx 1 1).im.val = some 1 := by
  decide +kernel

/-- By `C81_products` the real product of C80 is exact with any algorithm with the bounds of these
orders; the kernels `loopKern` and `fusedKern` are such. -/
example : AnyAlgorithm (Num.ieee .f64) (· + 2) (fun al qs _ _ => orderUnderflow al qs)
      (orderLargest Format.f64.eta) (fusedKern (Num.ieee .f64) 0) ∧
    orderLargest Format.f64.eta 1 (pairsAt (fun _ l => l + 1) (fun l _ => l + 4) 3 0 0) 0 0 ≤
      2 ^ Format.f64.p :=
  ⟨C81_orders _ _ (fusedKern_order _ _ rfl), by decide +kernel⟩

/-- `&a + (2 + i) * a`. -/
def exExprCx : Ex (Cx (Num .f64)) :=
  .add true false (.leaf exRowCx) (.scale true false (exCx 2 1) (.leaf exRowCx))

/-- The hypotheses of `C81_complex_expressions` for the first element: `(3 + i)(1 + 2i) = 1 + 7i`. -/
example : exExprCx.Typed ∧ (∀ b ∈ exExprCx.leaves, Sound b exMemCx) ∧
    (0, 0) ∈ orderOf exExprCx.kind exExprCx.dim ∧
    (do
      let m ← exExprCx.build
      let v ← m.get dbg exMemCx 0 0
      return (v.re.val, v.im.val)) = Out.ok (some 1, some 7) ∧
    exExprCx.over (Cx.num (Num.ieee .f64)) (fun _ => exCx 1 2) = ⟨1, 7⟩ := by
  refine ⟨by simp [exExprCx, Ex.Typed, Ex.kind, Ex.sizes], fun b hb => ?_, by decide, by decide +kernel,
    by decide +kernel⟩
  obtain rfl : b = exRowCx := by simpa [exExprCx, Ex.leaves] using hb
  exact sound_of_contiguous trivial ⟨by decide, by decide⟩ (by decide)

end Householder.Props
