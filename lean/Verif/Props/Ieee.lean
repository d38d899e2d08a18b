import Verif.Lemmas.Fp
import Verif.Props.RefMut
import Verif.Props.Rounding
import Verif.Spec.Binary64
import Mathlib.Tactic.NormNum

/-!
# C80: floating-point results by IEEE-754, with overflow and underflow, in any order
-/

namespace Householder.Props

open Spec

variable {F : Type} [Add F] [Sub F] [Mul F] {f : Format}

/-! ## One element of a product -/

theorem dotSum_range (R : Ieee f F) (A B : Arr F) (X Y : Arr ℚ) (i j k : Nat)
    (hX : ∀ l < k, R.val (A i l) = some (X i l)) (hY : ∀ l < k, R.val (B l j) = some (Y l j)) :
    dotSum R ((List.range k).map fun l => (A i l, B l j)) = ∑ l ∈ Finset.range k, X i l * Y l j ∧
    dotSize R ((List.range k).map fun l => (A i l, B l j)) =
      ∑ l ∈ Finset.range k, |X i l| * |Y l j| ∧
    factorSize R ((List.range k).map fun l => (A i l, B l j)) = ∑ l ∈ Finset.range k, |Y l j| := by
  induction k with
  | zero => simp [dotSum, dotSize, factorSize]
  | succ k ih =>
    obtain ⟨h1, h2, h3⟩ := ih (fun l hl => hX l (by omega)) (fun l hl => hY l (by omega))
    rw [List.range_succ, List.map_append, dotSum_append, dotSize_append, factorSize_append, h1, h2, h3,
      Finset.sum_range_succ, Finset.sum_range_succ, Finset.sum_range_succ]
    simp [dotSum, dotSize, factorSize, hX k (by omega), hY k (by omega)]

/-- Whatever the order in which it is computed, an element of a product is accurate. -/
theorem product_accurate (R : Ieee f F) {alpha beta : F} {A B C : Arr F} {al be : ℚ} {X Y Z : Arr ℚ}
    {i j k : Nat} (hal : R.val alpha = some al) (hbe : R.val beta = some be)
    (hX : ∀ l < k, R.val (A i l) = some (X i l)) (hY : ∀ l < k, R.val (B l j) = some (Y l j))
    (hZ : R.val (C i j) = some (Z i j)) {t : Fp F}
    (ht : ProductOf R alpha beta (C i j) ((List.range k).map fun l => (A i l, B l j)) t) :
    f.Accurate al X Y be Z k i j (R.val (t.run R)) := by
  have he := f.eta_pos
  obtain ⟨d1, d2, d3⟩ := dotSum_range R A B X Y i j k hX hY
  have hex := ht.exact
  obtain ⟨b1, b2⟩ := ht.bounds
  rw [d1, d2, hal, hbe, hZ] at hex
  simp only [Option.getD_some] at hex
  have hx : t.exact R = productAt al X Y be Z k i j := hex.1
  have hm : t.magnitude R = sizeAt al X Y be Z k i j := hex.2
  have hr : productReach R alpha beta (C i j) ((List.range k).map fun l => (A i l, B l j)) =
      sizeAt al X Y be Z k i j + underflowAt al Y k j * f.eta := by
    simp only [productReach, d2, d3, hal, hbe, hZ, Option.getD_some, List.length_map,
      List.length_range, sizeAt, underflowAt]
  rw [List.length_map, List.length_range] at b1
  rw [hr] at b2
  refine ⟨fun q hq => ?_, fun ho => ?_, fun hw => ?_⟩
  · have h := Fp.error R t q hq
    rw [hx, hm] at h
    refine h.trans ?_
    have h1 : (1 + f.u) ^ t.roundings * t.reach R ≤
        (1 + f.u) ^ (k + 2) * (sizeAt al X Y be Z k i j + underflowAt al Y k j * f.eta) :=
      mul_le_mul (Fp.factor_mono f b1) b2 (Fp.reach_nonneg R t)
        (by have := Fp.one_le_factor f (k + 2); linarith)
    unfold Format.productError
    linarith
  · obtain ⟨o1, o2, o3⟩ := ho
    refine Fp.finite R t (ht.literals.mono ?_) (ht.every.mono ?_)
    · rintro a (h | h | h | h | ⟨p, hp, h⟩)
      · simp [h]
      · simp [h, hal]
      · simp [h, hbe]
      · simp [h, hZ]
      · simp only [List.mem_map, List.mem_range] at hp
        obtain ⟨l, hl, rfl⟩ := hp
        rcases h with h | h
        · simp [h, hX l hl]
        · simp [h, hY l hl]
    · rintro s ⟨h1, h2⟩
      rw [List.length_map, List.length_range] at h1 h2
      have hb : ∀ B : ℚ, s.reach R ≤ B → (1 + f.u) ^ s.roundings * s.reach R ≤ (1 + f.u) ^ (k + 2) * B :=
        fun B h => mul_le_mul (Fp.factor_mono f h1) h (Fp.reach_nonneg R s)
          (by have := Fp.one_le_factor f (k + 2); linarith)
      rcases h2 with ⟨h2, -⟩ | ⟨h2, -⟩ | ⟨p, hp, h2, -⟩
      · rw [d2] at h2
        exact (hb _ h2).trans_lt o1
      · rw [hr] at h2
        exact (hb _ h2).trans_lt o2
      · simp only [List.mem_map, List.mem_range] at hp
        obtain ⟨l, hl, rfl⟩ := hp
        rw [hal, hX l hl, Option.getD_some, Option.getD_some] at h2
        exact (hb _ h2).trans_lt (o3 l hl)
  · obtain ⟨⟨na, ea⟩, ⟨nb, eb⟩, ⟨nc, ec⟩, hl, s1, s2⟩ := hw
    rw [← hx]
    refine Fp.run_whole R t (ht.literals.mono ?_) (ht.every.mono ?_)
    · rintro a (h | h | h | h | ⟨p, hp, h⟩)
      · exact ⟨0, by simpa using h⟩
      · exact ⟨na, by rw [h, hal, ea]⟩
      · exact ⟨nb, by rw [h, hbe, eb]⟩
      · exact ⟨nc, by rw [h, hZ, ec]⟩
      · simp only [List.mem_map, List.mem_range] at hp
        obtain ⟨l, hl', rfl⟩ := hp
        obtain ⟨⟨n1, e1⟩, ⟨n2, e2⟩, -⟩ := hl l hl'
        rcases h with h | h
        · exact ⟨n1, by rw [h, hX l hl', e1]⟩
        · exact ⟨n2, by rw [h, hY l hl', e2]⟩
    · rintro s ⟨-, h2⟩
      rcases h2 with ⟨-, h2⟩ | ⟨-, h2⟩ | ⟨p, hp, -, h2⟩
      · rw [d2] at h2
        exact h2.trans s1
      · rw [d2, hal, hbe, hZ] at h2
        exact h2.trans s2
      · simp only [List.mem_map, List.mem_range] at hp
        obtain ⟨l, hl', rfl⟩ := hp
        rw [hal, hX l hl', Option.getD_some, Option.getD_some] at h2
        exact h2.trans (hl l hl').2.2

/-- The order of the reference product of the unit tests. -/
theorem accumulate_order (R : Ieee f F) (alpha : F) (A B : Arr F) (beta : F) (C : Arr F) (i j k : Nat) :
    ∃ t, ProductOf R alpha beta (C i j) ((List.range k).map fun l => (A i l, B l j)) t ∧
      t.run R = accumulate alpha A B beta C i j k := by
  induction k with
  | zero => exact ⟨_, .scaled', rfl⟩
  | succ k ih =>
    obtain ⟨t, ht, e⟩ := ih
    rw [List.range_succ, List.map_append]
    exact ⟨_, ht.term, by simp only [Fp.run, e, accumulate]⟩

/-! ## Products -/

/-- **C80, matmul.** With scalars that follow IEEE-754 and a kernel that sums in any order, with or
without fused multiply-adds, every element of the result of `matmul` is accurate: if it is finite, it
is within `productError` of `alpha * Σ a b + beta * c`; it is finite if no order of summation can
overflow; and it is exact if the numbers are whole and small. The same holds of the reference product
of the unit tests, so that the two differ by at most twice the bound. -/
theorem C80_matmul [Target] (R : Ieee f F) (kern : Kern F) (hk : AnyOrder R kern) (cfg : Cfg)
    (alpha beta : F) (a b c : BaseMatrix) (mem : Mem F) (ha : Sound a mem) (hb : Sound b mem)
    (hc : Sound c mem) (hoa : Honest a.layout) (hob : Honest b.layout) (hoc : Honest c.layout)
    (hn : NonOverlapping c.layout) (hd : Compatible a.layout b.layout c.layout)
    (hca : Separate c a) (hcb : Separate c b) (A B C : Arr F) (al be : ℚ) (X Y Z : Arr ℚ)
    (hA : Represents a mem A) (hB : Represents b mem B) (hC : Represents c mem C)
    (hal : R.val alpha = some al) (hbe : R.val beta = some be)
    (hX : ∀ i l, i < a.layout.dim.1 → l < a.layout.dim.2 → R.val (A i l) = some (X i l))
    (hY : ∀ l j, l < b.layout.dim.1 → j < b.layout.dim.2 → R.val (B l j) = some (Y l j))
    (hZ : ∀ i j, i < c.layout.dim.1 → j < c.layout.dim.2 → R.val (C i j) = some (Z i j)) :
    ∃ mem1 mem2, matmul kern alpha a b beta c mem = .ok mem1 ∧
      matmul_expect cfg alpha a b beta c mem = .ok mem2 ∧
      ∀ i j, i < c.layout.dim.1 → j < c.layout.dim.2 →
        ∃ v w, c.get cfg mem1 i j = .ok v ∧ c.get cfg mem2 i j = .ok w ∧
          f.Accurate al X Y be Z a.layout.dim.2 i j (R.val v) ∧
          f.Accurate al X Y be Z a.layout.dim.2 i j (R.val w) ∧
          ∀ q r, R.val v = some q → R.val w = some r →
            |q - r| ≤ 2 * f.productError al X Y be Z a.layout.dim.2 i j := by
  obtain ⟨mem1, e1, hf1, hr1⟩ := matmul_honest (kern := kern) (alpha := alpha) (beta := beta)
    ha hb hc hoa hob hoc hn hd hca hcb hA hB hC
  obtain ⟨mem2, e2, hf2, hr2⟩ := matmul_expect_any cfg alpha beta ha hb hc hoa.notTri hob.notTri
    hoc.notTri hn hd hca hcb hA hB hC
  refine ⟨mem1, mem2, e1, e2, fun i j hi hj => ?_⟩
  have hs : Stored c.layout i j := (stored_of_notTri hoc.notTri).2 ⟨hi, hj⟩
  obtain ⟨d1, d2, d3⟩ := hd
  obtain ⟨t, ht, et⟩ := hk ⟨c.layout.dim.1, c.layout.dim.2, i, j⟩ alpha
    ((List.range a.layout.dim.2).map fun l => (A i l, B l j)) beta (C i j)
  obtain ⟨s, hs', es⟩ := accumulate_order R alpha A B beta C i j a.layout.dim.2
  have acc : ∀ {t : Fp F}, ProductOf R alpha beta (C i j)
      ((List.range a.layout.dim.2).map fun l => (A i l, B l j)) t →
      f.Accurate al X Y be Z a.layout.dim.2 i j (R.val (t.run R)) := fun h =>
    product_accurate R hal hbe (fun l hl => hX i l (by omega) hl)
      (fun l hl => hY l j (by omega) (by omega)) (hZ i j hi hj) h
  have h1 := acc ht
  have h2 := acc hs'
  rw [← et] at h1
  rw [es] at h2
  refine ⟨_, _, (hc.mono (by rw [hf1.size])).get cfg hs (hr1 i j hs),
    (hc.mono (by rw [hf2.size])).get cfg hs (hr2 i j hs), h1, h2, fun q r hq hr => ?_⟩
  have g1 := h1.error q hq
  have g2 := h2.error r hr
  have e : q - r = (q - productAt al X Y be Z a.layout.dim.2 i j) -
    (r - productAt al X Y be Z a.layout.dim.2 i j) := by ring
  rw [e]
  exact (abs_sub _ _).trans (by linarith)

/-- **C80, dot.** The same for `a.dot(&b)`: every element of the new matrix is an accurate
`Σ a b`. -/
theorem C80_dot [Target] [Zero F] [One F] (R : Ieee f F) (h0 : R.val 0 = some 0) (h1 : R.val 1 = some 1)
    (kern : Kern F) (hk : AnyOrder R kern) (cfg : Cfg) (i : DotImpl) (a b : BaseMatrix) (mem : Mem F)
    (ha : Sound a mem) (hb : Sound b mem) (hoa : Honest a.layout) (hob : Honest b.layout)
    (hd : a.layout.dim.2 = b.layout.dim.1) (hv : VectorShape i a b)
    (hsz : a.layout.dim.1 * b.layout.dim.2 * cfg.item.size ≤ isizeMax) (A B : Arr F) (X Y : Arr ℚ)
    (hA : Represents a mem A) (hB : Represents b mem B)
    (hX : ∀ i l, i < a.layout.dim.1 → l < a.layout.dim.2 → R.val (A i l) = some (X i l))
    (hY : ∀ l j, l < b.layout.dim.1 → j < b.layout.dim.2 → R.val (B l j) = some (Y l j)) :
    ∃ M mem', dot cfg kern i a b mem = .ok (M, mem') ∧
      M.layout.dim = (a.layout.dim.1, b.layout.dim.2) ∧
      ∀ r c, r < a.layout.dim.1 → c < b.layout.dim.2 → ∃ v, M.get cfg mem' r c = .ok v ∧
        f.Accurate 1 X Y 0 (fun _ _ => 0) a.layout.dim.2 r c (R.val v) := by
  obtain ⟨M, mem', e, hl, hnew, hrep⟩ := dot_kern kern ha hb hoa hob hd hv hsz hA hB
  have hdim := productLayout_dim hv
  rw [← hl] at hdim
  have hnt : NotTriangular M.layout := by
    have := (productLayout_props i a.layout.dim.1 b.layout.dim.2).2.2
    rw [← hl] at this
    exact this.notTri
  refine ⟨M, mem', e, hdim, fun r c hr hc => ?_⟩
  have hs : Stored M.layout r c := (stored_of_notTri hnt).2 (by rw [hdim]; exact ⟨hr, hc⟩)
  refine ⟨_, hnew.sound.get cfg hs (hrep r c hs), ?_⟩
  obtain ⟨t, ht, et⟩ := hk ⟨a.layout.dim.1, b.layout.dim.2, r, c⟩ 1
    ((List.range a.layout.dim.2).map fun l => (A r l, B l c)) 0 0
  rw [et]
  exact product_accurate R (C := fun _ _ => 0) h1 h0 (fun l hl => hX r l hr hl)
    (fun l hl => hY l c (by omega) hc) h0 ht

/-! ## Expressions -/

theorem operations_run (R : Ieee f F) (X : BaseMatrix → F) (e : Ex F) (mem : Mem F) (r c : Nat) (v : F)
    (hX : ∀ b ∈ e.leaves, elem b mem r c = some (X b)) (hv : e.value mem r c = some v) :
    (e.operations X).run R = v := by
  induction e generalizing v with
  | leaf b =>
    have h := hX b (by simp [Ex.leaves])
    simp only [Ex.value] at hv
    rw [h] at hv
    exact Option.some.inj hv
  | ref a ih => exact ih v hX hv
  | add g h a b iha ihb =>
    simp only [Ex.value] at hv
    cases h1 : a.value mem r c with
    | none => simp [h1] at hv
    | some x =>
      cases h2 : b.value mem r c with
      | none => simp [h1, h2] at hv
      | some y =>
        obtain rfl : x + y = v := by simpa [h1, h2] using hv
        simp only [Ex.operations, Fp.run]
        rw [iha x (fun b hb => hX b (by simp [Ex.leaves, hb])) h1,
          ihb y (fun b hb => hX b (by simp [Ex.leaves, hb])) h2]
  | scale g h s a ih =>
    simp only [Ex.value] at hv
    cases h1 : a.value mem r c with
    | none => simp [h1] at hv
    | some x =>
      obtain rfl : s * x = v := by simpa [h1] using hv
      simp only [Ex.operations, Fp.run]
      rw [ih x hX h1]

/-- **C80, expressions.** With scalars that follow IEEE-754, every element of a built expression, and
the same element of the matrix that `eval` returns, is

* infinite or NaN, or within `(1 + u)^roundings * reach - magnitude` of the exact value (and then all
  elements that go into it are finite);
* finite if the elements that go into it are and no operation can reach the limit of the format;
* exact if all numbers are whole and no operation exceeds `2^p`. -/
theorem C80_expressions [Target] [Zero F] (R : Ieee f F) (cfg : Cfg) (e : Ex F) (mem : Mem F) (m : Mat F)
    (ht : e.Typed) (hl : ∀ b ∈ e.leaves, Sound b mem) (hb : e.build = .ok m) (r c : Nat)
    (hrc : (r, c) ∈ orderOf e.kind e.dim) (X : BaseMatrix → F)
    (hX : ∀ b ∈ e.leaves, b.get cfg mem r c = .ok (X b)) :
    ∃ v, m.get cfg mem r c = .ok v ∧
      ((e.kind = .columnVector → e.dim.1 = 1) →
        (orderOf e.kind e.dim).length * cfg.item.size ≤ isizeMax →
        ∃ N mem', m.eval cfg mem = .ok (N, mem') ∧ N.get cfg mem' r c = .ok v) ∧
      (∀ q, R.val v = some q → (e.operations X).Finite R ∧
        |q - (e.operations X).exact R| ≤
          (1 + f.u) ^ (e.operations X).roundings * (e.operations X).reach R -
            (e.operations X).magnitude R) ∧
      ((e.operations X).Finite R →
        ((e.operations X).Every fun s => (1 + f.u) ^ s.roundings * s.reach R < f.limit) →
        ∃ q, R.val v = some q) ∧
      ((e.operations X).Whole R → ((e.operations X).Every fun s => s.magnitude R ≤ 2 ^ f.p) →
        R.val v = some ((e.operations X).exact R)) := by
  have hc := conform_of_build ht hb
  have hX' : ∀ b ∈ e.leaves, elem b mem r c = some (X b) := by
    intro b hb
    obtain ⟨hd, hki⟩ := leaf_shape e ht hc b hb
    have hs : Stored b.layout r c := by rw [← mem_order, order_eq_orderOf, hd, hki]; exact hrc
    obtain ⟨w, hw⟩ := (hl b hb).elem_some hs
    have := hX b hb
    rw [(hl b hb).get cfg hs hw] at this
    rw [hw]
    simpa using this
  obtain ⟨k, hk⟩ := List.mem_iff_getElem?.1 hrc
  obtain ⟨v, h1, h2, -⟩ := (C35_get1d_get cfg e mem m ht hl hb k).1 r c hk
  have hv := operations_run R X e mem r c v hX' h1
  refine ⟨v, h2, fun hcv hsz => ?_, fun q hq => ?_, fun hf ho => ?_, fun hw hs => ?_⟩
  · obtain ⟨N, mem', g1, g2, -, -, g4, -, -, -, g5, -⟩ := C37_eval cfg e mem m ht hl hb hcv hsz
    obtain ⟨w, k1, k2, -⟩ := g5 r c (by rw [← mem_order, order_eq_orderOf, g2, g4]; exact hrc)
    rw [h1, Option.some.injEq] at k1
    exact ⟨N, mem', g1, k1 ▸ k2⟩
  · rw [← hv] at hq
    exact ⟨Fp.finite_of_result R _ q hq, Fp.error R _ q hq⟩
  · rw [← hv]; exact Fp.finite R _ hf ho
  · rw [← hv]; exact Fp.run_whole R _ hw hs

/-! ## The format of `f64` is that of `Spec/Binary64.lean` -/

theorem f64_value (x : ℚ) : Format.f64.Value x ↔ Binary64 (x : ℝ) := by
  constructor
  · rintro ⟨m, e, h1, h2, h3, rfl⟩
    exact ⟨m, e, h1, h2, h3, by push_cast; rfl⟩
  · rintro ⟨m, e, h1, h2, h3, h4⟩
    exact ⟨m, e, h1, h2, h3, by
      apply (Rat.cast_injective (α := ℝ)); rw [h4]; push_cast; rfl⟩

theorem f64_even (x : ℚ) : Format.f64.Even x ↔ EvenSignificand (x : ℝ) := by
  constructor
  · rintro ⟨m, e, h1, h2, h3, h4, rfl, h5⟩
    exact ⟨m, e, h1, h2, h3, h4, by push_cast; rfl, h5⟩
  · rintro ⟨m, e, h1, h2, h3, h4, h5, h6⟩
    exact ⟨m, e, h1, h2, h3, h4, by
      apply (Rat.cast_injective (α := ℝ)); rw [h5]; push_cast; rfl, h6⟩

theorem binary64_rational {z : ℝ} (h : Binary64 z) : ∃ q : ℚ, z = q := by
  obtain ⟨m, e, -, -, -, rfl⟩ := h
  exact ⟨m * 2 ^ e, by push_cast; rfl⟩

/-- **C80, f64.** The format `f64` of these theorems is the binary64 of `Spec/Binary64.lean`, in which
the arithmetic of the triangular layouts is specified (C09): the same values, rounded in the same
way, with the same limit. -/
theorem C80_binary64 (x y : ℚ) :
    (Format.f64.Value x ↔ Binary64 (x : ℝ)) ∧
    (|x| < Format.f64.limit ∧ Format.f64.RoundsTo x y ↔ RoundsTo (x : ℝ) (y : ℝ)) := by
  have hlim : |x| < Format.f64.limit ↔ |(x : ℝ)| < 2 ^ 1024 - 2 ^ 970 := by
    have e : Format.f64.limit = 2 ^ 1024 - 2 ^ 970 := by
      have : ((2 : ℚ) ^ (971 : ℤ)) = 2 ^ 971 := zpow_natCast 2 971
      show ((2 : ℚ) ^ 53 - 1 / 2) * 2 ^ (971 : ℤ) = _
      rw [this]
      have h1 : (2 : ℚ) ^ 1024 = 2 ^ 53 * (2 * 2 ^ 970) := by
        rw [← pow_succ', ← pow_add]
      have h2 : (2 : ℚ) ^ 971 = 2 * 2 ^ 970 := by rw [← pow_succ']
      rw [h1, h2]
      generalize (2 : ℚ) ^ 970 = x
      ring
    rw [e]
    exact_mod_cast Iff.rfl
  have habs : ∀ z : ℚ, |(x : ℝ) - (z : ℝ)| = ((|x - z| : ℚ) : ℝ) := fun z => by push_cast; rfl
  refine ⟨f64_value x, ⟨fun ⟨h0, h1, h2, h3⟩ => ⟨hlim.1 h0, (f64_value y).1 h1, fun z hz => ?_,
    fun z hz he hne => ?_⟩, fun ⟨h0, h1, h2, h3⟩ => ⟨hlim.2 h0, (f64_value y).2 h1, fun z hz => ?_,
    fun z hz he hne => ?_⟩⟩⟩
  · obtain ⟨q, rfl⟩ := binary64_rational hz
    rw [habs, habs]
    exact_mod_cast h2 q ((f64_value q).2 hz)
  · obtain ⟨q, rfl⟩ := binary64_rational hz
    rw [habs, habs] at he
    exact (f64_even y).1 (h3 q ((f64_value q).2 hz) (by exact_mod_cast he) (by exact_mod_cast hne))
  · have := h2 z ((f64_value z).1 hz)
    rw [habs, habs] at this
    exact_mod_cast this
  · refine (f64_even y).2 (h3 z ((f64_value z).1 hz) ?_ (by exact_mod_cast hne))
    rw [habs, habs, he]

/-! ## Scalars that follow the standard -/

/-- A scalar of format `f`: a finite value, an infinity or NaN (one zero, one NaN). -/
inductive Num (f : Format) where
  | fin (x : ℚ) (h : f.Value x)
  | inf (negative : Bool)
  | nan

namespace Num

/-- Rounding, with overflow. -/
def round (f : Format) (x : ℚ) : Num f :=
  if h : |x| < f.limit then fin (f.nearest x) (f.nearest_value h) else inf (decide (x < 0))

/-- The number a scalar stands for. -/
def val : Num f → Option ℚ
  | fin x _ => some x
  | _ => none

/-- The sign of an infinity. -/
def isInf : Num f → Option Bool
  | inf s => some s
  | _ => none

/-- NaN. -/
def isNan : Num f → Bool
  | nan => true
  | _ => false

/-- Sum (IEEE-754 §6.1, §7.2: the sum of opposite infinities is NaN). -/
def plus : Num f → Num f → Num f
  | fin x _, fin y _ => round f (x + y)
  | fin _ _, inf s => inf s
  | inf s, fin _ _ => inf s
  | inf s, inf t => if s = t then inf s else nan
  | _, _ => nan

/-- The opposite. -/
def opposite : Num f → Num f
  | fin x h => fin (-x) (f.value_neg h)
  | inf s => inf (!s)
  | nan => nan

/-- The product of an infinity and a finite number: NaN for zero. -/
def infTimes (s : Bool) (x : ℚ) : Num f :=
  if x = 0 then nan else inf (s != decide (x < 0))

/-- Product. -/
def times : Num f → Num f → Num f
  | fin x _, fin y _ => round f (x * y)
  | fin x _, inf s => infTimes s x
  | inf s, fin x _ => infTimes s x
  | inf s, inf t => inf (s != t)
  | _, _ => nan

/-- Fused multiply-add. -/
def fused : Num f → Num f → Num f → Num f
  | fin x _, fin y _, fin z _ => round f (x * y + z)
  | fin _ _, fin _ _, c => c
  | a, b, c => plus (times a b) c

instance : Add (Num f) := ⟨plus⟩
instance : Sub (Num f) := ⟨fun a b => plus a (opposite b)⟩
instance : Mul (Num f) := ⟨times⟩
instance : Zero (Num f) := ⟨fin 0 f.value_zero⟩
instance : One (Num f) := ⟨fin 1 (by
  have := f.value_int (n := 1) (by simpa using one_le_pow₀ (by norm_num : (1 : ℤ) ≤ 2)); simpa using this)⟩

theorem result_round (x : ℚ) : f.Result (val (round f x)) (some x) := by
  unfold round
  split_ifs with h
  · simp only [Format.Result, if_pos h]
    exact ⟨_, rfl, f.nearest_roundsTo h⟩
  · simp only [Format.Result, if_neg h]
    rfl

theorem result_minus (x y : ℚ) (hx : f.Value x) (hy : f.Value y) :
    f.Result (val (fin x hx - fin y hy : Num f)) (some (x - y)) := by
  rw [sub_eq_add_neg]
  exact result_round _

theorem val_plus_none (a b : Num f) (h : val a = none ∨ val b = none) : val (plus a b) = none := by
  cases a <;> cases b <;> simp [val, plus] at h ⊢
  split_ifs <;> rfl

theorem val_infTimes (s : Bool) (x : ℚ) : val (infTimes s x : Num f) = none := by
  unfold infTimes; split_ifs <;> rfl

theorem val_times_none (a b : Num f) (h : val a = none ∨ val b = none) : val (times a b) = none := by
  cases a <;> cases b <;> first
    | simp [val] at h; done
    | rfl
    | exact val_infTimes _ _

theorem val_fused_none (a b c : Num f) (h : val a = none ∨ val b = none) : val (fused a b c) = none := by
  have : fused a b c = plus (times a b) c := by
    cases a <;> cases b <;> first
      | simp [val] at h; done
      | rfl
  rw [this]
  exact val_plus_none _ _ (.inl (val_times_none _ _ h))

/-- These scalars follow the standard. -/
def ieee (f : Format) : Ieee f (Num f) where
  val := val
  fma := fused
  format a x h := by cases a <;> simp [val] at h; subst h; assumption
  add_result a b := by
    cases a <;> cases b <;> first
      | exact result_round _
      | exact val_plus_none _ _ (by simp [val])
  sub_result a b := by
    cases a <;> cases b <;> first
      | exact result_minus _ _ _ _
      | exact val_plus_none _ _ (by simp [val, opposite])
  mul_result a b := by
    cases a <;> cases b <;> first
      | exact result_round _
      | exact val_times_none _ _ (by simp [val])
  fma_result a b c := by
    cases a <;> cases b <;> cases c <;> first
      | exact result_round _
      | rfl
      | exact val_fused_none _ _ _ (.inl rfl)
      | exact val_fused_none _ _ _ (.inr rfl)

end Num

/-! ## Kernels -/

/-- The loop of the reference product is one of the orders. -/
theorem loopKern_order (R : Ieee f F) : AnyOrder R loopKern := by
  intro site alpha ps beta c
  suffices h : ∃ t, ProductOf R alpha beta c ps t ∧ t.run R = loopKern site alpha ps beta c by
    obtain ⟨t, h1, h2⟩ := h
    exact ⟨t, h1, by rw [h2]⟩
  induction ps using List.reverseRecOn with
  | nil => exact ⟨_, .scaled', rfl⟩
  | append_singleton ps p ih =>
    obtain ⟨t, h1, h2⟩ := ih
    exact ⟨_, h1.term (a := p.1) (b := p.2), by
      simp only [loopKern, List.foldl_append, List.foldl_cons, List.foldl_nil] at h2 ⊢
      rw [← h2]; rfl⟩

/-- A kernel with fused multiply-adds that starts from the last term. -/
def fusedKern (R : Ieee f F) (zero : F) : Kern F := fun _ alpha ps beta c =>
  if ps = [] then beta * c
  else R.fma alpha (ps.foldr (fun p s => R.fma p.1 p.2 s) zero) (beta * c)

theorem fusedKern_order (R : Ieee f F) (zero : F) (hz : R.val zero = some 0) :
    AnyOrder R (fusedKern R zero) := by
  intro site alpha ps beta c
  have hs : ∃ t, SumOf R ps t ∧ t.run R = ps.foldr (fun p s => R.fma p.1 p.2 s) zero := by
    induction ps with
    | nil => exact ⟨_, .empty hz, rfl⟩
    | cons p ps ih =>
      obtain ⟨t, h1, h2⟩ := ih
      exact ⟨_, h1.fused (a := p.1) (b := p.2), by simp [Fp.run, h2]⟩
  obtain ⟨t, h1, h2⟩ := hs
  unfold fusedKern
  by_cases h : ps = []
  · subst h
    exact ⟨_, .scaled, by simp [Fp.run]⟩
  · rw [if_neg h]
    exact ⟨_, by simpa using ProductOf.blockFused h .scaled h1, by simp [Fp.run, h2]⟩

/-! ## Examples -/

/-- `f64` scalars from whole numbers and powers of two. -/
def exNum (x : ℚ) : Num .f64 := .round .f64 x

/-- Rounding: `1 + 2^-53 = 1`, to even; `1 + (2^-53 + 2^-53)` is the next number. -/
example : (exNum 1 + exNum (2 ^ (-53 : ℤ)) + exNum (2 ^ (-53 : ℤ))).val = some 1 ∧
    (exNum 1 + (exNum (2 ^ (-53 : ℤ)) + exNum (2 ^ (-53 : ℤ)))).val = some (1 + 2 ^ (-52 : ℤ)) := by
  decide +kernel

/-- Overflow, underflow and NaN: `2^1023 * 2` is infinite, the smallest number times a half is 0, and
infinities cancel to NaN. -/
example : (exNum (2 ^ 1023) * exNum 2).isInf = some false ∧
    (exNum (2 ^ (-1074 : ℤ)) * exNum (1 / 2)).val = some 0 ∧
    (exNum (2 ^ 1023) * exNum 2 + exNum (-2 ^ 1023) * exNum 2).isNan = true := by
  decide +kernel

/-- A row `[2^1023, 2^1023, -2^1023]`, a column of ones and a result. -/
def exMemNum : Mem (Num .f64) :=
  ⟨[[exNum (2 ^ 1023), exNum (2 ^ 1023), exNum (-2 ^ 1023)], [1, 1, 1], [0]]⟩

/-- A 1x3 matrix, a 3x1 matrix and a 1x1 matrix. -/
def exRowNum : BaseMatrix := ⟨⟨0, 0, 3⟩, .rowMajor ⟨(1, 3)⟩, .dynamic, .dynamic⟩
@[inherit_doc exRowNum]
def exColNum : BaseMatrix := ⟨⟨1, 0, 3⟩, .rowMajor ⟨(3, 1)⟩, .dynamic, .dynamic⟩
@[inherit_doc exRowNum]
def exOneNum : BaseMatrix := ⟨⟨2, 0, 1⟩, .rowMajor ⟨(1, 1)⟩, .dynamic, .dynamic⟩

/-- The number in a 1x1 product. -/
def exProduct (kern : Kern (Num .f64)) (mem : Mem (Num .f64)) : Out (Option ℚ) := do
  let mem' ← matmul kern 1 exRowNum exColNum 0 exOneNum mem
  let v ← exOneNum.get dbg mem' 0 0
  return v.val

/-- A product may be infinite in one order and exact in another, which is why `Accurate.error` is about
finite results. -/
example : exProduct loopKern exMemNum = .ok none ∧
    exProduct (fusedKern (Num.ieee .f64) 0) exMemNum = .ok (some (2 ^ 1023)) := by
  decide +kernel

/-- A row `[1, 2, 3]`, a column `[4, 5, 6]` and a result. -/
def exMemWhole : Mem (Num .f64) :=
  ⟨[[exNum 1, exNum 2, exNum 3], [exNum 4, exNum 5, exNum 6], [0]]⟩

/-- By `C80_matmul` the product of small whole numbers is exact in every order. -/
example (kern : Kern (Num .f64)) (hk : AnyOrder (Num.ieee .f64) kern) :
    ∃ mem' v, matmul kern 1 exRowNum exColNum 0 exOneNum exMemWhole = .ok mem' ∧
      exOneNum.get dbg mem' 0 0 = .ok v ∧ v.val = some 32 := by
  have hsep : ∀ m : BaseMatrix, m.data.buf ≠ 2 → Separate exOneNum m := by
    intro m hm r c r' c' _ _ h
    exact hm (congrArg Loc.buf h).symm
  have hA : Represents exRowNum exMemWhole (fun _ l => exNum (l + 1)) := by
    rintro i j ⟨hi, hj, -⟩
    obtain rfl : i = 0 := Nat.lt_one_iff.1 hi
    match j, hj with
    | 0, _ => show some (exNum 1) = some (exNum _); norm_num
    | 1, _ => show some (exNum 2) = some (exNum _); norm_num
    | 2, _ => show some (exNum 3) = some (exNum _); norm_num
  have hB : Represents exColNum exMemWhole (fun l _ => exNum (l + 4)) := by
    rintro i j ⟨hi, hj, -⟩
    obtain rfl : j = 0 := Nat.lt_one_iff.1 hj
    match i, hi with
    | 0, _ => show some (exNum 4) = some (exNum _); norm_num
    | 1, _ => show some (exNum 5) = some (exNum _); norm_num
    | 2, _ => show some (exNum 6) = some (exNum _); norm_num
  have hC : Represents exOneNum exMemWhole (fun _ _ => 0) := by
    rintro i j ⟨hi, hj, -⟩
    obtain rfl : i = 0 := Nat.lt_one_iff.1 hi
    obtain rfl : j = 0 := Nat.lt_one_iff.1 hj
    rfl
  have hX : ∀ i l, i < exRowNum.layout.dim.1 → l < exRowNum.layout.dim.2 →
      (Num.ieee .f64).val (exNum (l + 1)) = some ((l : ℚ) + 1) := by
    intro _ l _ hl
    match l, hl with
    | 0, _ | 1, _ | 2, _ => decide +kernel
  have hY : ∀ l j, l < exColNum.layout.dim.1 → j < exColNum.layout.dim.2 →
      (Num.ieee .f64).val (exNum (l + 4)) = some ((l : ℚ) + 4) := by
    intro l _ hl _
    match l, hl with
    | 0, _ | 1, _ | 2, _ => decide +kernel
  obtain ⟨mem1, mem2, e1, -, h⟩ := C80_matmul (Num.ieee .f64) kern hk dbg 1 0 exRowNum exColNum exOneNum
    exMemWhole (sound_of_contiguous trivial ⟨by decide, by decide⟩ (by decide))
    (sound_of_contiguous trivial ⟨by decide, by decide⟩ (by decide))
    (sound_of_contiguous trivial ⟨by decide, by decide⟩ (by decide)) trivial trivial trivial trivial
    ⟨rfl, rfl, rfl⟩ (hsep _ (by decide)) (hsep _ (by decide))
    (fun _ l => exNum (l + 1)) (fun l _ => exNum (l + 4)) (fun _ _ => 0) 1 0
    (fun _ l => l + 1) (fun l _ => l + 4) (fun _ _ => 0)
    hA hB hC rfl rfl hX hY (fun _ _ _ _ => rfl)
  · obtain ⟨v, w, g1, -, g2, -⟩ := h 0 0 (by decide) (by decide)
    refine ⟨mem1, v, e1, g1, ?_⟩
    rw [show v.val = (Num.ieee .f64).val v from rfl, g2.whole ?_]
    · decide +kernel
    · refine ⟨⟨1, rfl⟩, ⟨0, rfl⟩, ⟨0, rfl⟩, fun l hl => ⟨⟨l + 1, by push_cast; rfl⟩, ⟨l + 4, by push_cast; rfl⟩, ?_⟩,
        by decide +kernel, by decide +kernel⟩
      have : l = 0 ∨ l = 1 ∨ l = 2 := by simp [exRowNum, Layout.dim] at hl; omega
      rcases this with rfl | rfl | rfl <;> decide +kernel

/-- The dot product of the same, and of numbers whose product overflows. -/
example : (do
      let (M, mem') ← dot dbg loopKern .matMat exRowNum exColNum exMemWhole
      let v ← M.get dbg mem' 0 0
      return v.val) = Out.ok (some 32) ∧
    (do
      let (M, mem') ← dot dbg loopKern .matMat exRowNum exColNum exMemNum
      let v ← M.get dbg mem' 0 0
      return v.val) = Out.ok none ∧
    VectorShape .matMat exRowNum exColNum ∧ AnyOrder (Num.ieee .f64) loopKern :=
  ⟨by decide +kernel, by decide +kernel, trivial, loopKern_order _⟩

/-- `&a + 3 * a`. -/
def exExpr : Ex (Num .f64) := .add true false (.leaf exRowNum) (.scale true false (exNum 3) (.leaf exRowNum))

/-- The hypotheses of `C80_expressions` for the second element: four times 2. -/
example : exExpr.Typed ∧ (∀ b ∈ exExpr.leaves, Sound b exMemWhole) ∧
    (0, 1) ∈ orderOf exExpr.kind exExpr.dim ∧
    (do
      let m ← exExpr.build
      let v ← m.get dbg exMemWhole 0 1
      return v.val) = Out.ok (some 8) ∧
    (exExpr.operations fun _ => exNum 2).Whole (Num.ieee .f64) ∧
    (exExpr.operations fun _ => exNum 2).Every (fun s => s.magnitude (Num.ieee .f64) ≤ 2 ^ Format.f64.p) ∧
    (exExpr.operations fun _ => exNum 2).exact (Num.ieee .f64) = 8 := by
  have h2 : (Num.ieee .f64).val (exNum 2) = some ((2 : ℤ) : ℚ) := by decide +kernel
  have h3 : (Num.ieee .f64).val (exNum 3) = some ((3 : ℤ) : ℚ) := by decide +kernel
  refine ⟨by simp [exExpr, Ex.Typed, Ex.kind, Ex.sizes], fun b hb => ?_, by decide, by decide +kernel,
    ⟨⟨2, h2⟩, ⟨3, h3⟩, ⟨2, h2⟩⟩, ⟨?_, trivial, ?_, trivial, trivial⟩, by decide +kernel⟩
  · obtain rfl : b = exRowNum := by simpa [exExpr, Ex.leaves] using hb
    exact sound_of_contiguous trivial ⟨by decide, by decide⟩ (by decide)
  · decide +kernel
  · decide +kernel

end Householder.Props
