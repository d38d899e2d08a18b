import Verif.Spec.Rounding
import Verif.Props.RefMut
import Verif.Props.Linear
import Mathlib.Tactic.Linarith
import Mathlib.Tactic.Positivity
import Mathlib.Tactic.GCongr

/-!
# C67: rounding errors
-/

namespace Householder.Props

open Spec

variable {F : Type} [Add F] [Mul F]

/-- Rounding to `p` binary digits is a rounding with unit roundoff `2 ^ (-p)`. -/
theorem fl_error (p : Nat) (x : ℚ) : |fl p x - x| ≤ 2 ^ (-(p : ℤ)) * |x| := by
  by_cases hx : x = 0
  · subst hx; simp [fl]
  have hpos : 0 < |x| := abs_pos.2 hx
  set ulp : ℚ := 2 ^ (Int.log 2 |x| - p + 1) with hu
  have hulp : 0 < ulp := by positivity
  have h1 := abs_sub_round (x / ulp)
  have h2 : fl p x - x = -((x / ulp - round (x / ulp)) * ulp) := by
    rw [sub_mul, div_mul_cancel₀ _ hulp.ne']
    simp only [fl, ← hu]
    ring
  rw [h2, abs_neg, abs_mul, abs_of_pos hulp]
  have h3 : (2 : ℚ) ^ Int.log 2 |x| ≤ |x| := by
    exact_mod_cast Int.zpow_log_le_self (b := 2) (by norm_num) hpos
  have h4 : ulp = 2 * (2 ^ (-(p : ℤ)) * 2 ^ Int.log 2 |x|) := by
    rw [hu, ← zpow_add₀ (by norm_num), ← zpow_one_add₀ (by norm_num)]
    congr 1
    ring
  calc |x / ulp - round (x / ulp)| * ulp ≤ 1 / 2 * ulp := by gcongr
    _ = 2 ^ (-(p : ℤ)) * 2 ^ Int.log 2 |x| := by rw [h4]; ring
    _ ≤ 2 ^ (-(p : ℤ)) * |x| := by gcongr

/-- Binary floating point with `p` digits and unbounded exponents is an instance. -/
def binary (p : Nat) : Rounding (Fl p) where
  val x := x.q
  u := 2 ^ (-(p : ℤ))
  u_nonneg := by positivity
  add_error a b := fl_error p _
  mul_error a b := fl_error p _

/-- One rounded sum: relative errors of the operands grow by a factor `1 + u`. -/
theorem add_step (R : Rounding F) {a b : F} {x y m n G : ℚ} (hx : |x| ≤ m) (hy : |y| ≤ n)
    (ha : |R.val a - x| ≤ (G - 1) * m) (hb : |R.val b - y| ≤ (G - 1) * n) :
    |R.val (a + b) - (x + y)| ≤ (G * (1 + R.u) - 1) * (m + n) := by
  have h := R.add_error a b
  have hu := R.u_nonneg
  have h1 : |R.val a + R.val b - (x + y)| ≤ (G - 1) * (m + n) := by
    have : R.val a + R.val b - (x + y) = (R.val a - x) + (R.val b - y) := by ring
    rw [this]
    calc _ ≤ |R.val a - x| + |R.val b - y| := abs_add_le _ _
      _ ≤ _ := by linarith
  have h2 : |R.val a + R.val b| ≤ G * (m + n) := by
    have : R.val a + R.val b = (R.val a + R.val b - (x + y)) + (x + y) := by ring
    rw [this]
    calc _ ≤ |R.val a + R.val b - (x + y)| + |x + y| := abs_add_le _ _
      _ ≤ (G - 1) * (m + n) + (|x| + |y|) := add_le_add h1 (abs_add_le _ _)
      _ ≤ _ := by linarith
  have h3 : R.val (a + b) - (x + y) =
      (R.val (a + b) - (R.val a + R.val b)) + (R.val a + R.val b - (x + y)) := by ring
  rw [h3]
  calc _ ≤ |R.val (a + b) - (R.val a + R.val b)| + |R.val a + R.val b - (x + y)| := abs_add_le _ _
    _ ≤ R.u * (G * (m + n)) + (G - 1) * (m + n) :=
      add_le_add (h.trans (mul_le_mul_of_nonneg_left h2 hu)) h1
    _ = _ := by ring

/-- One rounded product: the factors of the relative errors are multiplied, times `1 + u`. -/
theorem mul_step (R : Rounding F) {a b : F} {x y m n G H : ℚ} (hG : 1 ≤ G) (hx : |x| ≤ m)
    (hy : |y| ≤ n) (ha : |R.val a - x| ≤ (G - 1) * m) (hb : |R.val b - y| ≤ (H - 1) * n) :
    |R.val (a * b) - x * y| ≤ (G * H * (1 + R.u) - 1) * (m * n) := by
  have h := R.mul_error a b
  have hu := R.u_nonneg
  have hm : 0 ≤ m := (abs_nonneg x).trans hx
  have hn : 0 ≤ n := (abs_nonneg y).trans hy
  have h1 : |R.val a * R.val b - x * y| ≤ (G * H - 1) * (m * n) := by
    have : R.val a * R.val b - x * y = (R.val a - x) * (R.val b - y) + (R.val a - x) * y +
      x * (R.val b - y) := by ring
    rw [this]
    have e1 : |(R.val a - x) * (R.val b - y)| ≤ (G - 1) * m * ((H - 1) * n) := by
      rw [abs_mul]
      exact mul_le_mul ha hb (abs_nonneg _) (by have := sub_nonneg.2 hG; positivity)
    have e2 : |(R.val a - x) * y| ≤ (G - 1) * m * n := by
      rw [abs_mul]
      exact mul_le_mul ha hy (abs_nonneg _) (by have := sub_nonneg.2 hG; positivity)
    have e3 : |x * (R.val b - y)| ≤ m * ((H - 1) * n) := by
      rw [abs_mul]
      exact mul_le_mul hx hb (abs_nonneg _) hm
    calc _ ≤ |(R.val a - x) * (R.val b - y) + (R.val a - x) * y| + |x * (R.val b - y)| := abs_add_le _ _
      _ ≤ |(R.val a - x) * (R.val b - y)| + |(R.val a - x) * y| + |x * (R.val b - y)| :=
        add_le_add (abs_add_le _ _) le_rfl
      _ ≤ _ := by linarith
  have h2 : |R.val a * R.val b| ≤ G * H * (m * n) := by
    have : R.val a * R.val b = (R.val a * R.val b - x * y) + x * y := by ring
    rw [this]
    have e : |x * y| ≤ m * n := by rw [abs_mul]; exact mul_le_mul hx hy (abs_nonneg _) hm
    calc _ ≤ |R.val a * R.val b - x * y| + |x * y| := abs_add_le _ _
      _ ≤ _ := by linarith
  have h3 : R.val (a * b) - x * y =
      (R.val (a * b) - R.val a * R.val b) + (R.val a * R.val b - x * y) := by ring
  rw [h3]
  calc _ ≤ |R.val (a * b) - R.val a * R.val b| + |R.val a * R.val b - x * y| := abs_add_le _ _
    _ ≤ R.u * (G * H * (m * n)) + (G * H - 1) * (m * n) :=
      add_le_add (h.trans (mul_le_mul_of_nonneg_left h2 hu)) h1
    _ = _ := by ring

theorem grow (R : Rounding F) {j k : Nat} (h : j ≤ k) : (1 + R.u) ^ j ≤ (1 + R.u) ^ k :=
  pow_le_pow_right₀ (by have := R.u_nonneg; linarith) h

theorem one_le_grow (R : Rounding F) (k : Nat) : 1 ≤ (1 + R.u) ^ k := by
  simpa using grow R (Nat.zero_le k)

/-! ## Expressions -/

theorem exact_le_magnitude (R : Rounding F) (X : BaseMatrix → F) (e : Ex F) :
    |e.exact R X| ≤ e.magnitude R X := by
  induction e with
  | leaf b => exact le_rfl
  | ref a ih => exact ih
  | add _ _ a b iha ihb => exact (abs_add_le _ _).trans (add_le_add iha ihb)
  | scale _ _ s a ih =>
    simp only [Ex.exact, Ex.magnitude, abs_mul]
    exact mul_le_mul_of_nonneg_left ih (abs_nonneg _)

theorem value_error (R : Rounding F) (X : BaseMatrix → F) (e : Ex F) (mem : Mem F) (r c : Nat) (v : F)
    (hX : ∀ b ∈ e.leaves, elem b mem r c = some (X b)) (hv : e.value mem r c = some v) :
    |R.val v - e.exact R X| ≤ ((1 + R.u) ^ e.depth - 1) * e.magnitude R X := by
  induction e generalizing v with
  | leaf b =>
    have h := hX b (by simp [Ex.leaves])
    simp only [Ex.value] at hv
    obtain rfl : X b = v := by rw [h] at hv; simpa using hv
    simp [Ex.exact, Ex.depth]
  | ref a ih => exact ih v hX hv
  | add f g a b iha ihb =>
    simp only [Ex.value] at hv
    cases h1 : a.value mem r c with
    | none => simp [h1] at hv
    | some x =>
      cases h2 : b.value mem r c with
      | none => simp [h1, h2] at hv
      | some y =>
        obtain rfl : x + y = v := by simpa [h1, h2] using hv
        have ea := iha x (fun b hb => hX b (by simp [Ex.leaves, hb])) h1
        have eb := ihb y (fun b hb => hX b (by simp [Ex.leaves, hb])) h2
        have ma := exact_le_magnitude R X a
        have mb := exact_le_magnitude R X b
        have pa := (abs_nonneg _).trans ma
        have pb := (abs_nonneg _).trans mb
        have ga := grow R (le_max_left a.depth b.depth)
        have gb := grow R (le_max_right a.depth b.depth)
        have := add_step R ma mb (ea.trans (mul_le_mul_of_nonneg_right (sub_le_sub_right ga 1) pa))
          (eb.trans (mul_le_mul_of_nonneg_right (sub_le_sub_right gb 1) pb))
        simpa only [Ex.depth, pow_succ, Ex.exact, Ex.magnitude] using this
  | scale f g s a ih =>
    simp only [Ex.value] at hv
    cases h1 : a.value mem r c with
    | none => simp [h1] at hv
    | some x =>
      obtain rfl : s * x = v := by simpa [h1] using hv
      have ea := ih x hX h1
      have ma := exact_le_magnitude R X a
      have := mul_step R (a := s) (x := R.val s) (m := |R.val s|) (G := 1) le_rfl le_rfl ma (by simp) ea
      simpa only [Ex.depth, pow_succ, Ex.exact, Ex.magnitude, one_mul] using this

/-- **C67, expressions.** In floating point with unit roundoff `u`, every element of a built
expression, and every element of the matrix `eval` returns, differs from the exact value by at most
`(1 + u) ^ depth - 1` times the exact value of the expression with absolute values throughout. -/
theorem C67_expressions [Target] [Zero F] (R : Rounding F) (cfg : Cfg) (e : Ex F) (mem : Mem F) (m : Mat F)
    (ht : e.Typed) (hl : ∀ b ∈ e.leaves, Sound b mem) (hb : e.build = .ok m) (r c : Nat)
    (hrc : (r, c) ∈ orderOf e.kind e.dim) (X : BaseMatrix → F)
    (hX : ∀ b ∈ e.leaves, b.get cfg mem r c = .ok (X b)) :
    (∃ v, m.get cfg mem r c = .ok v ∧
      |R.val v - e.exact R X| ≤ ((1 + R.u) ^ e.depth - 1) * e.magnitude R X) ∧
    ((e.kind = .columnVector → e.dim.1 = 1) →
      (orderOf e.kind e.dim).length * cfg.item.size ≤ isizeMax →
      ∃ N mem' v, m.eval cfg mem = .ok (N, mem') ∧ N.get cfg mem' r c = .ok v ∧
        |R.val v - e.exact R X| ≤ ((1 + R.u) ^ e.depth - 1) * e.magnitude R X) := by
  have hc := conform_of_build ht hb
  have hX' : ∀ b ∈ e.leaves, elem b mem r c = some (X b) := by
    intro b hb
    obtain ⟨hd, hki⟩ := leaf_shape e ht hc b hb
    have hs : Stored b.layout r c := by rw [← mem_order, order_eq_orderOf, hd, hki]; exact hrc
    obtain ⟨w, hw⟩ := (hl b hb).elem_some hs
    have := hX b hb
    rw [(hl b hb).get cfg hs hw] at this
    rw [hw]
    simpa using this
  refine ⟨?_, fun hcv hsz => ?_⟩
  · obtain ⟨k, hk⟩ := List.mem_iff_getElem?.1 hrc
    obtain ⟨v, h1, h2, -⟩ := (C35_get1d_get cfg e mem m ht hl hb k).1 r c hk
    exact ⟨v, h2, value_error R X e mem r c v hX' h1⟩
  · obtain ⟨N, mem', g1, g2, -, -, g4, -, -, -, g5, -⟩ := C37_eval cfg e mem m ht hl hb hcv hsz
    obtain ⟨v, h1, h2, -⟩ := g5 r c (by rw [← mem_order, order_eq_orderOf, g2, g4]; exact hrc)
    exact ⟨N, mem', v, g1, h2, value_error R X e mem r c v hX' h1⟩

/-! ## Products -/

theorem accumulate_error (R : Rounding F) (alpha : F) (A B : Arr F) (beta : F) (C : Arr F)
    (i j k : Nat) :
    |R.val (accumulate alpha A B beta C i j k) - exactProduct R alpha A B beta C k i j| ≤
      ((1 + R.u) ^ (k + 2) - 1) * productMagnitude R alpha A B beta C k i j := by
  have hmag : ∀ k, |exactProduct R alpha A B beta C k i j| ≤
      productMagnitude R alpha A B beta C k i j := by
    intro k
    refine (abs_add_le _ _).trans (add_le_add ?_ (abs_mul _ _).le)
    rw [abs_mul]
    refine mul_le_mul_of_nonneg_left ((Finset.abs_sum_le_sum_abs _ _).trans ?_) (abs_nonneg _)
    simp only [abs_mul, le_refl]
  induction k with
  | zero =>
    have h := R.mul_error (C i j) beta
    have g := grow R (show 1 ≤ 2 by norm_num)
    simp only [accumulate, exactProduct, productMagnitude, Finset.range_zero, Finset.sum_empty,
      mul_zero, zero_add]
    rw [mul_comm (R.val beta), mul_comm |R.val beta|, ← abs_mul]
    refine h.trans (mul_le_mul_of_nonneg_right ?_ (abs_nonneg _))
    rw [pow_one] at g
    linarith
  | succ k ih =>
    have e1 : |R.val (alpha * A i k) - R.val alpha * R.val (A i k)| ≤
        ((1 + R.u) - 1) * (|R.val alpha| * |R.val (A i k)|) := by
      have := R.mul_error alpha (A i k)
      rwa [abs_mul, ← add_sub_cancel_left 1 R.u] at this
    have e2 := mul_step R (G := 1 + R.u) (H := 1) (by have := R.u_nonneg; linarith) (abs_mul _ _).le
      le_rfl e1 (show |R.val (B k j) - R.val (B k j)| ≤ (1 - 1) * |R.val (B k j)| by simp)
    have e3 : |R.val (alpha * A i k * B k j) - R.val alpha * R.val (A i k) * R.val (B k j)| ≤
        ((1 + R.u) ^ (k + 2) - 1) * (|R.val alpha| * |R.val (A i k)| * |R.val (B k j)|) := by
      refine e2.trans (mul_le_mul_of_nonneg_right (sub_le_sub_right ?_ 1) (by positivity))
      rw [mul_one, ← pow_two]
      exact grow R (by omega)
    have e4 := add_step R (hmag k) (by rw [abs_mul, abs_mul]) ih e3
    have x1 : exactProduct R alpha A B beta C (k + 1) i j = exactProduct R alpha A B beta C k i j +
        R.val alpha * R.val (A i k) * R.val (B k j) := by
      simp only [exactProduct, Finset.sum_range_succ]; ring
    have x2 : productMagnitude R alpha A B beta C (k + 1) i j = productMagnitude R alpha A B beta C k i j +
        |R.val alpha| * |R.val (A i k)| * |R.val (B k j)| := by
      simp only [productMagnitude, Finset.sum_range_succ]; ring
    rw [x1, x2, show k + 1 + 2 = (k + 2) + 1 by ring, pow_succ]
    exact e4

/-- **C67, the reference product** of the unit tests has, in floating point, componentwise error at
most `(1 + u) ^ (k + 2) - 1` times `|alpha| |A| |B| + |beta| |C|`, with `k` the inner dimension. -/
theorem C67_reference_product [Target] (R : Rounding F) (cfg : Cfg) (alpha beta : F) (a b c : BaseMatrix)
    (mem : Mem F) (ha : Sound a mem) (hb : Sound b mem) (hc : Sound c mem)
    (hta : NotTriangular a.layout) (htb : NotTriangular b.layout) (htc : NotTriangular c.layout)
    (hn : NonOverlapping c.layout) (hd : Compatible a.layout b.layout c.layout)
    (hca : Separate c a) (hcb : Separate c b) (A B C : Arr F)
    (hA : Represents a mem A) (hB : Represents b mem B) (hC : Represents c mem C) :
    ∃ mem', matmul_expect cfg alpha a b beta c mem = .ok mem' ∧
      ∀ i j, i < c.layout.dim.1 → j < c.layout.dim.2 → ∃ v, c.get cfg mem' i j = .ok v ∧
        |R.val v - exactProduct R alpha A B beta C a.layout.dim.2 i j| ≤
          ((1 + R.u) ^ (a.layout.dim.2 + 2) - 1) *
            productMagnitude R alpha A B beta C a.layout.dim.2 i j := by
  obtain ⟨mem', e, hf, hr⟩ := matmul_expect_any cfg alpha beta ha hb hc hta htb htc hn hd hca hcb
    hA hB hC
  refine ⟨mem', e, fun i j hi hj => ?_⟩
  have hs : Stored c.layout i j := (stored_of_notTri htc).2 ⟨hi, hj⟩
  exact ⟨_, (hc.mono (by rw [hf.size])).get cfg hs (hr i j hs), accumulate_error R _ _ _ _ _ _ _ _⟩

/-- **C67, matmul.** If the kernel's elements have relative error `g k`, so has the product in memory,
and it differs from the reference product of the unit tests by at most the sum of the two bounds. -/
theorem C67_matmul [Target] (R : Rounding F) (g : Nat → ℚ) (kern : Kern F) (hg : KernError R g kern) (cfg : Cfg)
    (alpha beta : F) (a b c : BaseMatrix) (mem : Mem F) (ha : Sound a mem) (hb : Sound b mem)
    (hc : Sound c mem) (hoa : Honest a.layout) (hob : Honest b.layout) (hoc : Honest c.layout)
    (hn : NonOverlapping c.layout) (hd : Compatible a.layout b.layout c.layout)
    (hca : Separate c a) (hcb : Separate c b) (A B C : Arr F)
    (hA : Represents a mem A) (hB : Represents b mem B) (hC : Represents c mem C) :
    ∃ mem1 mem2, matmul kern alpha a b beta c mem = .ok mem1 ∧
      matmul_expect cfg alpha a b beta c mem = .ok mem2 ∧
      ∀ i j, i < c.layout.dim.1 → j < c.layout.dim.2 → ∃ v w, c.get cfg mem1 i j = .ok v ∧
        c.get cfg mem2 i j = .ok w ∧
        |R.val v - exactProduct R alpha A B beta C a.layout.dim.2 i j| ≤
          g a.layout.dim.2 * productMagnitude R alpha A B beta C a.layout.dim.2 i j ∧
        |R.val v - R.val w| ≤ (g a.layout.dim.2 + ((1 + R.u) ^ (a.layout.dim.2 + 2) - 1)) *
            productMagnitude R alpha A B beta C a.layout.dim.2 i j := by
  obtain ⟨mem1, e1, hf1, hr1⟩ := matmul_honest (kern := kern) (alpha := alpha) (beta := beta)
    ha hb hc hoa hob hoc hn hd hca hcb hA hB hC
  obtain ⟨mem2, e2, h2⟩ := C67_reference_product R cfg alpha beta a b c mem ha hb hc hoa.notTri
    hob.notTri hoc.notTri hn hd hca hcb A B C hA hB hC
  refine ⟨mem1, mem2, e1, e2, fun i j hi hj => ?_⟩
  have hs : Stored c.layout i j := (stored_of_notTri hoc.notTri).2 ⟨hi, hj⟩
  obtain ⟨w, hw, hwe⟩ := h2 i j hi hj
  have hv := hg c.layout.dim.1 c.layout.dim.2 alpha A B beta C a.layout.dim.2 i j
  refine ⟨_, w, (hc.mono (by rw [hf1.size])).get cfg hs (hr1 i j hs), hw, hv, ?_⟩
  generalize R.val (kern _ alpha _ beta (C i j)) = x at hv ⊢
  have : x - R.val w = (x - exactProduct R alpha A B beta C a.layout.dim.2 i j) -
      (R.val w - exactProduct R alpha A B beta C a.layout.dim.2 i j) := by ring
  rw [this]
  refine (abs_sub _ _).trans ?_
  rw [add_mul]
  exact add_le_add hv hwe

/-- The kernel that multiplies and adds in the order of the reference product. -/
def loopKern : Kern F := fun _ alpha ps beta c =>
  ps.foldl (fun s p => s + alpha * p.1 * p.2) (c * beta)

/-- Non-vacuity of `KernError`: a kernel that satisfies it. -/
theorem loopKern_error (R : Rounding F) : KernError R (fun k => (1 + R.u) ^ (k + 2) - 1) loopKern := by
  intro m n alpha A B beta C k i j
  have : loopKern ⟨m, n, i, j⟩ alpha ((List.range k).map fun l => (A i l, B l j)) beta (C i j) =
      accumulate alpha A B beta C i j k := by
    induction k with
    | zero => rfl
    | succ k ih =>
      simp only [loopKern, List.range_succ, List.map_append, List.foldl_append] at ih ⊢
      rw [ih]; rfl
  rw [this]
  exact accumulate_error R _ _ _ _ _ _ _ _

/-! ## Non-trivial cases: three binary digits -/

/-- In three-digit arithmetic rounding is not associative: `(4 + 1/2) + 1/2 = 6` and
`4 + (1/2 + 1/2) = 5`, so the laws of C65 hold only up to the bounds here. -/
example : ((⟨4⟩ : Fl 3) + ⟨1 / 2⟩ + ⟨1 / 2⟩).q = 6 ∧ ((⟨4⟩ : Fl 3) + (⟨1 / 2⟩ + ⟨1 / 2⟩)).q = 5 := by
  decide +kernel

/-- A row `[4, 1/2, 1/2]`, a column of ones and a result. -/
def exMemFl : Mem (Fl 3) :=
  ⟨[[⟨4⟩, ⟨1 / 2⟩, ⟨1 / 2⟩], [⟨1⟩, ⟨1⟩, ⟨1⟩], [⟨0⟩]]⟩

/-- The reference product in three-digit arithmetic gives 6 instead of 5: an error of 1, within the
bound `((9/8)^5 - 1) * 5`, about 4. -/
example : (do
    let mem ← matmul_expect dbg 1 ⟨⟨0, 0, 3⟩, .rowMajor ⟨(1, 3)⟩, .dynamic, .dynamic⟩
      ⟨⟨1, 0, 3⟩, .rowMajor ⟨(3, 1)⟩, .dynamic, .dynamic⟩ 0
      ⟨⟨2, 0, 1⟩, .rowMajor ⟨(1, 1)⟩, .dynamic, .dynamic⟩ exMemFl
    (⟨⟨2, 0, 1⟩, .rowMajor ⟨(1, 1)⟩, .dynamic, .dynamic⟩ : BaseMatrix).get dbg mem 0 0) = .ok ⟨6⟩ ∧
    |(6 : ℚ) - 5| ≤ ((1 + 1 / 8) ^ 5 - 1) * 5 := by
  decide +kernel

/-- `&a + (3/4) * b` at its first element: 5 instead of 4.75. -/
example : (do
    let m ← (Ex.add true false (.leaf ⟨⟨0, 0, 3⟩, .rowMajor ⟨(1, 3)⟩, .dynamic, .dynamic⟩)
      (.scale true false (⟨3 / 4⟩ : Fl 3) (.leaf ⟨⟨1, 0, 3⟩, .rowMajor ⟨(1, 3)⟩, .dynamic, .dynamic⟩))).build
    m.get dbg exMemFl 0 0) = .ok ⟨5⟩ ∧ |(5 : ℚ) - (4 + 3 / 4)| ≤ ((1 + 1 / 8) ^ 2 - 1) * (4 + 3 / 4) := by
  decide +kernel

end Householder.Props
