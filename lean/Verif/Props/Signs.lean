import Verif.Lemmas.Signs
import Verif.Props.Laws

/-!
# C100: signs of floating-point results
-/

namespace Householder.Props

open Spec Datum

variable {F : Type} [Add F] [Sub F] [Mul F] {f : Format}

/-! ## Products -/

theorem productOf_signs {S : Ieee754 f F} {R : Ieee f F} (hR : S.Refines R) {alpha beta c : F} {k : ℕ}
    {a b : ℕ → F} {t : Fp F}
    (h : ProductOf R alpha beta c ((List.range k).map fun l => (a l, b l)) t) :
    Datum.Signs (S.datum alpha) k (fun l => S.datum (a l)) (fun l => S.datum (b l)) (S.datum beta) (S.datum c)
      (S.datum (t.run R)) where
  leans s hs hb := h.leans hR s (fun p hp => by
    obtain ⟨l, hl, rfl⟩ := List.mem_map.1 hp
    exact hs l (List.mem_range.1 hl)) hb
  bears hk ha hs hb := h.bears hR (by simp; omega) ha (fun p hp => by
    obtain ⟨l, hl, rfl⟩ := List.mem_map.1 hp
    exact hs l (List.mem_range.1 hl)) hb

/-- **C100, matmul.** With scalars that follow IEEE-754 and a kernel that sums in any order, with or
without fused multiply-adds, signs come out of `matmul` as the rule of signs says, in spite of underflow and
overflow: if all terms `alpha * a * b` of an element, and `beta * c` unless `beta` is 0, have the same sign,
then the element has that sign, is a zero, or is NaN; if `alpha` and these are positive and there is at
least one term, it is not even a negative zero. The same holds of the reference product of the unit
tests. -/
theorem C100_matmul [Target] (S : Ieee754 f F) (R : Ieee f F) (hR : S.Refines R) (kern : Kern F)
    (hk : Exactly S R kern) (cfg : Cfg) (alpha beta : F) (a b c : BaseMatrix) (mem : Mem F)
    (ha : Sound a mem) (hb : Sound b mem) (hc : Sound c mem) (hoa : Honest a.layout)
    (hob : Honest b.layout) (hoc : Honest c.layout) (hn : NonOverlapping c.layout)
    (hd : Compatible a.layout b.layout c.layout) (hca : Separate c a) (hcb : Separate c b)
    (A B C : Arr F) (hA : Represents a mem A) (hB : Represents b mem B) (hC : Represents c mem C) :
    ∃ mem1 mem2, matmul kern alpha a b beta c mem = .ok mem1 ∧
      matmul_expect cfg alpha a b beta c mem = .ok mem2 ∧
      ∀ i j, i < c.layout.dim.1 → j < c.layout.dim.2 →
        ∃ v w, c.get cfg mem1 i j = .ok v ∧ c.get cfg mem2 i j = .ok w ∧
          Datum.Signs (S.datum alpha) a.layout.dim.2 (fun l => S.datum (A i l)) (fun l => S.datum (B l j))
            (S.datum beta) (S.datum (C i j)) (S.datum v) ∧
          Datum.Signs (S.datum alpha) a.layout.dim.2 (fun l => S.datum (A i l)) (fun l => S.datum (B l j))
            (S.datum beta) (S.datum (C i j)) (S.datum w) := by
  obtain ⟨mem1, e1, hf1, hr1⟩ := matmul_honest (kern := kern) (alpha := alpha) (beta := beta)
    ha hb hc hoa hob hoc hn hd hca hcb hA hB hC
  obtain ⟨mem2, e2, hf2, hr2⟩ := matmul_expect_any cfg alpha beta ha hb hc hoa.notTri hob.notTri
    hoc.notTri hn hd hca hcb hA hB hC
  refine ⟨mem1, mem2, e1, e2, fun i j hi hj => ?_⟩
  have hs : Stored c.layout i j := (stored_of_notTri hoc.notTri).2 ⟨hi, hj⟩
  obtain ⟨t, ht, et⟩ := hk ⟨c.layout.dim.1, c.layout.dim.2, i, j⟩ alpha
    ((List.range a.layout.dim.2).map fun l => (A i l, B l j)) beta (C i j)
  obtain ⟨s, hs', es⟩ := accumulate_order R alpha A B beta C i j a.layout.dim.2
  have h1 := productOf_signs hR ht
  have h2 := productOf_signs hR hs'
  rw [← et] at h1
  rw [es] at h2
  exact ⟨_, _, (hc.mono (by rw [hf1.size])).get cfg hs (hr1 i j hs),
    (hc.mono (by rw [hf2.size])).get cfg hs (hr2 i j hs), h1, h2⟩

/-- **C100, dot.** An element of `a.dot(&b)` whose products all have the same sign has that sign, is a zero,
or is NaN; if they are all positive, and there is at least one, it is not a negative zero. In particular
products of non-negative matrices are non-negative. -/
theorem C100_dot [Target] [Zero F] [One F] (S : Ieee754 f F) (R : Ieee f F) (hR : S.Refines R)
    (h0 : S.datum 0 = .fin false 0) (h1 : S.datum 1 = .fin false 1) (kern : Kern F)
    (hk : Exactly S R kern) (cfg : Cfg) (i : DotImpl) (a b : BaseMatrix) (mem : Mem F)
    (ha : Sound a mem) (hb : Sound b mem) (hoa : Honest a.layout) (hob : Honest b.layout)
    (hd : a.layout.dim.2 = b.layout.dim.1) (hv : VectorShape i a b)
    (hsz : a.layout.dim.1 * b.layout.dim.2 * cfg.item.size ≤ isizeMax) (A B : Arr F)
    (hA : Represents a mem A) (hB : Represents b mem B) :
    ∃ M mem', dot cfg kern i a b mem = .ok (M, mem') ∧
      M.layout.dim = (a.layout.dim.1, b.layout.dim.2) ∧
      ∀ r c, r < a.layout.dim.1 → c < b.layout.dim.2 → ∃ v, M.get cfg mem' r c = .ok v ∧
        (∀ s, (∀ l < a.layout.dim.2, ((S.datum (A r l)).negative != (S.datum (B l c)).negative) = s) →
          (S.datum v).Leans s) ∧
        (0 < a.layout.dim.2 →
          (∀ l < a.layout.dim.2, (S.datum (A r l)).negative = (S.datum (B l c)).negative) →
          (S.datum v).Bears false) := by
  obtain ⟨M, mem', e, hl, hnew, hrep⟩ := dot_kern kern ha hb hoa hob hd hv hsz hA hB
  have hdim := productLayout_dim hv
  rw [← hl] at hdim
  have hnt : NotTriangular M.layout := by
    have := (productLayout_props i a.layout.dim.1 b.layout.dim.2).2.2
    rw [← hl] at this
    exact this.notTri
  refine ⟨M, mem', e, hdim, fun r c hr hc => ?_⟩
  have hs : Stored M.layout r c := (stored_of_notTri hnt).2 (by rw [hdim]; exact ⟨hr, hc⟩)
  refine ⟨_, hnew.sound.get cfg hs (hrep r c hs), ?_⟩
  obtain ⟨t, ht, et⟩ := hk ⟨a.layout.dim.1, b.layout.dim.2, r, c⟩ 1
    ((List.range a.layout.dim.2).map fun l => (A r l, B l c)) 0 0
  rw [et]
  have := productOf_signs hR ht
  rw [h0, h1] at this
  refine ⟨fun s hs => this.leans s (fun l hl => ?_) (.inl ⟨_, rfl⟩),
    fun hk hs => this.bears hk rfl hs (.inl ⟨_, rfl⟩)⟩
  rw [show (Datum.fin false 1).negative = false from rfl, Bool.false_bne]
  exact hs l hl

/-! ## Expressions -/

theorem signIs_run (S : Ieee754 f F) (X : BaseMatrix → F) (e : Ex F) (s : Bool) (h : e.SignIs S X s) :
    (S.datum ((e.operations X).run S.toIeee)).Bears s := by
  induction e generalizing s with
  | leaf b => exact h
  | ref a ih => exact ih s h
  | add _ _ a b iha ihb =>
    exact sum_bears (S.proper _) (S.proper _) (S.add_datum _ _) (iha s h.1) (ihb s h.2)
  | scale _ _ k a ih =>
    have h2 := S.mul_datum k ((a.operations X).run S.toIeee)
    have h3 := product_bears (S.proper _) (S.proper _) h2
    rcases ih _ h with h1 | h1
    · rw [h1] at h2
      exact .inl (by cases hk : S.datum k <;> rw [hk] at h2 <;> exact h2)
    · rw [h1] at h3
      have : ∀ u v : Bool, (u != (v != u)) = v := by decide
      rwa [this] at h3

/-- **C100, expressions.** If the elements and factors of an expression have signs such that, by the rule of
signs, both sides of every sum have the same sign, then the element of the built expression, and that of
the matrix that `eval` returns, has the sign that the rule says, or is NaN, even where it underflows or
overflows. -/
theorem C100_expressions [Target] [Zero F] (S : Ieee754 f F) (cfg : Cfg) (e : Ex F) (mem : Mem F) (m : Mat F)
    (ht : e.Typed) (hl : ∀ b ∈ e.leaves, Sound b mem) (hb : e.build = .ok m) (r c : Nat)
    (hrc : (r, c) ∈ orderOf e.kind e.dim) (X : BaseMatrix → F)
    (hX : ∀ b ∈ e.leaves, b.get cfg mem r c = .ok (X b)) (s : Bool) (hs : e.SignIs S X s) :
    ∃ v, m.get cfg mem r c = .ok v ∧
      ((e.kind = .columnVector → e.dim.1 = 1) →
        (orderOf e.kind e.dim).length * cfg.item.size ≤ isizeMax →
        ∃ N mem', m.eval cfg mem = .ok (N, mem') ∧ N.get cfg mem' r c = .ok v) ∧
      (S.datum v).Bears s := by
  obtain ⟨v, h1, h2, -⟩ := C80_expressions S.toIeee cfg e mem m ht hl hb r c hrc X hX
  refine ⟨v, h1, h2, ?_⟩
  have hc := conform_of_build ht hb
  have hX' : ∀ b ∈ e.leaves, elem b mem r c = some (X b) := by
    intro b hb
    obtain ⟨hd, hki⟩ := leaf_shape e ht hc b hb
    have hs : Stored b.layout r c := by rw [← mem_order, order_eq_orderOf, hd, hki]; exact hrc
    obtain ⟨w, hw⟩ := (hl b hb).elem_some hs
    have := hX b hb
    rw [(hl b hb).get cfg hs hw] at this
    rw [hw]
    simpa using this
  obtain ⟨k, hk⟩ := List.mem_iff_getElem?.1 hrc
  obtain ⟨w, g1, g2, -⟩ := (C35_get1d_get cfg e mem m ht hl hb k).1 r c hk
  obtain rfl : v = w := by rw [h1] at g2; simpa using g2
  rw [← operations_run S.toIeee X e mem r c v hX' g1]
  exact signIs_run S X e s hs

/-! ## What is left open -/

/-- A 1x1 matrix in the `n`-th allocation. -/
def exSign (n : Nat) : BaseMatrix := ⟨⟨n, 0, 1⟩, .rowMajor ⟨(1, 1)⟩, .dynamic, .dynamic⟩

/-- The element of the product `alpha * [x] * [y] + beta * [z]`. -/
def exSignProduct (kern : Kern (Num754 .f64)) (alpha x y beta z : Num754 .f64) : Out Datum := do
  let mem' ← matmul kern alpha (exSign 0) (exSign 1) beta (exSign 2) ⟨[[x], [y], [z]]⟩
  let v ← (exSign 2).get dbg mem' 0 0
  return v.1

/-- **C100, zeros.** The sign of a zero that the theorems leave open does depend on the kernel: with one
negative term that is a zero, and with a positive term times a negative `alpha` that is a zero, kernels
that compute in the allowed orders return zeros of either sign. -/
theorem C100_open [Target] : ∃ kern kern' : Kern (Num754 .f64),
    Exactly (Num754.ieee754 .f64) (Num754.ieee754 .f64).toIeee kern ∧
    Exactly (Num754.ieee754 .f64) (Num754.ieee754 .f64).toIeee kern' ∧
    exSignProduct kern 1 .negZero 1 0 1 = .ok (.fin false 0) ∧
    exSignProduct kern' 1 .negZero 1 0 1 = .ok (.fin true 0) ∧
    exSignProduct kern (.ofRat (-1)) 0 1 0 1 = .ok (.fin false 0) ∧
    exSignProduct kern' (.ofRat (-1)) 0 1 0 1 = .ok (.fin true 0) :=
  ⟨loopKern, clearingKern (Num754.ieee754 .f64) .negZero, loopKern_exactly _ _,
    clearingKern_exactly _ _ (Num754.ieee754 .f64).toIeee_refines _ rfl, by decide_width_kernel,
    by decide_width_kernel, by decide_width_kernel, by decide_width_kernel⟩

/-! ## Examples -/

/-- A product of two tiny negative numbers underflows to a positive zero, with either kernel, also on top of
a negative zero. -/
example : exSignProduct loopKern 1 (.ofRat (-1 / 2 ^ 600)) (.ofRat (-1 / 2 ^ 600)) 0 .negZero =
      .ok (.fin false 0) ∧
    exSignProduct (clearingKern (Num754.ieee754 .f64) .negZero) 1 (.ofRat (-1 / 2 ^ 600))
      (.ofRat (-1 / 2 ^ 600)) 0 1 = .ok (.fin false 0) := by
  decide +kernel

/-- With signs that differ a rounded sum can have any sign: `2 * 3 + 1 * (-7) < 0`. -/
example : exSignProduct loopKern 1 (.ofRat 2) (.ofRat 3) 1 (.ofRat (-7)) = .ok (.fin true (-1)) := by
  decide +kernel

/-- By `C100_dot` the product of a row `[-inf, 2, 3]` and a column `[-1, 5, 6]` is not negative, whatever the
kernel does. -/
example (kern : Kern (Num754 .f64))
    (hk : Exactly (Num754.ieee754 .f64) (Num754.ieee754 .f64).toIeee kern) :
    ∃ M mem' v, dot dbg kern .matMat exRowNum exColNum (exMem754 (.infinity true) (.ofRat (-1)) 0) =
        .ok (M, mem') ∧ M.get dbg mem' 0 0 = .ok v ∧ v.1.Bears false := by
  have hA : Represents exRowNum (exMem754 (.infinity true) (.ofRat (-1)) 0)
      (fun _ l => if l = 0 then .infinity true else if l = 1 then .ofRat 2 else .ofRat 3) := by
    rintro i j ⟨hi, hj, -⟩
    obtain rfl : i = 0 := Nat.lt_one_iff.1 hi
    match j, hj with
    | 0, _ => rfl
    | 1, _ => rfl
    | 2, _ => rfl
  have hB : Represents exColNum (exMem754 (.infinity true) (.ofRat (-1)) 0)
      (fun l _ => if l = 0 then .ofRat (-1) else if l = 1 then .ofRat 5 else .ofRat 6) := by
    rintro i j ⟨hi, hj, -⟩
    obtain rfl : j = 0 := Nat.lt_one_iff.1 hj
    match i, hi with
    | 0, _ => rfl
    | 1, _ => rfl
    | 2, _ => rfl
  obtain ⟨M, mem', e, -, h⟩ := C100_dot (Num754.ieee754 .f64) _ (Ieee754.toIeee_refines _) rfl rfl kern hk
    dbg .matMat exRowNum exColNum (exMem754 (.infinity true) (.ofRat (-1)) 0)
    (sound_of_contiguous trivial ⟨by decide, by decide⟩ (by decide))
    (sound_of_contiguous trivial ⟨by decide, by decide⟩ (by decide)) trivial trivial rfl trivial
    (by decide) _ _ hA hB
  obtain ⟨v, g1, -, g2⟩ := h 0 0 (by decide) (by decide)
  refine ⟨M, mem', v, e, g1, g2 (by decide) fun l hl => ?_⟩
  have hl' : l < 3 := hl
  match l, hl' with
  | 0, _ => decide +kernel
  | 1, _ => decide +kernel
  | 2, _ => decide +kernel

/-- By `C100_matmul` the product `-1 * [2] * [3] - 1 * [1]` is negative or a zero, whatever the kernel
does. -/
example (kern : Kern (Num754 .f64))
    (hk : Exactly (Num754.ieee754 .f64) (Num754.ieee754 .f64).toIeee kern) :
    ∃ mem1 v, matmul kern (.ofRat (-1)) (exSign 0) (exSign 1) (.ofRat (-1)) (exSign 2)
        ⟨[[.ofRat 2], [.ofRat 3], [1]]⟩ = .ok mem1 ∧
      (exSign 2).get dbg mem1 0 0 = .ok v ∧ v.1.Leans true := by
  have hz : ∀ {n i j : Nat}, Stored (exSign n).layout i j → i = 0 ∧ j = 0 := fun h =>
    ⟨Nat.lt_one_iff.1 h.1, Nat.lt_one_iff.1 h.2.1⟩
  obtain ⟨mem1, mem2, e1, -, h⟩ := C100_matmul (Num754.ieee754 .f64) _ (Ieee754.toIeee_refines _) kern hk dbg
    (.ofRat (-1)) (.ofRat (-1)) (exSign 0) (exSign 1) (exSign 2) ⟨[[.ofRat 2], [.ofRat 3], [1]]⟩
    (sound_of_contiguous trivial ⟨by decide, by decide⟩ (by decide))
    (sound_of_contiguous trivial ⟨by decide, by decide⟩ (by decide))
    (sound_of_contiguous trivial ⟨by decide, by decide⟩ (by decide)) trivial trivial trivial
    trivial
    ⟨rfl, rfl, rfl⟩ (fun _ _ _ _ _ _ h => absurd (show 2 = 0 from congrArg Loc.buf h) (by decide))
    (fun _ _ _ _ _ _ h => absurd (show 2 = 1 from congrArg Loc.buf h) (by decide)) (fun _ _ => .ofRat 2) (fun _ _ => .ofRat 3) (fun _ _ => 1)
    (fun i j h => by obtain ⟨rfl, rfl⟩ := hz (n := 0) h; rfl)
    (fun i j h => by obtain ⟨rfl, rfl⟩ := hz (n := 1) h; rfl)
    (fun i j h => by obtain ⟨rfl, rfl⟩ := hz (n := 2) h; rfl)
  obtain ⟨v, w, g1, -, g2, -⟩ := h 0 0 (by decide) (by decide)
  exact ⟨mem1, v, e1, g1, g2.leans true (fun l _ => by decide +kernel) (.inr (by decide +kernel))⟩

/-- By `C100_expressions` the elements of `(-2^-1000) * (a + (-2^-1000) * b)`, with `a = -1` and `b = 2^-100`,
are positive, although the inner scaling underflows. -/
example : ∃ (m : Mat (Num754 .f64)) (v : Num754 .f64), (Ex.scale true true (Num754.ofRat (-1 / 2 ^ 1000)) (.add true true (.leaf (exSign 0))
      (.scale true true (.ofRat (-1 / 2 ^ 1000)) (.leaf (exSign 1))))).build = .ok m ∧
    m.get dbg ⟨[[Num754.ofRat (-1)], [.ofRat (1 / 2 ^ 100)]]⟩ 0 0 = .ok v ∧ v.1.Bears false := by
  set e : Ex (Num754 .f64) := Ex.scale true true (Num754.ofRat (-1 / 2 ^ 1000)) (.add true true
    (.leaf (exSign 0)) (.scale true true (.ofRat (-1 / 2 ^ 1000)) (.leaf (exSign 1)))) with he
  have ht : e.Typed := by simp [he, exSign, Ex.Typed, Ex.kind, Ex.sizes]
  have hc : e.Conform := by simp [he, exSign, Ex.Conform, Ex.dim]
  obtain ⟨m, hm, -⟩ := (e.build_spec ht).1 hc
  have hl : ∀ b ∈ e.leaves, b = exSign 0 ∨ b = exSign 1 := by
    intro b hb
    simpa [he, Ex.leaves] using hb
  obtain ⟨v, h1, -, h2⟩ := C100_expressions (Num754.ieee754 .f64) dbg e
    ⟨[[Num754.ofRat (-1)], [.ofRat (1 / 2 ^ 100)]]⟩ m ht
    (fun b hb => by
      rcases hl b hb with rfl | rfl <;> exact sound_of_contiguous trivial ⟨by decide, by decide⟩ (by decide))
    hm 0 0 (by decide) (fun b => if b = exSign 0 then .ofRat (-1) else .ofRat (1 / 2 ^ 100))
    (fun b hb => by
      rcases hl b hb with rfl | rfl
      · exact Sound.get (m := exSign 0) (r := 0) (c := 0)
          (sound_of_contiguous trivial ⟨by decide, by decide⟩ (by decide)) dbg
          ⟨Nat.zero_lt_one, Nat.zero_lt_one, fun _ h => nomatch h⟩ rfl
      · exact Sound.get (m := exSign 1) (r := 0) (c := 0)
          (sound_of_contiguous trivial ⟨by decide, by decide⟩ (by decide)) dbg
          ⟨Nat.zero_lt_one, Nat.zero_lt_one, fun _ h => nomatch h⟩ rfl)
    false ⟨.inr (by decide +kernel), .inr (by decide +kernel)⟩
  exact ⟨m, v, hm, h1, h2⟩

end Householder.Props
