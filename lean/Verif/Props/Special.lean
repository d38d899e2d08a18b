import Verif.Lemmas.Special
import Verif.Props.Ieee

/-!
# C97: infinities and NaN in sums, scalings and products, in any order
-/

namespace Householder.Props

open Spec

variable {F : Type} [Add F] [Sub F] [Mul F] {f : Format}

/-! ## Products -/

/-- **C97, matmul.** With scalars that follow IEEE-754 and a kernel that sums in any order, with or
without fused multiply-adds, every element of the result of `matmul` carries the infinities and NaN of
the row, the column, `alpha`, and (if `beta` is not 0) `beta` and the old element: NaN stay NaN, an
infinity times a zero and opposite infinities give NaN, an infinite term gives that infinity or NaN, and a
finite element has used finite numbers only. The same holds of the reference product of the unit
tests. -/
theorem C97_matmul [Target] (S : Ieee754 f F) (R : Ieee f F) (hR : S.Refines R) (kern : Kern F)
    (hk : Exactly S R kern) (cfg : Cfg) (alpha beta : F) (a b c : BaseMatrix) (mem : Mem F)
    (ha : Sound a mem) (hb : Sound b mem) (hc : Sound c mem) (hoa : Honest a.layout)
    (hob : Honest b.layout) (hoc : Honest c.layout) (hn : NonOverlapping c.layout)
    (hd : Compatible a.layout b.layout c.layout) (hca : Separate c a) (hcb : Separate c b)
    (A B C : Arr F) (hA : Represents a mem A) (hB : Represents b mem B) (hC : Represents c mem C) :
    ∃ mem1 mem2, matmul kern alpha a b beta c mem = .ok mem1 ∧
      matmul_expect cfg alpha a b beta c mem = .ok mem2 ∧
      ∀ i j, i < c.layout.dim.1 → j < c.layout.dim.2 →
        ∃ v w, c.get cfg mem1 i j = .ok v ∧ c.get cfg mem2 i j = .ok w ∧
          Datum.Carries (S.datum alpha) a.layout.dim.2 (fun l => S.datum (A i l)) (fun l => S.datum (B l j))
            (S.datum beta) (S.datum (C i j)) (S.datum v) ∧
          Datum.Carries (S.datum alpha) a.layout.dim.2 (fun l => S.datum (A i l)) (fun l => S.datum (B l j))
            (S.datum beta) (S.datum (C i j)) (S.datum w) := by
  obtain ⟨mem1, e1, hf1, hr1⟩ := matmul_honest (kern := kern) (alpha := alpha) (beta := beta)
    ha hb hc hoa hob hoc hn hd hca hcb hA hB hC
  obtain ⟨mem2, e2, hf2, hr2⟩ := matmul_expect_any cfg alpha beta ha hb hc hoa.notTri hob.notTri
    hoc.notTri hn hd hca hcb hA hB hC
  refine ⟨mem1, mem2, e1, e2, fun i j hi hj => ?_⟩
  have hs : Stored c.layout i j := (stored_of_notTri hoc.notTri).2 ⟨hi, hj⟩
  obtain ⟨t, ht, et⟩ := hk ⟨c.layout.dim.1, c.layout.dim.2, i, j⟩ alpha
    ((List.range a.layout.dim.2).map fun l => (A i l, B l j)) beta (C i j)
  obtain ⟨s, hs', es⟩ := accumulate_order R alpha A B beta C i j a.layout.dim.2
  have h1 := ht.element hR
  have h2 := hs'.element hR
  rw [← et] at h1
  rw [es] at h2
  exact ⟨_, _, (hc.mono (by rw [hf1.size])).get cfg hs (hr1 i j hs),
    (hc.mono (by rw [hf2.size])).get cfg hs (hr2 i j hs), h1, h2⟩

/-- **C97, dot.** The same for `a.dot(&b)`: an infinity or a NaN in a row of `a` or in a column of `b`
shows in every element of the result that it goes into. -/
theorem C97_dot [Target] [Zero F] [One F] (S : Ieee754 f F) (R : Ieee f F) (hR : S.Refines R)
    (h0 : S.datum 0 = .fin false 0) (h1 : S.datum 1 = .fin false 1) (kern : Kern F)
    (hk : Exactly S R kern) (cfg : Cfg) (i : DotImpl) (a b : BaseMatrix) (mem : Mem F)
    (ha : Sound a mem) (hb : Sound b mem) (hoa : Honest a.layout) (hob : Honest b.layout)
    (hd : a.layout.dim.2 = b.layout.dim.1) (hv : VectorShape i a b)
    (hsz : a.layout.dim.1 * b.layout.dim.2 * cfg.item.size ≤ isizeMax) (A B : Arr F)
    (hA : Represents a mem A) (hB : Represents b mem B) :
    ∃ M mem', dot cfg kern i a b mem = .ok (M, mem') ∧
      M.layout.dim = (a.layout.dim.1, b.layout.dim.2) ∧
      ∀ r c, r < a.layout.dim.1 → c < b.layout.dim.2 → ∃ v, M.get cfg mem' r c = .ok v ∧
        Datum.Carries (.fin false 1) a.layout.dim.2 (fun l => S.datum (A r l)) (fun l => S.datum (B l c))
          (.fin false 0) (.fin false 0) (S.datum v) := by
  obtain ⟨M, mem', e, hl, hnew, hrep⟩ := dot_kern kern ha hb hoa hob hd hv hsz hA hB
  have hdim := productLayout_dim hv
  rw [← hl] at hdim
  have hnt : NotTriangular M.layout := by
    have := (productLayout_props i a.layout.dim.1 b.layout.dim.2).2.2
    rw [← hl] at this
    exact this.notTri
  refine ⟨M, mem', e, hdim, fun r c hr hc => ?_⟩
  have hs : Stored M.layout r c := (stored_of_notTri hnt).2 (by rw [hdim]; exact ⟨hr, hc⟩)
  refine ⟨_, hnew.sound.get cfg hs (hrep r c hs), ?_⟩
  obtain ⟨t, ht, et⟩ := hk ⟨a.layout.dim.1, b.layout.dim.2, r, c⟩ 1
    ((List.range a.layout.dim.2).map fun l => (A r l, B l c)) 0 0
  rw [et]
  have := ht.element hR
  rwa [h0, h1] at this

/-! ## Expressions -/

/-- **C97, expressions.** With scalars that follow IEEE-754, an element of a built expression, and the
same element of the matrix that `eval` returns, is NaN if one of the elements or factors that go into it
is, and not finite if one of them is not. -/
theorem C97_expressions [Target] [Zero F] (S : Ieee754 f F) (cfg : Cfg) (e : Ex F) (mem : Mem F) (m : Mat F)
    (ht : e.Typed) (hl : ∀ b ∈ e.leaves, Sound b mem) (hb : e.build = .ok m) (r c : Nat)
    (hrc : (r, c) ∈ orderOf e.kind e.dim) (X : BaseMatrix → F)
    (hX : ∀ b ∈ e.leaves, b.get cfg mem r c = .ok (X b)) :
    ∃ v, m.get cfg mem r c = .ok v ∧
      ((e.kind = .columnVector → e.dim.1 = 1) →
        (orderOf e.kind e.dim).length * cfg.item.size ≤ isizeMax →
        ∃ N mem', m.eval cfg mem = .ok (N, mem') ∧ N.get cfg mem' r c = .ok v) ∧
      (¬ ((e.operations X).Literals fun a => S.datum a ≠ .nan) → S.datum v = .nan) ∧
      (¬ ((e.operations X).Literals fun a => (S.datum a).IsFinite) → ¬ (S.datum v).IsFinite) := by
  obtain ⟨v, h1, h2, h3, -⟩ := C80_expressions S.toIeee cfg e mem m ht hl hb r c hrc X hX
  refine ⟨v, h1, h2, fun hn => ?_, fun hn hv => hn ?_⟩
  · have hc := conform_of_build ht hb
    have hX' : ∀ b ∈ e.leaves, elem b mem r c = some (X b) := by
      intro b hb
      obtain ⟨hd, hki⟩ := leaf_shape e ht hc b hb
      have hs : Stored b.layout r c := by rw [← mem_order, order_eq_orderOf, hd, hki]; exact hrc
      obtain ⟨w, hw⟩ := (hl b hb).elem_some hs
      have := hX b hb
      rw [(hl b hb).get cfg hs hw] at this
      rw [hw]
      simpa using this
    obtain ⟨k, hk⟩ := List.mem_iff_getElem?.1 hrc
    obtain ⟨w, g1, g2, -⟩ := (C35_get1d_get cfg e mem m ht hl hb k).1 r c hk
    obtain rfl : v = w := by rw [h1] at g2; simpa using g2
    rw [← operations_run S.toIeee X e mem r c v hX' g1]
    exact Fp.nan_of_literal S.toIeee_refines hn
  · obtain ⟨s, x, hv⟩ := hv
    refine (h3 x (by show (S.datum v).val = _; rw [hv]; rfl)).1.mono fun a ha => ?_
    by_contra hf
    have : S.toIeee.val a = none := val_none hf
    rw [this] at ha
    cases ha

/-! ## Scalars that follow the standard -/

namespace Exact754

/-- Rounding, with overflow; `s` is the sign of an exact 0. -/
def round (f : Format) (s : Bool) (z : ℚ) : Datum :=
  if |z| < f.limit then .fin (if z = 0 then s else decide (z < 0)) (f.nearest z) else .inf (decide (z < 0))

/-- Sums. -/
def plus (f : Format) : Datum → Datum → Datum
  | .fin s x, .fin t y => round f (s && t) (x + y)
  | .fin _ _, .inf t => .inf t
  | .inf s, .fin _ _ => .inf s
  | .inf s, .inf t => if s = t then .inf s else .nan
  | _, _ => .nan

/-- Products. -/
def times (f : Format) : Datum → Datum → Datum
  | .fin s x, .fin t y => round f (s != t) (x * y)
  | .fin s x, .inf t => if x = 0 then .nan else .inf (s != t)
  | .inf s, .fin t y => if y = 0 then .nan else .inf (s != t)
  | .inf s, .inf t => .inf (s != t)
  | _, _ => .nan

/-- Fused multiply-adds. -/
def fused (f : Format) : Datum → Datum → Datum → Datum
  | .fin s x, .fin t y, .fin u z => round f ((s != t) && u) (x * y + z)
  | .fin _ _, .fin _ _, .inf u => .inf u
  | .fin _ _, .fin _ _, .nan => .nan
  | a, b, c => plus f (times f a b) c

theorem round_rounded (s : Bool) (z : ℚ) : Datum.Rounded f s z (round f s z) := by
  unfold Datum.Rounded round
  by_cases h : |z| < f.limit
  · rw [if_pos h, if_pos h]
    exact ⟨_, rfl, f.nearest_roundsTo h⟩
  · rw [if_neg h, if_neg h]

theorem plus_sum (a b : Datum) : Datum.Sum f a b (plus f a b) := by
  cases a <;> cases b <;> first
    | exact round_rounded _ _
    | rfl

theorem times_product (a b : Datum) : Datum.Product f a b (times f a b) := by
  cases a <;> cases b <;> first
    | exact round_rounded _ _
    | rfl

theorem fused_fused (a b c : Datum) : Datum.Fused f a b c (fused f a b c) := by
  cases a <;> cases b <;> cases c <;> first
    | exact round_rounded _ _
    | rfl
    | exact ⟨_, times_product _ _, plus_sum _ _⟩

theorem round_proper (s : Bool) (z : ℚ) : (round f s z).Proper f := by
  unfold round
  by_cases h : |z| < f.limit
  · rw [if_pos h]
    have hr := f.nearest_roundsTo h
    have h0 := hr.2.1 0 f.value_zero
    rw [sub_zero] at h0
    refine ⟨hr.1, fun hx => ?_, fun hx => ?_⟩
    · have hz : z < 0 := by
        by_contra hn
        rw [not_lt] at hn
        rw [abs_of_nonneg (by linarith : 0 ≤ z - f.nearest z), abs_of_nonneg hn] at h0
        linarith
      rw [if_neg hz.ne]
      simpa using hz
    · have hz : 0 < z := by
        by_contra hn
        rw [not_lt] at hn
        rw [abs_of_nonpos (by linarith : z - f.nearest z ≤ 0), abs_of_nonpos hn] at h0
        linarith
      rw [if_neg hz.ne']
      simpa using hz.le
  · rw [if_neg h]
    trivial

theorem plus_proper (a b : Datum) : (plus f a b).Proper f := by
  cases a <;> cases b <;> first
    | exact round_proper _ _
    | trivial
    | (simp only [plus]; split_ifs <;> trivial)

theorem times_proper (a b : Datum) : (times f a b).Proper f := by
  cases a <;> cases b <;> first
    | exact round_proper _ _
    | trivial
    | (simp only [times]; split_ifs <;> trivial)

theorem fused_proper (a b c : Datum) : (fused f a b c).Proper f := by
  cases a <;> cases b <;> cases c <;> first
    | exact round_proper _ _
    | trivial
    | (simp only [fused]; exact plus_proper _ _)

theorem opposite_proper {d : Datum} (h : d.Proper f) : d.opposite.Proper f := by
  cases d with
  | nan => trivial
  | inf s => trivial
  | fin s x =>
    obtain ⟨h1, h2, h3⟩ := h
    exact ⟨f.value_neg h1, fun h => by rw [h3 (by linarith)]; rfl, fun h => by rw [h2 (by linarith)]; rfl⟩

end Exact754

/-- The scalars of format `f`, with two zeros, two infinities and one NaN. -/
def Num754 (f : Format) : Type := { d : Datum // d.Proper f }

namespace Num754

instance : Add (Num754 f) := ⟨fun a b => ⟨Exact754.plus f a.1 b.1, Exact754.plus_proper _ _⟩⟩
instance : Sub (Num754 f) := ⟨fun a b => ⟨Exact754.plus f a.1 b.1.opposite, Exact754.plus_proper _ _⟩⟩
instance : Mul (Num754 f) := ⟨fun a b => ⟨Exact754.times f a.1 b.1, Exact754.times_proper _ _⟩⟩
instance : Zero (Num754 f) := ⟨⟨.fin false 0, f.value_zero, by simp, by simp⟩⟩
instance : One (Num754 f) := ⟨⟨.fin false 1, by
  have := f.value_int (n := 1) (by simpa using one_le_pow₀ (by norm_num : (1 : ℤ) ≤ 2)); simpa using this,
  fun h => absurd h (by norm_num), fun _ => rfl⟩⟩

/-- These scalars follow the standard. -/
def ieee754 (f : Format) : Ieee754 f (Num754 f) where
  datum a := a.1
  fma a b c := ⟨Exact754.fused f a.1 b.1 c.1, Exact754.fused_proper _ _ _⟩
  proper a := a.2
  add_datum _ _ := Exact754.plus_sum _ _
  sub_datum _ _ := Exact754.plus_sum _ _
  mul_datum _ _ := Exact754.times_product _ _
  fma_datum _ _ _ := Exact754.fused_fused _ _ _

/-- A number, rounded. -/
def ofRat (x : ℚ) : Num754 f := ⟨Exact754.round f false x, Exact754.round_proper _ _⟩

/-- An infinity. -/
def infinity (s : Bool) : Num754 f := ⟨.inf s, trivial⟩

/-- NaN. -/
def nan : Num754 f := ⟨.nan, trivial⟩

/-- The negative zero. -/
def negZero : Num754 f := ⟨.fin true 0, f.value_zero, by simp, by simp⟩

end Num754

/-- The loop of the reference product is one of the orders. -/
theorem loopKern_exactly (S : Ieee754 f F) (R : Ieee f F) : Exactly S R loopKern := by
  intro site alpha ps beta c
  suffices h : ∃ t, ProductOf R alpha beta c ps t ∧ t.run R = loopKern site alpha ps beta c by
    obtain ⟨t, h1, h2⟩ := h
    exact ⟨t, h1, by rw [h2]⟩
  induction ps using List.reverseRecOn with
  | nil => exact ⟨_, .scaled', rfl⟩
  | append_singleton ps p ih =>
    obtain ⟨t, h1, h2⟩ := ih
    exact ⟨_, h1.term (a := p.1) (b := p.2), by
      simp only [loopKern, List.foldl_append, List.foldl_cons, List.foldl_nil] at h2 ⊢
      rw [← h2]; rfl⟩

/-- A kernel that does not read the old element if `beta` is 0. -/
def clearingKern (S : Ieee754 f F) (zero : F) : Kern F := fun site alpha ps beta c =>
  if (S.datum beta).val = some 0 then ps.foldl (fun s p => s + alpha * p.1 * p.2) zero
  else loopKern site alpha ps beta c

theorem clearingKern_exactly (S : Ieee754 f F) (R : Ieee f F) (hR : S.Refines R) (zero : F)
    (hz : (S.datum zero).val = some 0) : Exactly S R (clearingKern S zero) := by
  intro site alpha ps beta c
  unfold clearingKern
  by_cases hb : (S.datum beta).val = some 0
  · rw [if_pos hb]
    suffices h : ∃ t, ProductOf R alpha beta c ps t ∧
        t.run R = ps.foldl (fun s p => s + alpha * p.1 * p.2) zero by
      obtain ⟨t, h1, h2⟩ := h
      exact ⟨t, h1, by rw [h2]⟩
    induction ps using List.reverseRecOn with
    | nil => exact ⟨_, .cleared (by rw [hR.val]; exact hb) (by rw [hR.val]; exact hz), rfl⟩
    | append_singleton ps p ih =>
      obtain ⟨t, h1, h2⟩ := ih
      exact ⟨_, h1.term (a := p.1) (b := p.2), by
        simp only [List.foldl_append, List.foldl_cons, List.foldl_nil] at h2 ⊢
        rw [← h2]; rfl⟩
  · rw [if_neg hb]
    exact loopKern_exactly S R site alpha ps beta c

/-! ## Examples -/

/-- Zeros have signs: `-0 + -0 = -0`, `-0 + 0 = 0`, `1 - 1 = 0`, `-1 * 0 = -0`; infinities times zeros
and opposite infinities are NaN. -/
example : (Num754.negZero + Num754.negZero : Num754 .f64).1 = .fin true 0 ∧
    (Num754.negZero + 0 : Num754 .f64).1 = .fin false 0 ∧
    (1 - 1 : Num754 .f64).1 = .fin false 0 ∧
    (Num754.ofRat (-1) * 0 : Num754 .f64).1 = .fin true 0 ∧
    (Num754.infinity true * 0 : Num754 .f64).1 = .nan ∧
    (Num754.infinity true + Num754.infinity false : Num754 .f64).1 = .nan ∧
    (Num754.infinity true * Num754.ofRat (-2) : Num754 .f64).1 = .inf false := by
  decide +kernel

/-- A row `[x, 2, 3]`, a column `[y, 5, 6]` and an old element. -/
def exMem754 (x y z : Num754 .f64) : Mem (Num754 .f64) :=
  ⟨[[x, .ofRat 2, .ofRat 3], [y, .ofRat 5, .ofRat 6], [z]]⟩

/-- The element of a 1x1 product. -/
def exProduct754 (kern : Kern (Num754 .f64)) (alpha beta : Num754 .f64) (mem : Mem (Num754 .f64)) :
    Out Datum := do
  let mem' ← matmul kern alpha exRowNum exColNum beta exOneNum mem
  let v ← exOneNum.get dbg mem' 0 0
  return v.1

/-- NaN times zero is NaN; an infinity keeps its sign, or changes it with `alpha`; an infinity times zero
is NaN. -/
example : exProduct754 loopKern 1 0 (exMem754 .nan 0 0) = .ok .nan ∧
    exProduct754 loopKern 1 0 (exMem754 (.infinity true) 1 0) = .ok (.inf true) ∧
    exProduct754 loopKern (.ofRat (-1)) 0 (exMem754 (.infinity true) 1 0) = .ok (.inf false) ∧
    exProduct754 loopKern 1 0 (exMem754 (.infinity true) 0 0) = .ok .nan ∧
    exProduct754 loopKern 1 1 (exMem754 (.infinity true) 1 (.infinity false)) = .ok .nan := by
  decide +kernel

/-- With `beta = 0` it depends on the kernel whether a NaN in the old element is lost, which is why
`Carries` says nothing then: the loop of the unit tests keeps it, other kernels do not. -/
example : exProduct754 loopKern 1 0 (exMem754 1 1 .nan) = .ok .nan ∧
    exProduct754 (clearingKern (Num754.ieee754 .f64) 0) 1 0 (exMem754 1 1 .nan) = .ok (.fin false 29) ∧
    Exactly (Num754.ieee754 .f64) (Num754.ieee754 .f64).toIeee loopKern ∧
    Exactly (Num754.ieee754 .f64) (Num754.ieee754 .f64).toIeee (clearingKern (Num754.ieee754 .f64) 0) :=
  ⟨by decide +kernel, by decide +kernel, loopKern_exactly _ _,
    clearingKern_exactly _ _ (Ieee754.toIeee_refines _) _ rfl⟩

/-- By `C97_dot` a NaN times a zero is not lost in a dot product, in whatever order it is computed. -/
example (kern : Kern (Num754 .f64))
    (hk : Exactly (Num754.ieee754 .f64) (Num754.ieee754 .f64).toIeee kern) :
    ∃ M mem' v, dot dbg kern .matMat exRowNum exColNum (exMem754 .nan 0 0) = .ok (M, mem') ∧
      M.get dbg mem' 0 0 = .ok v ∧ v.1 = .nan := by
  have hA : Represents exRowNum (exMem754 .nan 0 0)
      (fun _ l => if l = 0 then .nan else .ofRat (l + 1)) := by
    rintro i j ⟨hi, hj, -⟩
    obtain rfl : i = 0 := Nat.lt_one_iff.1 hi
    match j, hj with
    | 0, _ => rfl
    | 1, _ => show some (Num754.ofRat 2) = some (Num754.ofRat _); norm_num
    | 2, _ => show some (Num754.ofRat 3) = some (Num754.ofRat _); norm_num
  have hB : Represents exColNum (exMem754 .nan 0 0)
      (fun l _ => if l = 0 then 0 else .ofRat (l + 4)) := by
    rintro i j ⟨hi, hj, -⟩
    obtain rfl : j = 0 := Nat.lt_one_iff.1 hj
    match i, hi with
    | 0, _ => rfl
    | 1, _ => show some (Num754.ofRat 5) = some (Num754.ofRat _); norm_num
    | 2, _ => show some (Num754.ofRat 6) = some (Num754.ofRat _); norm_num
  obtain ⟨M, mem', e, -, h⟩ := C97_dot (Num754.ieee754 .f64) _ (Ieee754.toIeee_refines _) rfl rfl kern hk
    dbg .matMat exRowNum exColNum (exMem754 .nan 0 0)
    (sound_of_contiguous trivial ⟨by decide, by decide⟩ (by decide))
    (sound_of_contiguous trivial ⟨by decide, by decide⟩ (by decide)) trivial trivial rfl trivial
    (by decide) _ _ hA hB
  obtain ⟨v, g1, g2⟩ := h 0 0 (by decide) (by decide)
  exact ⟨M, mem', v, e, g1, g2.term_nan 0 (by decide) (.inl rfl)⟩

/-- `&a + 0 * a`. -/
def exExpr754 : Ex (Num754 .f64) :=
  .add true false (.leaf exRowNum) (.scale true false 0 (.leaf exRowNum))

/-- Scaling by zero does not remove an infinity: the first element of the sum is NaN. The hypotheses of
`C97_expressions` hold. -/
example : exExpr754.Typed ∧ (∀ b ∈ exExpr754.leaves, Sound b (exMem754 (.infinity true) 0 0)) ∧
    (0, 0) ∈ orderOf exExpr754.kind exExpr754.dim ∧
    (do
      let m ← exExpr754.build
      let v ← m.get dbg (exMem754 (.infinity true) 0 0) 0 0
      return v.1) = Out.ok Datum.nan ∧
    ¬ ((exExpr754.operations fun _ => .infinity true).Literals fun a =>
      ((Num754.ieee754 .f64).datum a).IsFinite) := by
  refine ⟨by simp [exExpr754, Ex.Typed, Ex.kind, Ex.sizes], fun b hb => ?_, by decide, by decide +kernel,
    fun h => Datum.not_finite_inf _ h.1⟩
  obtain rfl : b = exRowNum := by simpa [exExpr754, Ex.leaves] using hb
  exact sound_of_contiguous trivial ⟨by decide, by decide⟩ (by decide)

end Householder.Props
