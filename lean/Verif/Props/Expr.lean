import Verif.Lemmas.Expr
import Verif.Props.Views

/-!
# Properties C34–C41: lazy expressions, eval, references
-/

namespace Householder.Props

open Spec

variable {α : Type}

/-! ## Example expressions -/

/-- A 2 × 2 row-major matrix in the window that starts at cell 2 of buffer 1. -/
def exSquare : BaseMatrix := ⟨⟨1, 2, 4⟩, .rowMajor ⟨(2, 2)⟩, .dynamic, .dynamic⟩

theorem exSquare_sound [Target] : Sound exSquare exMem :=
  sound_of_contiguous (by trivial) ⟨by decide_width, by decide_width⟩ (by decide_width)

/-- `&block + 10 * (square + &block)`: a strided view of buffer 0, a contiguous matrix in
buffer 1. -/
def exSum : Ex Int :=
  .add true false (.leaf exBlock) (.scale true false 10 (.add false true (.leaf exSquare) (.leaf exBlock)))

/-- The expression built. -/
def exSumMat : Mat Int :=
  .addition (.ref (.base exBlock))
    (.scalarMult (.addition (.base exSquare) (.ref (.base exBlock)) (.rowMajor ⟨(2, 2)⟩)) 10)
    (.rowMajor ⟨(2, 2)⟩)

theorem exSum_build : exSum.build = .ok exSumMat := rfl

theorem exSum_typed : exSum.Typed := ⟨trivial, ⟨trivial, trivial, rfl, rfl⟩, rfl, rfl⟩

theorem exSum_conform : exSum.Conform := ⟨trivial, ⟨trivial, trivial, rfl⟩, rfl⟩

theorem exSum_leaves [Target] : ∀ b ∈ exSum.leaves, Sound b exMem := by
  intro b hb
  simp only [exSum, Ex.leaves, List.cons_append, List.nil_append, List.mem_cons,
    List.not_mem_nil, or_false] at hb
  rcases hb with rfl | rfl | rfl
  exacts [exBlock_sound, exSquare_sound, exBlock_sound]

/-! ## C34 -/

/-- What the sum of two expressions should be. -/
def IsSum [Target] [Add α] [Mul α] (a b : Mat α) (result : Out (Mat α)) : Prop :=
  (a.dim ≠ b.dim → result = .panic) ∧
  (a.dim = b.dim → ∃ m, result = .ok m ∧ m.dim = a.dim ∧
    ∀ cfg mem r c, m.get cfg mem r c = do
      let x ← a.get cfg mem r c
      let y ← b.get cfg mem r c
      return x + y)

/-- **C34.** `a + b`, `a + &b`, `&a + b` and `&a + &b` panic iff the dimensions differ; otherwise
the result has the dimension of the operands and element `(r, c)` is `a.get(r, c) + b.get(r, c)`,
including where one of these panics, in every memory. -/
theorem C34_addition [Target] [Add α] [Mul α] (a b : Mat α) :
    IsSum a b (a.add_vv b) ∧ IsSum a b (a.add_vr b) ∧ IsSum a b (a.add_rv b) ∧
    IsSum a b (a.add_rr b) := by
  have hget : ∀ (x y : Mat α) l, x.layout.dim = y.layout.dim → l = x.layout.index_layout →
      ∀ cfg mem r c, (Mat.addition x y l).get cfg mem r c = do
        let p ← x.get cfg mem r c
        let q ← y.get cfg mem r c
        return p + q := by
    rintro x y l hd rfl cfg mem r c
    unfold Mat.get
    simp only [Mat.layout, index_layout_dim, ← hd]
    by_cases h : r < x.layout.dim.1 ∧ c < x.layout.dim.2
    · simp [assert_dimension_ok h.1 h.2, Mat.get_unchecked]
    · simp [assert_dimension_panic h]
  have hsum : ∀ x y : Mat α, IsSum x y (Mat.addition_new x y) := by
    intro x y
    refine ⟨fun h => ?_, fun h => ⟨.addition x y x.layout.index_layout, ?_, ?_,
      hget x y _ h rfl⟩⟩
    · simp [Mat.addition_new, Out.assert_neg (show ¬ x.layout.dim = y.layout.dim from h)]
    · simp [Mat.addition_new, Out.assert_pos (show x.layout.dim = y.layout.dim from h)]
    · simp only [Mat.dim, Mat.layout, index_layout_dim]
  exact ⟨hsum a b, hsum a (.ref b), hsum (.ref a) b, hsum (.ref a) (.ref b)⟩

/-- **C34**, for whole expressions: an expression the type checker accepts builds iff the shapes
of all its sums agree, panics otherwise, and when built has the shape of its operands. -/
theorem C34_expressions (e : Ex α) (ht : e.Typed) :
    (e.Conform → ∃ m, e.build = .ok m ∧ m.dim = e.dim) ∧ (¬ e.Conform → e.build = .panic) := by
  obtain ⟨h1, h2⟩ := e.build_spec ht
  refine ⟨fun hc => ?_, h2⟩
  obtain ⟨m, hm, hd, -⟩ := h1 hc
  exact ⟨m, hm, hd⟩

example : exSumMat.dim = (2, 2) ∧ exSumMat.get dbg exMem 1 0 = .ok (5 + 10 * (50 + 5)) ∧
    exSumMat.get dbg exMem 2 0 = .panic := by decide
example : (Mat.add_vr (.base exBlock) (.base exRow) : Out (Mat Int)) = .panic := rfl

/-! ## C35 -/

/-- **C35.** On every built expression, of any depth and over any mixture of contiguous and
strided matrices, 1D access at `k` is 2D access at the `k`-th logical position, both give the
value of the expression there, and 1D access past the last position panics. -/
theorem C35_get1d_get [Target] [Add α] [Mul α] (cfg : Cfg) (e : Ex α) (mem : Mem α) (m : Mat α)
    (ht : e.Typed) (hl : ∀ b ∈ e.leaves, Sound b mem) (hb : e.build = .ok m) (k : Nat) :
    (∀ r c, (orderOf e.kind e.dim)[k]? = some (r, c) →
      ∃ v, e.value mem r c = some v ∧ m.get cfg mem r c = .ok v ∧ m.get1d cfg mem k = .ok v) ∧
    ((orderOf e.kind e.dim)[k]? = none → m.get1d cfg mem k = .panic) := by
  obtain ⟨h1, h2⟩ := e.build_spec ht
  have hc : e.Conform := by
    by_contra h
    rw [h2 h] at hb; exact absurd hb (by simp)
  obtain ⟨m', hm, hd, hk, -, hok, hv⟩ := h1 hc
  obtain rfl : m = m' := by rw [hb] at hm; simpa using hm
  have hok := hok mem hl
  have ho : orderOf e.kind e.dim = order m.layout := by rw [order_eq_orderOf, hd, hk]
  rw [ho]
  refine ⟨fun r c hp => ?_, fun hp => ?_⟩
  · have hs : Stored m.layout r c := mem_order.1 (List.mem_of_getElem? hp)
    obtain ⟨v, v1, -⟩ := hok.unchecked cfg hs
    have hg := hok.get cfg hs v1
    rw [(order_get_iff.1 hp).2] at hg
    exact ⟨v, by rw [← hv]; exact v1, hg⟩
  · have hn : ¬ k < count m.layout := by
      rw [← order_length]; exact fun h => absurd hp (by simp [h])
    unfold Mat.get1d
    rw [hok.number_of_elements cfg]
    simp [assert_dimension1d, Out.assert_neg hn]

example : (orderOf exSum.kind exSum.dim)[2]? = some (1, 0) ∧
    exSumMat.get1d dbg exMem 2 = .ok 555 ∧ exSumMat.get1d dbg exMem 4 = .panic := by decide

/-! ## C36 -/

/-- What `s` times an expression should be. -/
def IsScaled [Target] [Add α] [Mul α] (s : α) (a m : Mat α) : Prop :=
  m.dim = a.dim ∧ ∀ cfg mem r c, m.get cfg mem r c = do
    let x ← a.get cfg mem r c
    return s * x

/-- **C36.** `s * a`, `s * &a`, `a * s` and `&a * s` have the dimension of `a` and element `(r, c)`
equal to `s * a.get(r, c)`, scalar on the left in all four. -/
theorem C36_scalar [Target] [Add α] [Mul α] (s : α) (a : Mat α) :
    IsScaled s a (.mul_sv s a) ∧ IsScaled s a (.mul_sr s a) ∧ IsScaled s a (.mul_vs a s) ∧
    IsScaled s a (.mul_rs a s) := by
  have hs : ∀ x : Mat α, IsScaled s x (.scalarMult x s) := by
    intro x
    refine ⟨rfl, fun cfg mem r c => ?_⟩
    unfold Mat.get
    simp only [Mat.layout]
    by_cases h : r < x.layout.dim.1 ∧ c < x.layout.dim.2
    · simp [assert_dimension_ok h.1 h.2, Mat.get_unchecked]
    · simp [assert_dimension_panic h]
  exact ⟨hs a, hs (.ref a), hs a, hs (.ref a)⟩

/-- The order of the factors shows for a multiplication that is not commutative. -/
local instance exMul : Mul (Int × Int) := ⟨fun a b => (a.1, b.2)⟩
example : (Mat.mul_vs (.base exSquare) ((7 : Int), (8 : Int))).get dbg
      ⟨[[], [(0, 0), (0, 0), (1, 2), (3, 4), (5, 6), (9, 9)]]⟩ 0 1 = .ok (7, 4) := by decide

/-! ## C37 -/

/-- **C37.** `eval` of any built expression (whose index layout is not a column vector of length
other than 1, see C41) of allocatable size returns a new matrix in fresh storage, of the same
shape, in the index layout, whose elements are the values of the expression, by position and by
1D index. The scalar type is arbitrary: no algebraic law is used. -/
theorem C37_eval [Target] [Zero α] [Add α] [Mul α] (cfg : Cfg) (e : Ex α) (mem : Mem α) (m : Mat α)
    (ht : e.Typed) (hl : ∀ b ∈ e.leaves, Sound b mem) (hb : e.build = .ok m)
    (hk : e.kind = .columnVector → e.dim.1 = 1)
    (hsz : (orderOf e.kind e.dim).length * cfg.item.size ≤ isizeMax) :
    ∃ R mem', m.eval cfg mem = .ok (R, mem') ∧ R.layout.dim = e.dim ∧
      R.layout = m.layout.index_layout ∧ Contiguous R.layout ∧ R.layout.indexKind = e.kind ∧
      Sound R mem' ∧ Fresh R mem ∧ Extends mem mem' ∧
      (∀ r c, Stored R.layout r c → ∃ v, e.value mem r c = some v ∧
        R.get cfg mem' r c = .ok v ∧ m.get cfg mem r c = .ok v) ∧
      (∀ k, k < (orderOf e.kind e.dim).length → ∃ v,
        R.get1d cfg mem' k = .ok v ∧ m.get1d cfg mem k = .ok v) := by
  obtain ⟨h1, h2⟩ := e.build_spec ht
  have hc : e.Conform := by
    by_contra h
    rw [h2 h] at hb; exact absurd hb (by simp)
  obtain ⟨m', hm, hd, hki, -, hok, hv⟩ := h1 hc
  obtain rfl : m = m' := by rw [hb] at hm; simpa using hm
  have hok := hok mem hl
  have ho : orderOf e.kind e.dim = order m.layout := by rw [order_eq_orderOf, hd, hki]
  rw [ho, order_length] at hsz ⊢
  obtain ⟨R, mem', g1, g2, -, -, g3, g4, g5, g6, -⟩ := hok.eval cfg (by rw [hki, hd]; exact hk) hsz
  refine ⟨R, mem', g1, by rw [g2, index_layout_dim, hd], g2,
    by rw [g2]; exact index_layout_contiguous _, by rw [g2, index_layout_kind, hki], g3, g4, g5,
    ?_, ?_⟩
  · intro r c hs
    have hsm : Stored m.layout r c := by rw [g2, index_layout_stored] at hs; exact hs
    obtain ⟨v, v1, -⟩ := hok.unchecked cfg hsm
    exact ⟨v, by rw [← hv]; exact v1, g3.get cfg hs (by rw [g6 r c hs, v1]),
      (hok.get cfg hsm v1).1⟩
  · intro k hk
    obtain ⟨r, c, hs, rfl⟩ := exists_index hk
    have hsR : Stored R.layout r c := by rw [g2, index_layout_stored]; exact hs
    obtain ⟨v, v1, -⟩ := hok.unchecked cfg hs
    refine ⟨v, ?_, (hok.get cfg hs v1).2⟩
    rw [show index m.layout r c = index R.layout r c by rw [g2, index_layout_index]]
    exact g3.get1d cfg hsR (by rw [g6 r c hsR, v1])

example : exSumMat.eval dbg exMem =
    .ok (⟨⟨2, 0, 4⟩, .rowMajor ⟨(2, 2)⟩, .dynamic, .dynamic⟩,
      ⟨[[1, 2, 3, 4, 5, 6], [10, 20, 30, 40, 50, 60, 70],
        [2 + 10 * (30 + 2), 3 + 10 * (40 + 3), 5 + 10 * (50 + 5), 6 + 10 * (60 + 6)]]⟩) := by
  decide
example : exSum.Typed ∧ (∀ b ∈ exSum.leaves, Sound b exMem) ∧ exSum.build = .ok exSumMat ∧
    (exSum.kind = .columnVector → exSum.dim.1 = 1) ∧
    (orderOf exSum.kind exSum.dim).length * dbg.item.size ≤ isizeMax :=
  ⟨exSum_typed, exSum_leaves, exSum_build, by decide, by decide⟩

/-! ## C38 -/

/-- The memories agree on the allocations of `mem0`. -/
def AgreeOn (mem0 mem1 mem2 : Mem α) : Prop :=
  ∀ q : Loc, q.buf < mem0.bufs.length → mem1.get? q = mem2.get? q

theorem cell_buf_lt [Target] {m : BaseMatrix} {mem : Mem α} (h : Sound m mem) {r c : Nat}
    (hs : Stored m.layout r c) : m.data.buf < mem.bufs.length := by
  have := h.cell_lt hs
  exact Mem.buf_lt_of_size (b := m.data.buf) (by simp only [cell] at this; omega)

/-- A sound matrix over memories that agree on its storage holds the same array in both. -/
theorem represents_some [Target] {m : BaseMatrix} {mem : Mem α} (h : Sound m mem) [Nonempty α] :
    ∃ A : Arr α, Represents m mem A := by
  classical
  refine ⟨fun r c => (elem m mem r c).getD (Classical.arbitrary α), fun r c hs => ?_⟩
  obtain ⟨v, hv⟩ := h.elem_some hs
  simp [hv]

/-- The part of a history that concerns the result of `eval`. -/
def onResult : List (Option BaseMatrix × ArrOp α) → List (ArrOp α)
  | [] => []
  | (none, op) :: h => op :: onResult h
  | (some _, _) :: h => onResult h

/-- The part of a history that concerns matrices that existed before. -/
def onOld : List (Option BaseMatrix × ArrOp α) → List (BaseMatrix × ArrOp α)
  | [] => []
  | (none, _) :: h => onOld h
  | (some b, op) :: h => (b, op) :: onOld h

/-- Merging the responses to the two parts. -/
def merge : List (Option BaseMatrix × ArrOp α) → List (Resp α) → List (Resp α) → List (Resp α)
  | [], _, _ => []
  | (none, _) :: h, x :: xs, ys => x :: merge h xs ys
  | (some _, _) :: h, xs, y :: ys => y :: merge h xs ys
  | _, _, _ => []

theorem interleave [Target] {cfg : Cfg} {R : BaseMatrix} {mem0 : Mem α} (hf : Fresh R mem0)
    (hn : NonOverlapping R.layout) (hist : List (Option BaseMatrix × ArrOp α))
    (hold : ∀ b op, (some b, op) ∈ hist → Sound b mem0 ∧ NonOverlapping b.layout)
    (mem1 mem2 : Mem α) (A : Arr α)
    (hs1 : ∀ b, b < mem0.bufs.length → mem0.size b ≤ mem1.size b)
    (hs2 : ∀ b, b < mem0.bufs.length → mem0.size b ≤ mem2.size b)
    (hR : Sound R mem2) (hA : Represents R mem2 A) (hag : AgreeOn mem0 mem1 mem2) :
    ∃ resp memO memF, runOn cfg mem1 (onOld hist) = some (resp, memO) ∧
      runOn cfg mem2 (hist.map fun x => (x.1.getD R, x.2)) =
        some (merge hist (A.run (order R.layout) (onResult hist)).1 resp, memF) ∧
      Represents R memF (A.run (order R.layout) (onResult hist)).2 ∧ AgreeOn mem0 memO memF := by
  have : Nonempty α ∨ IsEmpty α := by
    by_cases h : Nonempty α
    · exact .inl h
    · exact .inr (not_nonempty_iff.1 h)
  induction hist generalizing mem1 mem2 A with
  | nil => exact ⟨[], mem1, mem2, rfl, rfl, hA, hag⟩
  | cons x hist ih =>
    obtain ⟨o, op⟩ := x
    cases o with
    | none =>
      obtain ⟨mem2', s1, s2, s3, s4⟩ := step_refines cfg R mem2 A hR hn hA op
      obtain ⟨resp, memO, memF, i1, i2, i3, i4⟩ := ih (fun b op h => hold b op (by simp [h]))
        mem1 mem2' _ hs1 (fun b hb => by rw [s4.size]; exact hs2 b hb) s2 s3 (by
          intro q hq
          rw [hag q hq, s4.other q]
          rintro r c _ rfl
          have hf : mem0.bufs.length ≤ R.data.buf := hf
          simp only [cell] at hq; omega)
      refine ⟨resp, memO, memF, i1, ?_, i3, i4⟩
      simp [runOn, s1, i2, merge, onResult, Arr.run]
    | some b =>
      obtain ⟨hb, hbn⟩ := hold b op (by simp)
      have hsz : ∀ mem' : Mem α, (∀ b, b < mem0.bufs.length → mem0.size b ≤ mem'.size b) →
          Sound b mem' := by
        intro mem' h
        by_cases hlt : b.data.buf < mem0.bufs.length
        · exact hb.mono (h _ hlt)
        · exact hb.mono (by rw [Mem.size_eq_zero (by omega)]; omega)
      have hb1 := hsz mem1 hs1
      have hb2 := hsz mem2 hs2
      have hex : ∃ B : Arr α, Represents b mem1 B := by
        rcases this with h | h
        · exact represents_some hb1
        · by_cases hc : ∃ r c, Stored b.layout r c
          · obtain ⟨r, c, hs⟩ := hc
            obtain ⟨v, -⟩ := hb1.elem_some hs
            exact (h.false v).elim
          · cases op with
            | set r c v => exact (h.false v).elim
            | set1d k v => exact (h.false v).elim
            | _ =>
              by_cases hcR : ∃ r c, Stored R.layout r c
              · obtain ⟨r, c, hs⟩ := hcR
                obtain ⟨v, -⟩ := hR.elem_some hs
                exact (h.false v).elim
              · exact ⟨A, fun r c hs => (hc ⟨r, c, hs⟩).elim⟩
      obtain ⟨B, hB1⟩ := hex
      have hB2 : Represents b mem2 B := by
        intro r c hs
        rw [← hB1 r c hs]
        exact (hag _ (cell_buf_lt hb hs)).symm
      obtain ⟨mem1', s1, s2, s3, s4⟩ := step_refines cfg b mem1 B hb1 hbn hB1 op
      obtain ⟨mem2', t1, t2, t3, t4⟩ := step_refines cfg b mem2 B hb2 hbn hB2 op
      have hRb : ∀ r c r' c', Stored R.layout r c → Stored b.layout r' c' →
          cell R r c ≠ cell b r' c' := by
        intro r c r' c' _ h' e
        have h1 := cell_buf_lt hb h'
        have h2 : mem0.bufs.length ≤ R.data.buf := hf
        have h3 : R.data.buf = b.data.buf := congrArg Loc.buf e
        omega
      obtain ⟨resp, memO, memF, i1, i2, i3, i4⟩ := ih (fun b op h => hold b op (by simp [h]))
        mem1' mem2' A (fun b hb => by rw [s4.size]; exact hs1 b hb)
        (fun b hb => by rw [t4.size]; exact hs2 b hb) (hR.mono (by rw [t4.size])) (by
          intro r c hs
          rw [← hA r c hs]
          exact t4.other _ fun r' c' hs' => hRb r c r' c' hs hs') (by
          intro q hq
          by_cases hc : ∃ r c, Stored b.layout r c ∧ q = cell b r c
          · obtain ⟨r, c, hs, rfl⟩ := hc
            exact (s3 r c hs).trans (t3 r c hs).symm
          · have hc' : ∀ r c, Stored b.layout r c → q ≠ cell b r c :=
              fun r c hs e => hc ⟨r, c, hs, e⟩
            rw [s4.other q hc', t4.other q hc', hag q hq])
      refine ⟨(B.step (order b.layout) op).1 :: resp, memO, memF, ?_, ?_, i3, i4⟩
      · simp [onOld, runOn, s1, i1]
      · simp [runOn, t1, i2, merge, onResult]

/-- **C38.** `eval` changes no existing memory and its result shares none, and this stays so: after
`R = e.eval()`, any interleaving of operations on `R` and on matrices that existed before gives

* on `R`, the responses and contents of an array that started with the values of the expression,
  whatever was done to the other matrices (in particular to the operands of `e`), and
* on the others, the responses and contents they would have had without `eval` and without
  the operations on `R`.

(`get`, `block`, `+` and the scalar multiplications do not take the memory mutably: in the model
they return no memory.) -/
theorem C38_no_side_effects [Target] [Zero α] [Add α] [Mul α] (cfg : Cfg) (e : Ex α) (mem : Mem α)
    (m : Mat α) (ht : e.Typed) (hl : ∀ b ∈ e.leaves, Sound b mem) (hb : e.build = .ok m)
    (R : BaseMatrix) (mem' : Mem α) (hsz : (orderOf e.kind e.dim).length * cfg.item.size ≤ isizeMax)
    (hk : e.kind = .columnVector → e.dim.1 = 1) (he : m.eval cfg mem = .ok (R, mem'))
    (hist : List (Option BaseMatrix × ArrOp α))
    (hold : ∀ b op, (some b, op) ∈ hist → Sound b mem ∧ NonOverlapping b.layout)
    (A : Arr α) (hA : ∀ r c, Stored m.layout r c → e.value mem r c = some (A r c)) :
    (∀ b r c, Sound b mem → Stored b.layout r c → b.get cfg mem' r c = b.get cfg mem r c) ∧
    (∀ b, Sound b mem → Separate R b) ∧
    ∃ resp memO memF, runOn cfg mem (onOld hist) = some (resp, memO) ∧
      runOn cfg mem' (hist.map fun x => (x.1.getD R, x.2)) =
        some (merge hist (A.run (order R.layout) (onResult hist)).1 resp, memF) ∧
      Represents R memF (A.run (order R.layout) (onResult hist)).2 ∧
      (∀ b r c, Sound b mem → Stored b.layout r c → elem b memF r c = elem b memO r c) := by
  obtain ⟨R', mem'', g1, g2, g3, g4, -, g5, g6, g7, g8, -⟩ := C37_eval cfg e mem m ht hl hb hk hsz
  rw [he] at g1
  obtain ⟨rfl, rfl⟩ : R = R' ∧ mem' = mem'' := by simpa using g1
  have hRA : Represents R mem' A := by
    intro r c hs
    obtain ⟨v, v1, v2, -⟩ := g8 r c hs
    rw [hA r c (by rw [g3, index_layout_stored] at hs; exact hs)] at v1
    obtain ⟨w, hw⟩ := g5.elem_some hs
    rw [g5.get cfg hs hw] at v2
    rw [hw, v1]
    simpa using v2
  refine ⟨fun b r c hb hs => g7.get hb cfg hs, ?_, ?_⟩
  · intro b hb r c r' c' _ hs' e
    have h1 := cell_buf_lt hb hs'
    have h2 : mem.bufs.length ≤ R.data.buf := g6
    have h3 : R.data.buf = b.data.buf := congrArg Loc.buf e
    omega
  · obtain ⟨resp, memO, memF, i1, i2, i3, i4⟩ := interleave (cfg := cfg) g6
      (contiguous_nonOverlapping g4) hist hold mem mem' A (fun b _ => le_rfl)
      (fun b _ => g7.size_le b) g5 hRA (fun q hq => (g7.2 q hq).symm)
    exact ⟨resp, memO, memF, i1, i2, i3,
      fun b r c hb hs => (i4 _ (cell_buf_lt hb hs)).symm⟩

/-- After `R = (block + 10 * (square + block)).eval()`: a write to an operand, a read of `R`, a
write to `R`, a read of the operand and of `R`. -/
example : runOn dbg (⟨[[1, 2, 3, 4, 5, 6], [10, 20, 30, 40, 50, 60, 70], [322, 433, 555, 666]]⟩ : Mem Int)
    [(exBlock, .set 1 0 0), (⟨⟨2, 0, 4⟩, .rowMajor ⟨(2, 2)⟩, .dynamic, .dynamic⟩, .get 1 0),
     (⟨⟨2, 0, 4⟩, .rowMajor ⟨(2, 2)⟩, .dynamic, .dynamic⟩, .set 0 1 7), (exBlock, .get 1 0),
     (⟨⟨2, 0, 4⟩, .rowMajor ⟨(2, 2)⟩, .dynamic, .dynamic⟩, .get1d 1)] =
    some ([.done, .value 555, .done, .value 0, .value 7],
      ⟨[[1, 2, 3, 4, 0, 6], [10, 20, 30, 40, 50, 60, 70], [322, 7, 555, 666]]⟩) := by decide

/-! ## C39 -/

theorem same_shape {mem mem' : Mem α} {e e' : Ex α} (h : Same mem mem' e e') :
    e.kind = e'.kind ∧ e.dim = e'.dim ∧ (e.Conform ↔ e'.Conform) := by
  induction h with
  | leaf hk hd he => exact ⟨hk, hd, Iff.rfl⟩
  | refLeft h ih => exact ih
  | refRight h ih => exact ih
  | add h1 h2 ih1 ih2 =>
    refine ⟨ih1.1, ih1.2.1, ?_⟩
    simp only [Ex.Conform, ih1.2.1, ih1.2.2, ih2.2.1, ih2.2.2]
  | scale h ih => exact ih

theorem same_value [Add α] [Mul α] {mem mem' : Mem α} {e e' : Ex α} (h : Same mem mem' e e')
    (ht : e.Typed) (hc : e.Conform) {r c : Nat} (hs : (r, c) ∈ orderOf e.kind e.dim) :
    e.value mem r c = e'.value mem' r c := by
  induction h with
  | leaf hk hd he =>
    exact he r c (mem_order.1 (by rw [order_eq_orderOf]; exact hs))
  | refLeft h ih => exact ih ht hc hs
  | refRight h ih => exact ih ht hc hs
  | @add f g f' g' a b a' b' h1 h2 ih1 ih2 =>
    obtain ⟨t1, t2, t3, -⟩ := ht
    obtain ⟨c1, c2, c3⟩ := hc
    simp only [Ex.kind, Ex.dim] at hs
    simp only [Ex.value]
    rw [ih1 t1 c1 hs, ih2 t2 c2 (by rw [← t3, ← c3]; exact hs)]
  | scale h ih =>
    simp only [Ex.value]
    rw [ih ht hc hs]

/-- **C39.** Two expressions with the same tree whose matrices have equal elements, whatever their
strides, windows, storage and size types and whichever operands are references, both build or
both panic; if they build, they have the same shape and read the same everywhere; their `eval`
results (in two memories, under two build modes) are in the same layout and read the same. -/
theorem C39_layout_independent [Target] [Zero α] [Add α] [Mul α] (cfg cfg' : Cfg) (e e' : Ex α)
    (mem1 mem2 : Mem α) (ht : e.Typed) (ht' : e'.Typed) (hl : ∀ b ∈ e.leaves, Sound b mem1)
    (hl' : ∀ b ∈ e'.leaves, Sound b mem2) (hsame : Same mem1 mem2 e e') :
    (e.build = .panic ∧ e'.build = .panic) ∨
    ∃ m m', e.build = .ok m ∧ e'.build = .ok m' ∧ m.dim = m'.dim ∧
      (∀ r c, (r, c) ∈ orderOf e.kind e.dim → ∃ v, m.get cfg mem1 r c = .ok v ∧
        m'.get cfg' mem2 r c = .ok v) ∧
      (∀ k, k < (orderOf e.kind e.dim).length → ∃ v, m.get1d cfg mem1 k = .ok v ∧
        m'.get1d cfg' mem2 k = .ok v) ∧
      ((e.kind = .columnVector → e.dim.1 = 1) →
        (orderOf e.kind e.dim).length * cfg.item.size ≤ isizeMax →
        (orderOf e.kind e.dim).length * cfg'.item.size ≤ isizeMax →
        ∃ R mem1' R' mem2', m.eval cfg mem1 = .ok (R, mem1') ∧ m'.eval cfg' mem2 = .ok (R', mem2') ∧
          R.layout = R'.layout ∧
          ∀ r c, Stored R.layout r c → ∃ v, R.get cfg mem1' r c = .ok v ∧
            R'.get cfg' mem2' r c = .ok v) := by
  obtain ⟨sk, sd, sc⟩ := same_shape hsame
  by_cases hc : e.Conform
  · right
    obtain ⟨m, hm, hd, hki, -, -, -⟩ := (e.build_spec ht).1 hc
    obtain ⟨m', hm', hd', hki', -, -, -⟩ := (e'.build_spec ht').1 (sc.1 hc)
    have key := fun k => (C35_get1d_get cfg e mem1 m ht hl hm k).1
    have key' := fun k => (C35_get1d_get cfg' e' mem2 m' ht' hl' hm' k).1
    rw [← sk, ← sd] at key'
    refine ⟨m, m', hm, hm', by rw [Mat.dim, Mat.dim, hd, hd', sd], ?_, ?_, ?_⟩
    · intro r c hp
      obtain ⟨k, hk⟩ := List.getElem?_of_mem hp
      obtain ⟨v, v1, v2, -⟩ := key k r c hk
      obtain ⟨w, w1, w2, -⟩ := key' k r c hk
      rw [← same_value hsame ht hc hp, v1] at w1
      obtain rfl : v = w := by simpa using w1
      exact ⟨v, v2, w2⟩
    · intro k hk
      obtain ⟨⟨r, c⟩, hp⟩ : ∃ p, (orderOf e.kind e.dim)[k]? = some p := ⟨_, List.getElem?_eq_getElem hk⟩
      obtain ⟨v, v1, -, v2⟩ := key k r c hp
      obtain ⟨w, w1, -, w2⟩ := key' k r c hp
      rw [← same_value hsame ht hc (List.mem_of_getElem? hp), v1] at w1
      obtain rfl : v = w := by simpa using w1
      exact ⟨v, v2, w2⟩
    · intro hk h1 h2
      obtain ⟨R, mem1', a1, -, a2, -, -, -, -, -, a3, -⟩ := C37_eval cfg e mem1 m ht hl hm hk h1
      obtain ⟨R', mem2', b1, -, b2, -, -, -, -, -, b3, -⟩ :=
        C37_eval cfg' e' mem2 m' ht' hl' hm' (by rw [← sk, ← sd]; exact hk)
          (by rw [← sk, ← sd]; exact h2)
      have hRR : R.layout = R'.layout := by
        rw [a2, b2]
        exact layout_same (by rw [hki, hki', sk]) (by rw [hd, hd', sd])
      refine ⟨R, mem1', R', mem2', a1, b1, hRR, fun r c hs => ?_⟩
      obtain ⟨v, v1, v2, -⟩ := a3 r c hs
      obtain ⟨w, w1, w2, -⟩ := b3 r c (by rw [← hRR]; exact hs)
      have hp : (r, c) ∈ orderOf e.kind e.dim := by
        rw [a2, index_layout_stored] at hs
        rw [← hki, ← hd, ← order_eq_orderOf]
        exact mem_order.2 hs
      rw [← same_value hsame ht hc hp, v1] at w1
      obtain rfl : v = w := by simpa using w1
      exact ⟨v, v2, w2⟩
  · exact .inl ⟨(e.build_spec ht).2 hc, (e'.build_spec ht').2 (fun h => hc (sc.2 h))⟩

/-- The block of buffer 0 and a contiguous copy of it in another memory. -/
example : Same exMem (⟨[[2, 3, 5, 6]]⟩ : Mem Int) (.scale true false 3 (.leaf exBlock))
    (.scale false true 3 (.leaf ⟨⟨0, 0, 4⟩, .rowMajor ⟨(2, 2)⟩, .dynamic, .dynamic⟩)) := by
  refine .scale (.leaf rfl rfl ?_)
  rintro r c ⟨hr, hc, -⟩
  have hr : r < 2 := hr
  have hc : c < 2 := hc
  obtain rfl | rfl : r = 0 ∨ r = 1 := by omega
  all_goals obtain rfl | rfl : c = 0 ∨ c = 1 := by omega
  all_goals decide

/-! ## C40 -/

/-- Two matrices that no operation of the library can tell apart, in any memory and build mode,
not even by panicking or by undefined behaviour. -/
structure Indist [Target] [Zero α] [Add α] [Mul α] (m m' : Mat α) : Prop where
  dim : m.dim = m'.dim
  length : m.length = m'.length
  number : ∀ cfg, m.layout.number_of_elements cfg = m'.layout.number_of_elements cfg
  get : ∀ cfg mem r c, m.get cfg mem r c = m'.get cfg mem r c
  get1d : ∀ cfg mem k, m.get1d cfg mem k = m'.get1d cfg mem k
  eval : ∀ cfg mem, m.eval cfg mem = m'.eval cfg mem

/-- Removing the references. -/
def strip : Mat α → Mat α
  | .base b => .base b
  | .ref m => strip m
  | .addition a b l => .addition (strip a) (strip b) l
  | .scalarMult m s => .scalarMult (strip m) s

theorem strip_layout (m : Mat α) : (strip m).layout = m.layout := by
  induction m <;> simp_all [strip, Mat.layout]

theorem strip_sizes (m : Mat α) : (strip m).sizes = m.sizes := by
  induction m <;> simp_all [strip, Mat.sizes]

theorem strip_get [Target] [Add α] [Mul α] (cfg : Cfg) (mem : Mem α) (r c : Nat) (m : Mat α) :
    (strip m).get_unchecked cfg mem r c = m.get_unchecked cfg mem r c := by
  induction m <;> simp_all [strip, Mat.get_unchecked]

theorem strip_get1d [Target] [Add α] [Mul α] (cfg : Cfg) (mem : Mem α) (k : Nat) (m : Mat α) :
    (strip m).get1d_unchecked cfg mem k = m.get1d_unchecked cfg mem k := by
  induction m <;> simp_all [strip, Mat.get1d_unchecked]

theorem strip_indist [Target] [Zero α] [Add α] [Mul α] {m m' : Mat α} (h : strip m = strip m') :
    Indist m m' := by
  have hl : m.layout = m'.layout := by rw [← strip_layout, h, strip_layout]
  have hg : ∀ cfg mem r c, m.get_unchecked cfg mem r c = m'.get_unchecked cfg mem r c := by
    intro cfg mem r c; rw [← strip_get, h, strip_get]
  have hg1 : ∀ cfg mem k, m.get1d_unchecked cfg mem k = m'.get1d_unchecked cfg mem k := by
    intro cfg mem k; rw [← strip_get1d, h, strip_get1d]
  refine ⟨?_, ?_, ?_, ?_, ?_, ?_⟩
  · rw [Mat.dim, Mat.dim, hl]
  · have : m.sizes = m'.sizes := by rw [← strip_sizes, h, strip_sizes]
    simp only [Mat.length, this, hl]
  · intro cfg; rw [hl]
  · intro cfg mem r c; simp only [Mat.get, hl, hg]
  · intro cfg mem k; simp only [Mat.get1d, hl, hg1]
  · intro cfg mem; simp only [Mat.eval, hl, hg1]

theorem strip_new (a b : Mat α) :
    (Mat.addition_new a b >>= fun x => Out.ok (strip x)) = Mat.addition_new (strip a) (strip b) := by
  unfold Mat.addition_new
  simp only [strip_layout]
  by_cases h : a.layout.dim = b.layout.dim
  · simp [Out.assert_pos h, strip]
  · simp [Out.assert_neg h]

theorem strip_idem (m : Mat α) : strip (strip m) = strip m := by
  induction m <;> simp_all [strip]

/-- Building an expression without references gives the stripped result. -/
theorem owned_build (e : Ex α) : e.owned.build = e.build >>= fun x => Out.ok (strip x) := by
  induction e with
  | leaf b => rfl
  | ref a ih =>
    simp only [Ex.owned, Ex.build, ih]
    cases a.build <;> simp [Mat.from_ref, strip]
  | add f g a b iha ihb =>
    simp only [Ex.owned, Ex.build, iha, ihb]
    cases a.build with
    | panic => rfl
    | ub => rfl
    | ok x =>
      cases b.build with
      | panic => rfl
      | ub => rfl
      | ok y =>
        cases f <;> cases g <;>
        simp only [Out.bind_ok, Mat.add_vv, Mat.add_vr, Mat.add_rv, Mat.add_rr, Mat.from_ref,
          strip_new, strip]
  | scale f g s a ih =>
    simp only [Ex.owned, Ex.build, ih]
    cases a.build <;> cases f <;> cases g <;>
      simp [Mat.mul_sv, Mat.mul_sr, Mat.mul_vs, Mat.mul_rs, Mat.scalar_mult_new, Mat.from_ref, strip]

/-- **C40.** Two programs that build the same expression and differ only in which operands are
references (`&a` instead of `a`, `Matrix::from_ref`) behave the same: one panics iff the other
does, and their results cannot be told apart. No assumption on the matrices or the memory. -/
theorem C40_references [Target] [Zero α] [Add α] [Mul α] (e e' : Ex α) (h : e.owned = e'.owned) :
    (e.build = .panic ↔ e'.build = .panic) ∧ (e.build = .ub ↔ e'.build = .ub) ∧
    (∀ m m', e.build = .ok m → e'.build = .ok m' → Indist m m') := by
  have hb : (e.build >>= fun x => Out.ok (strip x)) = (e'.build >>= fun x => Out.ok (strip x)) := by
    rw [← owned_build, h, owned_build]
  refine ⟨?_, ?_, ?_⟩
  · cases h1 : e.build <;> cases h2 : e'.build <;> simp_all
  · cases h1 : e.build <;> cases h2 : e'.build <;> simp_all
  · intro m m' h1 h2
    apply strip_indist
    simpa [h1, h2] using hb

/-- **C40**, one reference: `Matrix::from_ref(&m)` cannot be told apart from `m`. -/
theorem C40_from_ref [Target] [Zero α] [Add α] [Mul α] (m : Mat α) : Indist m.from_ref m :=
  strip_indist rfl

example : (Ex.add true false (.leaf exBlock) (.ref (.scale true true (3 : Int) (.leaf exSquare)))).owned =
    (Ex.add false false (.leaf exBlock) (.scale true false 3 (.leaf exSquare))).owned ∧
    (Ex.add true false (.leaf exBlock) (.ref (.scale true true (3 : Int) (.leaf exSquare)))).build ≠
    (Ex.add false false (.leaf exBlock) (.scale true false 3 (.leaf exSquare))).build := by
  refine ⟨rfl, ?_⟩
  simp [Ex.build, Mat.add_rv, Mat.add_vv, Mat.addition_new, Mat.from_ref, Mat.mul_sv, Mat.mul_sr,
    Mat.scalar_mult_new, Mat.layout, exBlock, exSquare, Out.assert, Layout.dim]

/-! ## C41 -/

/-- The full statement of C41: `eval` of a Dynamic × Dynamic matrix of allocatable size does not
panic. -/
def C41_statement [Target] : Prop :=
  ∀ (cfg : Cfg) (e : Ex Int) (mem : Mem Int) (m : Mat Int), e.Typed → (∀ b ∈ e.leaves, Sound b mem) →
    e.build = .ok m → m.sizes = (.dynamic, .dynamic) →
    (orderOf e.kind e.dim).length * cfg.item.size ≤ isizeMax → m.eval cfg mem ≠ .panic

/-- **C41 is false of the code**: `ColumnVector::from_dimension` asserts that the number of *rows*
is 1, so `eval` of a Dynamic × Dynamic matrix in a column vector layout, such as
`from_data(vec, ColumnVector::new(3))`, panics. -/
theorem C41_false [Target] : ¬ C41_statement := by
  intro h
  refine h dbg (.leaf ⟨⟨0, 0, 6⟩, .columnVector ⟨3⟩, .dynamic, .dynamic⟩) exMem _ trivial ?_ rfl rfl
    (by decide_width) (by decide_width)
  intro b hb
  simp only [Ex.leaves, List.mem_singleton] at hb
  subst hb
  exact sound_of_contiguous (by trivial) ⟨by decide_width, by decide_width⟩ (by decide_width)

/-- The witness is what safe construction gives. -/
example : from_data dbg .dynamic .dynamic ⟨0, 0, 6⟩ (.columnVector ⟨3⟩) =
    .ok ⟨⟨0, 0, 6⟩, .columnVector ⟨3⟩, .dynamic, .dynamic⟩ := by decide

/-- **C41, partial.** `eval` of a built expression of allocatable size never has undefined
behaviour; it panics iff the index layout is a column vector of length other than 1, and
otherwise succeeds. Missing: column vector layouts. -/
theorem C41_partial [Target] [Zero α] [Add α] [Mul α] (cfg : Cfg) (e : Ex α) (mem : Mem α) (m : Mat α)
    (ht : e.Typed) (hl : ∀ b ∈ e.leaves, Sound b mem) (hb : e.build = .ok m)
    (hsz : (orderOf e.kind e.dim).length * cfg.item.size ≤ isizeMax) :
    (m.eval cfg mem = .panic ↔ e.kind = .columnVector ∧ e.dim.1 ≠ 1) ∧
    (¬ (e.kind = .columnVector ∧ e.dim.1 ≠ 1) → ∃ R mem', m.eval cfg mem = .ok (R, mem')) := by
  have hok : ¬ (e.kind = .columnVector ∧ e.dim.1 ≠ 1) →
      ∃ R mem', m.eval cfg mem = .ok (R, mem') := by
    intro h
    obtain ⟨R, mem', h1, -⟩ := C37_eval cfg e mem m ht hl hb
      (fun hk => by by_contra hn; exact h ⟨hk, hn⟩) hsz
    exact ⟨R, mem', h1⟩
  refine ⟨⟨fun hp => ?_, fun ⟨hk, hd⟩ => ?_⟩, hok⟩
  · by_contra h
    obtain ⟨R, mem', h1⟩ := hok h
    rw [h1] at hp
    exact absurd hp (by simp)
  · obtain ⟨h1, h2⟩ := e.build_spec ht
    have hc : e.Conform := by
      by_contra h
      rw [h2 h] at hb; exact absurd hb (by simp)
    obtain ⟨m', hm, hdm, hkm, -⟩ := h1 hc
    obtain rfl : m = m' := by rw [hb] at hm; simpa using hm
    have : zeros_from_dim cfg .columnVector e.dim.1 e.dim.2 mem = .panic := by
      simp [zeros_from_dim, BaseKind.from_dimension, ColumnVector.from_dimension, Out.assert_neg hd]
    unfold Mat.eval
    simp [hkm, hdm, hk, this]

example : exSum.Typed ∧ ¬ (exSum.kind = .columnVector ∧ exSum.dim.1 ≠ 1) :=
  ⟨exSum_typed, by decide⟩

end Householder.Props
