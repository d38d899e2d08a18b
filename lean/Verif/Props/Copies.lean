import Verif.Props.Linear
import Verif.Props.MatMul

/-!
# C66: evaluated copies, and products of evaluated expressions
-/

namespace Householder.Props

open Spec

variable {α : Type}

/-- The value of an expression does not change when storage is added. -/
theorem value_extends [Target] [Add α] [Mul α] {mem mem' : Mem α} (h : Extends mem mem') (e : Ex α)
    (ht : e.Typed) (hc : e.Conform) (hl : ∀ b ∈ e.leaves, Sound b mem) {r c : Nat}
    (hrc : (r, c) ∈ orderOf e.kind e.dim) : e.value mem' r c = e.value mem r c := by
  have key : ∀ b ∈ e.leaves, elem b mem' r c = elem b mem r c := by
    intro b hb
    obtain ⟨hd, hk⟩ := leaf_shape e ht hc b hb
    exact h.elem (hl b hb) (by rw [← mem_order, order_eq_orderOf, hd, hk]; exact hrc)
  clear hrc hl
  induction e with
  | leaf b => exact key b (by simp [Ex.leaves])
  | ref a ih => exact ih ht hc key
  | add _ _ a a' ih ih' =>
    simp only [Ex.value, ih ht.1 hc.1 fun b hb => key b (by simp [Ex.leaves, hb]),
      ih' ht.2.1 hc.2.1 fun b hb => key b (by simp [Ex.leaves, hb])]
  | scale _ _ s a ih => simp only [Ex.value, ih ht hc key]

/-- **C66.** Evaluating an evaluated expression copies it: the second result has the same layout and
the same elements in storage of its own, and the first is unchanged. -/
theorem C66_eval_twice [Target] [Zero α] [Add α] [Mul α] (cfg : Cfg) (e : Ex α) (mem : Mem α) (m : Mat α)
    (ht : e.Typed) (hl : ∀ b ∈ e.leaves, Sound b mem) (hb : e.build = .ok m)
    (hk : e.kind = .columnVector → e.dim.1 = 1)
    (hsz : (orderOf e.kind e.dim).length * cfg.item.size ≤ isizeMax) :
    ∃ R mem1 S mem2, m.eval cfg mem = .ok (R, mem1) ∧ (Mat.base R).eval cfg mem1 = .ok (S, mem2) ∧
      S.layout = R.layout ∧ Fresh S mem1 ∧ Extends mem1 mem2 ∧
      ∀ r c, Stored R.layout r c → ∃ v, m.get cfg mem r c = .ok v ∧ R.get cfg mem2 r c = .ok v ∧
        S.get cfg mem2 r c = .ok v := by
  obtain ⟨R, mem1, e1, hd, hlay, hct, hki, hs, hfr, hex, hg, -⟩ := C37_eval cfg e mem m ht hl hb hk hsz
  obtain ⟨S, mem2, e2, hd2, hlay2, -, -, hs2, hfr2, hex2, hg2, -⟩ := C37_eval cfg (.leaf R) mem1 (.base R)
    trivial (by simpa [Ex.leaves] using hs) rfl (by simpa [Ex.kind, Ex.dim, hd, hki] using hk)
    (by simpa [Ex.kind, Ex.dim, hd, hki] using hsz)
  have hSR : S.layout = R.layout := by
    rw [hlay2]
    show R.layout.index_layout = R.layout
    rw [hlay, index_layout_idem]
  refine ⟨R, mem1, S, mem2, e1, e2, hSR, hfr2, hex2, fun r c hst => ?_⟩
  obtain ⟨v, -, h1, h2⟩ := hg r c hst
  obtain ⟨w, -, h3, h4⟩ := hg2 r c (by rw [hSR]; exact hst)
  have h4' : R.get cfg mem1 r c = .ok w := h4
  obtain rfl : v = w := by rw [h1] at h4'; simpa using h4'
  exact ⟨v, h2, by rw [hex2.get hs cfg hst]; exact h1, h3⟩

/-- **C66, products.** Take any two built expressions, of matrices and blocks in any mixture, whose
index layout is row- or column-major and whose shapes fit. Evaluating both and multiplying the
results with `dot` gives the matrix product of their values: evaluation repairs the wrong products of
blocks (C45). -/
theorem C66_product_of_evaluated [Target] [Semiring α] (cfg : Cfg) (e e' : Ex α) (mem : Mem α) (m m' : Mat α)
    (ht : e.Typed) (ht' : e'.Typed) (hl : ∀ b ∈ e.leaves, Sound b mem)
    (hl' : ∀ b ∈ e'.leaves, Sound b mem) (hb : e.build = .ok m) (hb' : e'.build = .ok m')
    (hk : e.kind = .rowMajor ∨ e.kind = .columnMajor)
    (hk' : e'.kind = .rowMajor ∨ e'.kind = .columnMajor) (hd : e.dim.2 = e'.dim.1)
    (hs : e.dim.1 * e.dim.2 * cfg.item.size ≤ isizeMax)
    (hs' : e'.dim.1 * e'.dim.2 * cfg.item.size ≤ isizeMax)
    (hs'' : e.dim.1 * e'.dim.2 * cfg.item.size ≤ isizeMax) (A B : Arr α)
    (hA : ∀ i l, i < e.dim.1 → l < e.dim.2 → m.get cfg mem i l = .ok (A i l))
    (hB : ∀ l j, l < e'.dim.1 → j < e'.dim.2 → m'.get cfg mem l j = .ok (B l j)) :
    ∃ R mem1 R' mem2 P mem3, m.eval cfg mem = .ok (R, mem1) ∧ m'.eval cfg mem1 = .ok (R', mem2) ∧
      dot cfg exactKern .matMat R R' mem2 = .ok (P, mem3) ∧
      P.layout = .rowMajor ⟨(e.dim.1, e'.dim.2)⟩ ∧ Extends mem mem2 ∧
      ∀ i j, i < e.dim.1 → j < e'.dim.2 →
        P.get cfg mem3 i j = .ok (∑ l ∈ Finset.range e.dim.2, A i l * B l j) := by
  have hlen : ∀ {k : BaseKind} {d : Nat × Nat}, k = .rowMajor ∨ k = .columnMajor →
      (orderOf k d).length = d.1 * d.2 := by
    rintro k d (rfl | rfl)
    · exact order_length (.rowMajor ⟨d⟩)
    · exact order_length (.columnMajor ⟨d⟩)
  have hmem : ∀ {k : BaseKind} {d : Nat × Nat}, k = .rowMajor ∨ k = .columnMajor → ∀ {r c : Nat},
      r < d.1 → c < d.2 → (r, c) ∈ orderOf k d := by
    rintro k d (rfl | rfl) r c hr hc
    · exact (mem_order (l := .rowMajor ⟨d⟩)).2 ⟨hr, hc, by simp⟩
    · exact (mem_order (l := .columnMajor ⟨d⟩)).2 ⟨hr, hc, by simp⟩
  have hnc : ∀ {k : BaseKind} {d : Nat}, k = .rowMajor ∨ k = .columnMajor →
      k = .columnVector → d = 1 := by rintro k d (rfl | rfl) h <;> cases h
  have hon : ∀ {l : Layout}, Contiguous l → l.indexKind = .rowMajor ∨ l.indexKind = .columnMajor →
      Honest l := by
    intro l h1 h2
    cases l <;> simp_all [Contiguous, Honest, Layout.indexKind]
  have hc' := conform_of_build ht' hb'
  obtain ⟨R, mem1, e1, g1, -, c1, k1, s1, -, x1, v1, -⟩ := C37_eval cfg e mem m ht hl hb (hnc hk)
    (by rw [hlen hk]; exact hs)
  obtain ⟨R', mem2, e2, g2, -, c2, k2, s2, -, x2, v2, -⟩ := C37_eval cfg e' mem1 m' ht'
    (fun b h => x1.sound (hl' b h)) hb' (hnc hk') (by rw [hlen hk']; exact hs')
  have hRA : ∀ i l, i < R.layout.dim.1 → l < R.layout.dim.2 → R.get cfg mem2 i l = .ok (A i l) := by
    intro i l hi hj
    rw [g1] at hi hj
    have hst : Stored R.layout i l := by
      rw [← mem_order, order_eq_orderOf, g1, k1]; exact hmem hk hi hj
    obtain ⟨v, -, w1, w2⟩ := v1 i l hst
    rw [x2.get s1 cfg hst, w1, ← w2, hA i l hi hj]
  have hRB : ∀ l j, l < R'.layout.dim.1 → j < R'.layout.dim.2 → R'.get cfg mem2 l j = .ok (B l j) := by
    intro l j hl1 hj
    rw [g2] at hl1 hj
    have ho := hmem hk' hl1 hj
    have hst : Stored R'.layout l j := by rw [← mem_order, order_eq_orderOf, g2, k2]; exact ho
    obtain ⟨v, w0, w1, -⟩ := v2 l j hst
    rw [w1]
    rw [value_extends x1 e' ht' hc' hl' ho] at w0
    obtain ⟨n, hn⟩ := List.mem_iff_getElem?.1 ho
    obtain ⟨u, u1, u2, -⟩ := (C35_get1d_get cfg e' mem m' ht' hl' hb' n).1 l j hn
    rw [w0] at u1
    rw [hB l j hl1 hj] at u2
    simp only [Option.some.injEq, Out.ok.injEq] at u1 u2
    rw [u1, u2]
  have := (C48_dot cfg .matMat R R' mem2 (x2.sound s1) s2 (hon c1 (by rw [k1]; exact hk))
    (hon c2 (by rw [k2]; exact hk')) A B hRA hRB).2.2 (by rw [g1, g2]; exact hd) (by simp) (by simp)
    (by rw [g1, g2]; exact hs'')
  obtain ⟨P, mem3, e3, -, hP, -, -, -, hval⟩ := this
  rw [g1, g2] at hP hval
  exact ⟨R, mem1, R', mem2, P, mem3, e1, e2, e3, hP, x1.trans x2, hval⟩

/-- **C66, blocks.** The product of two evaluated blocks is the product of the submatrices. -/
theorem C66_product_of_blocks [Target] [Semiring α] (cfg : Cfg) (a b : BaseMatrix) (mem : Mem α)
    (ha : Sound a mem) (hb : Sound b mem) (hma : IsMajor a.layout) (hmb : IsMajor b.layout)
    (hca : Contiguous a.layout) (hcb : Contiguous b.layout) (tl d tl' d' : Nat × Nat)
    (hf : Fits a.layout tl d) (hf' : Fits b.layout tl' d') (h1 : 1 ≤ d.1) (h2 : 1 ≤ d.2)
    (h2' : 1 ≤ d'.2) (hd : d.2 = d'.1)
    (hs : d.1 * d.2 * cfg.item.size ≤ isizeMax) (hs' : d'.1 * d'.2 * cfg.item.size ≤ isizeMax)
    (hs'' : d.1 * d'.2 * cfg.item.size ≤ isizeMax) (A B : Arr α)
    (hA : ∀ i l, i < a.layout.dim.1 → l < a.layout.dim.2 → a.get cfg mem i l = .ok (A i l))
    (hB : ∀ l j, l < b.layout.dim.1 → j < b.layout.dim.2 → b.get cfg mem l j = .ok (B l j)) :
    ∃ va vb R mem1 R' mem2 P mem3, a.block cfg tl d = .ok va ∧ b.block cfg tl' d' = .ok vb ∧
      (Mat.base va).eval cfg mem = .ok (R, mem1) ∧ (Mat.base vb).eval cfg mem1 = .ok (R', mem2) ∧
      dot cfg exactKern .matMat R R' mem2 = .ok (P, mem3) ∧
      ∀ i j, i < d.1 → j < d'.2 → P.get cfg mem3 i j =
        .ok (∑ l ∈ Finset.range d.2, A (tl.1 + i) (tl.2 + l) * B (tl'.1 + l) (tl'.2 + j)) := by
  obtain ⟨va, ea, da, -, sa, -, ga⟩ := C26_block_is_submatrix cfg a mem ha hma hca tl d hf h1 h2
  obtain ⟨vb, eb, db, -, sb, -, gb⟩ := C26_block_is_submatrix cfg b mem hb hmb hcb tl' d' hf'
    (by omega) h2'
  have hkind : ∀ {x v : BaseMatrix} {t s : Nat × Nat}, IsMajor x.layout → Contiguous x.layout →
      Sound x mem → Fits x.layout t s → 1 ≤ s.1 → 1 ≤ s.2 → x.block cfg t s = .ok v →
      v.layout.indexKind = .rowMajor ∨ v.layout.indexKind = .columnMajor := by
    intro x v t s hm hc hx hfit p1 p2 he
    obtain ⟨w, ew, hv, -⟩ := (view_of_contiguous hx hm hc).block cfg hfit p1 p2
    obtain rfl : v = w := by simpa [he] using ew
    have := hv.major
    revert this
    cases v.layout <;> simp [IsMajor, Layout.indexKind]
  obtain ⟨R, mem1, R', mem2, P, mem3, e1, e2, e3, -, -, hval⟩ := C66_product_of_evaluated cfg (.leaf va)
    (.leaf vb) mem (.base va) (.base vb) trivial trivial (by simpa [Ex.leaves] using sa)
    (by simpa [Ex.leaves] using sb) rfl rfl (hkind hma hca ha hf h1 h2 ea)
    (hkind hmb hcb hb hf' (by omega) h2' eb) (by simpa [Ex.dim, da, db] using hd)
    (by simpa [Ex.dim, da] using hs) (by simpa [Ex.dim, db] using hs')
    (by simpa [Ex.dim, da, db] using hs'') (fun i j => A (tl.1 + i) (tl.2 + j))
    (fun i j => B (tl'.1 + i) (tl'.2 + j)) (by
      intro i l hi hl
      simp only [Ex.dim, da] at hi hl
      show va.get cfg mem i l = _
      rw [ga mem le_rfl i l, if_pos ⟨hi, hl⟩]
      exact hA _ _ (by have := hf.1; omega) (by have := hf.2; omega)) (by
      intro i l hi hl
      simp only [Ex.dim, db] at hi hl
      show vb.get cfg mem i l = _
      rw [gb mem le_rfl i l, if_pos ⟨hi, hl⟩]
      exact hB _ _ (by have := hf'.1; omega) (by have := hf'.2; omega))
  refine ⟨va, vb, R, mem1, R', mem2, P, mem3, ea, eb, e1, e2, e3, ?_⟩
  simpa only [Ex.dim, da, db] using hval

/-- The block `[1 2; 4 5]` whose product C45 gets wrong: evaluated first, times the unit matrix it is
itself again. -/
example : (do
    let v ← (⟨⟨0, 0, 6⟩, .rowMajor ⟨(2, 3)⟩, .dynamic, .dynamic⟩ : BaseMatrix).block dbg (0, 0) (2, 2)
    let (R, mem) ← (Mat.base v).eval dbg exMem45
    let (P, mem) ← dot dbg exactKern .matMat R ⟨⟨1, 0, 4⟩, .rowMajor ⟨(2, 2)⟩, .dynamic, .dynamic⟩ mem
    P.data.toList mem) = .ok [1, 2, 4, 5] := by decide

/-- The block `[2 3; 5 6]` of `[1 2 3; 4 5 6]` times the block `[10 30; 20 40]`, which is the whole of a
column-major matrix. -/
example : ∃ va vb R mem1 R' mem2 P mem3, exRow.block dbg (0, 1) (2, 2) = .ok va ∧
    exCol.block dbg (0, 0) (2, 2) = .ok vb ∧ (Mat.base va).eval dbg exMem = .ok (R, mem1) ∧
    (Mat.base vb).eval dbg mem1 = .ok (R', mem2) ∧
    dot dbg exactKern .matMat R R' mem2 = .ok (P, mem3) ∧ P.get dbg mem3 1 0 = .ok (5 * 20 + 6 * 30) := by
  have hr : ∀ i l, i < exRow.layout.dim.1 → l < exRow.layout.dim.2 →
      exRow.get dbg exMem i l = .ok (3 * i + l + 1 : Int) := by
    have : ∀ i < 2, ∀ l < 3, exRow.get dbg exMem i l = .ok (3 * i + l + 1 : Int) := by decide
    exact fun i l hi hl => this i hi l hl
  have hc : ∀ l j, l < exCol.layout.dim.1 → j < exCol.layout.dim.2 →
      exCol.get dbg exMem l j = .ok (20 * j + 10 * l + 20 : Int) := by
    have : ∀ l < 2, ∀ j < 2, exCol.get dbg exMem l j = .ok (20 * j + 10 * l + 20 : Int) := by decide
    exact fun l j hl hj => this l hl j hj
  obtain ⟨va, vb, R, mem1, R', mem2, P, mem3, e1, e2, e3, e4, e5, h⟩ :=
    C66_product_of_blocks dbg exRow exCol exMem
      (sound_of_contiguous trivial ⟨by decide, by decide⟩ (by decide))
      (sound_of_contiguous trivial ⟨by decide, by decide⟩ (by decide)) trivial trivial trivial trivial
      (0, 1) (2, 2) (0, 0) (2, 2) ⟨by decide, by decide⟩ ⟨by decide, by decide⟩ (by decide) (by decide) (by decide) rfl
      (by decide) (by decide) (by decide) _ _ hr hc
  refine ⟨va, vb, R, mem1, R', mem2, P, mem3, e1, e2, e3, e4, e5, ?_⟩
  rw [h 1 0 (by decide) (by decide)]
  simp [Finset.sum_range_succ]

/-- Twice `[1 2 3; 4 5 6]`, evaluated, and evaluated again. -/
example : ∃ R mem1 S mem2, (Mat.scalarMult (.ref (.base exRow)) 2).eval dbg exMem = .ok (R, mem1) ∧
    (Mat.base R).eval dbg mem1 = .ok (S, mem2) ∧ S.layout = R.layout ∧ Fresh S mem1 := by
  obtain ⟨R, mem1, S, mem2, e1, e2, e3, e4, -⟩ := C66_eval_twice dbg (.scale true true 2 (.leaf exRow)) exMem
    (.scalarMult (.ref (.base exRow)) 2) trivial
    (by
      have : Sound exRow exMem := sound_of_contiguous trivial ⟨by decide, by decide⟩ (by decide)
      simpa [Ex.leaves] using this) rfl nofun
    (by decide)
  exact ⟨R, mem1, S, mem2, e1, e2, e3, e4⟩

end Householder.Props
