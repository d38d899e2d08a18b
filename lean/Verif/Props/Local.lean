import Verif.Spec.Local
import Verif.Props.Turned

/-!
# C105: an element of a product depends on its row, its column and the old element only
-/

namespace Householder.Props

open Spec

variable {α : Type}

theorem get_of_represents [Target] {m : BaseMatrix} {mem : Mem α} {A : Arr α} (h : Sound m mem)
    (hA : Represents m mem A) (ht : NotTriangular m.layout) (cfg : Cfg) {r c : Nat} (hr : r < m.layout.dim.1)
    (hc : c < m.layout.dim.2) : m.get cfg mem r c = .ok (A r c) :=
  h.get cfg ((stored_of_notTri ht).2 ⟨hr, hc⟩) (hA r c ((stored_of_notTri ht).2 ⟨hr, hc⟩))

theorem terms_eq [Target] {cfg : Cfg} {a b a' b' : BaseMatrix} {mem mem' : Mem α} {A B A' B' : Arr α}
    (ha : Sound a mem) (hb : Sound b mem) (ha' : Sound a' mem') (hb' : Sound b' mem')
    (ta : NotTriangular a.layout) (tb : NotTriangular b.layout) (ta' : NotTriangular a'.layout)
    (tb' : NotTriangular b'.layout) (hA : Represents a mem A) (hB : Represents b mem B)
    (hA' : Represents a' mem' A') (hB' : Represents b' mem' B') (hd : a.layout.dim.2 = b.layout.dim.1)
    (hd' : a'.layout.dim.2 = b'.layout.dim.1) {i j i' j' : Nat} (hi : i < a.layout.dim.1) (hj : j < b.layout.dim.2)
    (hi' : i' < a'.layout.dim.1) (hj' : j' < b'.layout.dim.2) (hr : SameRow cfg a mem i a' mem' i')
    (hc : SameColumn cfg b mem j b' mem' j') :
    ((List.range a.layout.dim.2).map fun l => (A i l, B l j)) =
      (List.range a'.layout.dim.2).map fun l => (A' i' l, B' l j') := by
  rw [← hr.1]
  refine List.map_congr_left fun l hl => ?_
  have hl := List.mem_range.1 hl
  have h1 := hr.2 l hl
  have h2 := hc.2 l (by omega)
  have := hr.1
  rw [get_of_represents ha hA ta cfg hi hl, get_of_represents ha' hA' ta' cfg hi' (by omega)] at h1
  rw [get_of_represents hb hB tb cfg (by omega) hj, get_of_represents hb' hB' tb' cfg (by omega) hj'] at h2
  rw [Out.ok.inj h1, Out.ok.inj h2]

/-- **C105, matmul.** An element of a product is decided by its row of `a`, its column of `b`, the old element,
`alpha` and `beta`: two products for which these are the same have the same element, to the last bit, whatever
else the matrices hold, whatever their layouts and wherever they are stored. The shape of the result and the
position in it matter only as far as the kernel looks at them. -/
theorem C105_matmul [Target] (kern : Kern α) (cfg : Cfg) (alpha beta : α) (a b c a' b' c' : BaseMatrix)
    (mem mem' : Mem α) (h : Factors a b c mem) (h' : Factors a' b' c' mem') :
    ∃ m1 m1', matmul kern alpha a b beta c mem = .ok m1 ∧ matmul kern alpha a' b' beta c' mem' = .ok m1' ∧
      ∀ i j i' j', i < c.layout.dim.1 → j < c.layout.dim.2 → i' < c'.layout.dim.1 → j' < c'.layout.dim.2 →
        SameRow cfg a mem i a' mem' i' → SameColumn cfg b mem j b' mem' j' →
        c.get cfg mem i j = c'.get cfg mem' i' j' →
        kern ⟨c.layout.dim.1, c.layout.dim.2, i, j⟩ = kern ⟨c'.layout.dim.1, c'.layout.dim.2, i', j'⟩ →
        ∃ v, c.get cfg m1 i j = .ok v ∧ c'.get cfg m1' i' j' = .ok v := by
  have : Nonempty α := ⟨alpha⟩
  obtain ⟨A, hA⟩ := represents_some h.left
  obtain ⟨B, hB⟩ := represents_some h.right
  obtain ⟨C, hC⟩ := represents_some h.result
  obtain ⟨A', hA'⟩ := represents_some h'.left
  obtain ⟨B', hB'⟩ := represents_some h'.right
  obtain ⟨C', hC'⟩ := represents_some h'.result
  obtain ⟨m1, e1, hf1, hr1⟩ := matmul_honest (kern := kern) (alpha := alpha) (beta := beta) h.left h.right h.result
    h.left_honest h.right_honest h.result_honest h.single h.shapes h.apart_left h.apart_right hA hB hC
  obtain ⟨m1', e1', hf1', hr1'⟩ := matmul_honest (kern := kern) (alpha := alpha) (beta := beta) h'.left h'.right
    h'.result h'.left_honest h'.right_honest h'.result_honest h'.single h'.shapes h'.apart_left h'.apart_right
    hA' hB' hC'
  refine ⟨m1, m1', e1, e1', fun i j i' j' hi hj hi' hj' hr hc ho hk => ?_⟩
  obtain ⟨d1, d2, d3⟩ := h.shapes
  obtain ⟨d1', d2', d3'⟩ := h'.shapes
  rw [get_of_represents h.result hC h.result_honest.notTri cfg hi hj,
    get_of_represents h'.result hC' h'.result_honest.notTri cfg hi' hj'] at ho
  have hC0 : C i j = C' i' j' := Out.ok.inj ho
  have ht := terms_eq h.left h.right h'.left h'.right h.left_honest.notTri h.right_honest.notTri
    h'.left_honest.notTri h'.right_honest.notTri hA hB hA' hB' d1 d1' (by omega) (by omega) (by omega) (by omega) hr hc
  refine ⟨_, get_of_represents (h.result.mono (by rw [hf1.size])) hr1 h.result_honest.notTri cfg hi hj, ?_⟩
  rw [get_of_represents (h'.result.mono (by rw [hf1'.size])) hr1' h'.result_honest.notTri cfg hi' hj', ht, hC0, hk]

/-- **C105, reference.** The same for the reference product of the unit tests, without any condition on positions. -/
theorem C105_reference [Target] [Add α] [Mul α] (cfg : Cfg) (alpha beta : α) (a b c a' b' c' : BaseMatrix)
    (mem mem' : Mem α) (h : Factors a b c mem) (h' : Factors a' b' c' mem') :
    ∃ m1 m1', matmul_expect cfg alpha a b beta c mem = .ok m1 ∧
      matmul_expect cfg alpha a' b' beta c' mem' = .ok m1' ∧
      ∀ i j i' j', i < c.layout.dim.1 → j < c.layout.dim.2 → i' < c'.layout.dim.1 → j' < c'.layout.dim.2 →
        SameRow cfg a mem i a' mem' i' → SameColumn cfg b mem j b' mem' j' →
        c.get cfg mem i j = c'.get cfg mem' i' j' →
        ∃ v, c.get cfg m1 i j = .ok v ∧ c'.get cfg m1' i' j' = .ok v := by
  have : Nonempty α := ⟨alpha⟩
  obtain ⟨A, hA⟩ := represents_some h.left
  obtain ⟨B, hB⟩ := represents_some h.right
  obtain ⟨C, hC⟩ := represents_some h.result
  obtain ⟨A', hA'⟩ := represents_some h'.left
  obtain ⟨B', hB'⟩ := represents_some h'.right
  obtain ⟨C', hC'⟩ := represents_some h'.result
  obtain ⟨m1, e1, hf1, hr1⟩ := matmul_expect_any cfg alpha beta h.left h.right h.result h.left_honest.notTri
    h.right_honest.notTri h.result_honest.notTri h.single h.shapes h.apart_left h.apart_right hA hB hC
  obtain ⟨m1', e1', hf1', hr1'⟩ := matmul_expect_any cfg alpha beta h'.left h'.right h'.result h'.left_honest.notTri
    h'.right_honest.notTri h'.result_honest.notTri h'.single h'.shapes h'.apart_left h'.apart_right hA' hB' hC'
  refine ⟨m1, m1', e1, e1', fun i j i' j' hi hj hi' hj' hr hc ho => ?_⟩
  obtain ⟨d1, d2, d3⟩ := h.shapes
  obtain ⟨d1', d2', d3'⟩ := h'.shapes
  rw [get_of_represents h.result hC h.result_honest.notTri cfg hi hj,
    get_of_represents h'.result hC' h'.result_honest.notTri cfg hi' hj'] at ho
  have hC0 : C i j = C' i' j' := Out.ok.inj ho
  have ht := terms_eq h.left h.right h'.left h'.right h.left_honest.notTri h.right_honest.notTri
    h'.left_honest.notTri h'.right_honest.notTri hA hB hA' hB' d1 d1' (by omega) (by omega) (by omega) (by omega) hr hc
  refine ⟨_, get_of_represents (h.result.mono (by rw [hf1.size])) hr1 h.result_honest.notTri cfg hi hj, ?_⟩
  rw [get_of_represents (h'.result.mono (by rw [hf1'.size])) hr1' h'.result_honest.notTri cfg hi' hj']
  simp only [← accumulate_loop (site := ⟨0, 0, 0, 0⟩)]
  rw [ht, hC0]

/-- **C105, dot.** The same for `a.dot(&b)`, whichever of the three implementations the two products use: a row
vector times a matrix gives what the row would give inside a matrix. -/
theorem C105_dot [Target] [Zero α] [One α] (kern : Kern α) (cfg : Cfg) (t t' : DotImpl) (a b a' b' : BaseMatrix)
    (mem mem' : Mem α) (ha : Sound a mem) (hb : Sound b mem) (ha' : Sound a' mem') (hb' : Sound b' mem')
    (hoa : Honest a.layout) (hob : Honest b.layout) (hoa' : Honest a'.layout) (hob' : Honest b'.layout)
    (hd : a.layout.dim.2 = b.layout.dim.1) (hd' : a'.layout.dim.2 = b'.layout.dim.1)
    (hv : VectorShape t a b) (hv' : VectorShape t' a' b')
    (hsz : a.layout.dim.1 * b.layout.dim.2 * cfg.item.size ≤ isizeMax)
    (hsz' : a'.layout.dim.1 * b'.layout.dim.2 * cfg.item.size ≤ isizeMax) :
    ∃ M m1 M' m1', dot cfg kern t a b mem = .ok (M, m1) ∧ dot cfg kern t' a' b' mem' = .ok (M', m1') ∧
      ∀ i j i' j', i < a.layout.dim.1 → j < b.layout.dim.2 → i' < a'.layout.dim.1 → j' < b'.layout.dim.2 →
        SameRow cfg a mem i a' mem' i' → SameColumn cfg b mem j b' mem' j' →
        kern ⟨a.layout.dim.1, b.layout.dim.2, i, j⟩ = kern ⟨a'.layout.dim.1, b'.layout.dim.2, i', j'⟩ →
        ∃ v, M.get cfg m1 i j = .ok v ∧ M'.get cfg m1' i' j' = .ok v := by
  have : Nonempty α := ⟨0⟩
  obtain ⟨A, hA⟩ := represents_some ha
  obtain ⟨B, hB⟩ := represents_some hb
  obtain ⟨A', hA'⟩ := represents_some ha'
  obtain ⟨B', hB'⟩ := represents_some hb'
  obtain ⟨M, m1, e, hl, hnew, hrep⟩ := dot_kern kern ha hb hoa hob hd hv hsz hA hB
  obtain ⟨M', m1', e', hl', hnew', hrep'⟩ := dot_kern kern ha' hb' hoa' hob' hd' hv' hsz' hA' hB'
  have hdim := productLayout_dim hv
  have hdim' := productLayout_dim hv'
  have hnt := (productLayout_props t a.layout.dim.1 b.layout.dim.2).2.2.notTri
  have hnt' := (productLayout_props t' a'.layout.dim.1 b'.layout.dim.2).2.2.notTri
  rw [← hl] at hdim hnt
  rw [← hl'] at hdim' hnt'
  refine ⟨M, m1, M', m1', e, e', fun i j i' j' hi hj hi' hj' hr hc hk => ?_⟩
  have ht := terms_eq ha hb ha' hb' hoa.notTri hob.notTri hoa'.notTri hob'.notTri hA hB hA' hB' hd hd' hi hj hi' hj'
    hr hc
  refine ⟨_, get_of_represents hnew.sound hrep hnt cfg (by rw [hdim]; exact hi) (by rw [hdim]; exact hj), ?_⟩
  rw [get_of_represents hnew'.sound hrep' hnt' cfg (by rw [hdim']; exact hi') (by rw [hdim']; exact hj'), ht, hk]

/-! ## Kernels that look at the position -/

/-- A kernel that sums from the first term to the last in row 0, and from the last to the first with fused
multiply-adds in the other rows. -/
def positionKern : Kern (Num754 .f64) := fun site => if site.i = 0 then loopKern site else
  fusedKern (Num754.ieee754 .f64).toIeee 0 site

/-- **C105, position.** The condition on the kernel is needed: one that computes in the allowed orders but chooses
the order by the position gives different elements for equal rows. -/
theorem C105_position [Target] :
    Exactly (Num754.ieee754 .f64) (Num754.ieee754 .f64).toIeee positionKern ∧
    (positionKern ⟨2, 1, 0, 0⟩ 1 [(.ofRat (2 ^ 53), 1), (1, 1), (1, 1)] 0 0).1 = .fin false (2 ^ 53) ∧
    (positionKern ⟨2, 1, 1, 0⟩ 1 [(.ofRat (2 ^ 53), 1), (1, 1), (1, 1)] 0 0).1 = .fin false (2 ^ 53 + 2) := by
  refine ⟨fun site alpha ps beta c => ?_, by decide +kernel, by decide +kernel⟩
  unfold positionKern
  split
  · exact loopKern_exactly _ _ site alpha ps beta c
  · exact fusedKern_exactly _ _ _ rfl site alpha ps beta c

/-! ## Examples -/

/-- A 2x1 matrix in the `n`-th allocation. -/
def exTwoRows (n : Nat) : BaseMatrix := ⟨⟨n, 0, 2⟩, .rowMajor ⟨(2, 1)⟩, .dynamic, .dynamic⟩

theorem exTwoRows_factors [Target] (x w y z u : α) :
    Factors (exTwoRows 0) (exSign 1) (exTwoRows 2) (⟨[[x, w], [y], [z, u]]⟩ : Mem α) where
  left := sound_of_contiguous trivial ⟨by show 0 + 2 ≤ 2; omega, by decide_width⟩ (by decide)
  right := sound_of_contiguous trivial ⟨by show 0 + 1 ≤ 1; omega, by decide_width⟩ (by decide)
  result := sound_of_contiguous trivial ⟨by show 0 + 2 ≤ 2; omega, by decide_width⟩ (by decide)
  left_honest := trivial
  right_honest := trivial
  result_honest := trivial
  single := trivial
  shapes := ⟨rfl, rfl, rfl⟩
  apart_left := fun _ _ _ _ _ _ h => absurd (show 2 = 0 from congrArg Loc.buf h) (by decide)
  apart_right := fun _ _ _ _ _ _ h => absurd (show 2 = 1 from congrArg Loc.buf h) (by decide)

theorem exSign_factors [Target] (x y z : α) :
    Factors (exSign 0) (exSign 1) (exSign 2) (⟨[[x], [y], [z]]⟩ : Mem α) where
  left := sound_of_contiguous trivial ⟨by show 0 + 1 ≤ 1; omega, by decide_width⟩ (by decide)
  right := sound_of_contiguous trivial ⟨by show 0 + 1 ≤ 1; omega, by decide_width⟩ (by decide)
  result := sound_of_contiguous trivial ⟨by show 0 + 1 ≤ 1; omega, by decide_width⟩ (by decide)
  left_honest := trivial
  right_honest := trivial
  result_honest := trivial
  single := trivial
  shapes := ⟨rfl, rfl, rfl⟩
  apart_left := fun _ _ _ _ _ _ h => absurd (show 2 = 0 from congrArg Loc.buf h) (by decide)
  apart_right := fun _ _ _ _ _ _ h => absurd (show 2 = 1 from congrArg Loc.buf h) (by decide)

/-- Row 0 of the 2x1 matrix is the row of the 1x1 matrix, and the column of `b` is the same. -/
theorem exSameLine (x w y z u : α) :
    SameRow dbg (exTwoRows 0) (⟨[[x, w], [y], [z, u]]⟩ : Mem α) 0 (exSign 0) ⟨[[x], [y], [z]]⟩ 0 ∧
    SameColumn dbg (exSign 1) (⟨[[x, w], [y], [z, u]]⟩ : Mem α) 0 (exSign 1) ⟨[[x], [y], [z]]⟩ 0 := by
  refine ⟨⟨rfl, fun l hl => ?_⟩, rfl, fun l hl => ?_⟩ <;> obtain rfl : l = 0 := Nat.lt_one_iff.1 hl <;> rfl

/-- By `C105_matmul`, whatever `w` and `u` are (NaN, say): the first element of
`alpha * [x; w] * [y] + beta * [z; u]` is the element of `alpha * [x] * [y] + beta * [z]`. -/
example (kern : Kern α) (hk : ∀ s s', kern s = kern s') (alpha beta x w y z u : α) :
    ∃ m1 m1' v, matmul kern alpha (exTwoRows 0) (exSign 1) beta (exTwoRows 2) ⟨[[x, w], [y], [z, u]]⟩ = .ok m1 ∧
      matmul kern alpha (exSign 0) (exSign 1) beta (exSign 2) ⟨[[x], [y], [z]]⟩ = .ok m1' ∧
      (exTwoRows 2).get dbg m1 0 0 = .ok v ∧ (exSign 2).get dbg m1' 0 0 = .ok v := by
  obtain ⟨m1, m1', e, e', h⟩ := C105_matmul kern dbg alpha beta _ _ _ _ _ _ _ _ (exTwoRows_factors x w y z u)
    (exSign_factors x y z)
  obtain ⟨v, h1, h2⟩ := h 0 0 0 0 (by decide) (by decide) (by decide) (by decide) (exSameLine x w y z u).1
    (exSameLine x w y z u).2 rfl (hk _ _)
  exact ⟨m1, m1', v, e, e', h1, h2⟩

/-- The same by `C105_reference`. -/
example [Add α] [Mul α] (alpha beta x w y z u : α) :
    ∃ m1 m1' v, matmul_expect dbg alpha (exTwoRows 0) (exSign 1) beta (exTwoRows 2) ⟨[[x, w], [y], [z, u]]⟩ = .ok m1 ∧
      matmul_expect dbg alpha (exSign 0) (exSign 1) beta (exSign 2) ⟨[[x], [y], [z]]⟩ = .ok m1' ∧
      (exTwoRows 2).get dbg m1 0 0 = .ok v ∧ (exSign 2).get dbg m1' 0 0 = .ok v := by
  obtain ⟨m1, m1', e, e', h⟩ := C105_reference dbg alpha beta _ _ _ _ _ _ _ _ (exTwoRows_factors x w y z u)
    (exSign_factors x y z)
  obtain ⟨v, h1, h2⟩ := h 0 0 0 0 (by decide) (by decide) (by decide) (by decide) (exSameLine x w y z u).1
    (exSameLine x w y z u).2 rfl
  exact ⟨m1, m1', v, e, e', h1, h2⟩

/-- By `C105_dot` the first element of `[x; w].dot(&[y])` is that of `[x].dot(&[y])`, where `[x]` is a row vector. -/
example [Zero α] [One α] (kern : Kern α) (hk : ∀ s s', kern s = kern s') (x w y : α) :
    ∃ M m1 M' m1' v, dot dbg kern .matMat (exTwoRows 0) (exSign 1) ⟨[[x, w], [y], [x, x]]⟩ = .ok (M, m1) ∧
      dot dbg kern .rowMat (exSign 0) (exSign 1) ⟨[[x], [y], [x]]⟩ = .ok (M', m1') ∧
      M.get dbg m1 0 0 = .ok v ∧ M'.get dbg m1' 0 0 = .ok v := by
  have h := exTwoRows_factors x w y x x
  have h' := exSign_factors x y x
  obtain ⟨M, m1, M', m1', e, e', g⟩ := C105_dot kern dbg .matMat .rowMat (exTwoRows 0) (exSign 1) (exSign 0) (exSign 1)
    _ _ h.left h.right h'.left h'.right trivial trivial trivial trivial rfl rfl trivial rfl (by decide) (by decide)
  obtain ⟨v, h1, h2⟩ := g 0 0 0 0 (by decide) (by decide) (by decide) (by decide) (exSameLine x w y x x).1
    (exSameLine x w y x x).2 (hk _ _)
  exact ⟨M, m1, M', m1', v, e, e', h1, h2⟩

end Householder.Props
