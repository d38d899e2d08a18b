import Verif.Lemmas.Views
import Verif.Props.Access

/-!
# Properties C26–C33, C54, C57: blocks, splits, matrices from pointers

The specification (`Spec.ShowsAt`, `Spec.Within`, `Spec.Fits`, `Spec.ArrViews`) is in
`Verif/Spec/Views.lean`.
-/

namespace Householder.Props

open Spec

variable {α : Type}

/-- 4 × 4 numbers. -/
def exMem4 : Mem Int := ⟨[[0, 1, 2, 3, 4, 5, 6, 7, 8, 9, 10, 11, 12, 13, 14, 15]]⟩
/-- A 4 × 4 row-major matrix. -/
def exFour : BaseMatrix := ⟨⟨0, 0, 16⟩, .rowMajor ⟨(4, 4)⟩, .dynamic, .dynamic⟩

theorem exFour_sound [Target] : Sound exFour exMem4 :=
  sound_of_contiguous trivial ⟨by decide_width, by decide_width⟩ (by decide_width)

theorem stored_iff {l : Layout} (hm : IsMajor l) {r c : Nat} :
    Stored l r c ↔ r < l.dim.1 ∧ c < l.dim.2 := stored_of_notTri hm.notTri

/-! ## C26 -/

/-- **C26.** A non-empty block that fits in a row- or column-major matrix exists, has the
requested dimension, and its element `(i, j)` is the element `top_left + (i, j)` of the matrix:
the same cell, so the same value whatever is stored later; outside its own dimension it panics. -/
theorem C26_block_is_submatrix [Target] (cfg : Cfg) (m : BaseMatrix) (mem : Mem α) (h : Sound m mem)
    (hm : IsMajor m.layout) (hc : Contiguous m.layout) (tl d : Nat × Nat)
    (hf : Fits m.layout tl d) (h1 : 1 ≤ d.1) (h2 : 1 ≤ d.2) :
    ∃ b, m.block cfg tl d = .ok b ∧ b.layout.dim = d ∧ ShowsAt b m tl.1 tl.2 ∧
      Sound b mem ∧ NonOverlapping b.layout ∧
      ∀ mem' : Mem α, mem.size m.data.buf ≤ mem'.size m.data.buf → ∀ i j,
        b.get cfg mem' i j =
          if i < d.1 ∧ j < d.2 then m.get cfg mem' (tl.1 + i) (tl.2 + j) else .panic := by
  obtain ⟨b, e, hv, hw, hl, hd, hno, -⟩ := (view_of_contiguous h hm hc).block cfg hf h1 h2
  have hdim : b.layout.dim = d := by rw [hl, blockLayout_dim]
  have hs : ShowsAt b m tl.1 tl.2 :=
    block_shows hm (contiguous_tight hm hc) hl (by rw [hd]) (by rw [hd])
  refine ⟨b, e, hdim, hs, hv.sound, hno, ?_⟩
  intro mem' hsz i j
  by_cases hij : i < d.1 ∧ j < d.2
  · rw [if_pos hij]
    have hb' : Sound b mem' := hv.sound.mono (by rw [hw.1]; exact hsz)
    have hm' : Sound m mem' := h.mono hsz
    have st1 : Stored b.layout i j := (stored_iff hv.major).2 (by rw [hdim]; exact hij)
    have st2 : Stored m.layout (tl.1 + i) (tl.2 + j) := (stored_iff hm).2 (by
      have := hf.1; have := hf.2; omega)
    obtain ⟨v, hv'⟩ := hm'.elem_some st2
    rw [hm'.get cfg st2 hv', hb'.get cfg st1]
    rw [elem, hs i j (by rw [hdim]; exact hij.1) (by rw [hdim]; exact hij.2)]
    exact hv'
  · rw [if_neg hij]
    exact get_panic cfg b mem' (by rw [hdim]; exact hij)

example : Fits exFour.layout (1, 2) (3, 2) ∧
    (exFour.block rel (1, 2) (3, 2) >>= fun b => b.get rel exMem4 2 1) = .ok 15 ∧
    exFour.get rel exMem4 3 3 = .ok 15 := ⟨⟨by decide, by decide⟩, by decide, by decide⟩
example : (exCol.block dbg (1, 0) (1, 2) >>= fun b => b.get dbg exMem 0 1) = .ok 50 ∧
    exCol.get dbg exMem 1 1 = .ok 50 := by decide

/-! ## C27 -/

/-- The full statement of C27. -/
def C27_statement [Target] : Prop :=
  ∀ (cfg : Cfg) (m : BaseMatrix) (mem : Mem Int) (tl d : Nat × Nat), Sound m mem →
    IsMajor m.layout → Contiguous m.layout → tl.1 < W → tl.2 < W → d.1 < W → d.2 < W →
    (¬ Fits m.layout tl d → m.block cfg tl d = .panic) ∧
    (Fits m.layout tl d → 1 ≤ d.1 → 1 ≤ d.2 → ∃ b, m.block cfg tl d = .ok b)

/-- **C27 is false of the code**: without overflow checks `top_left + dim` wraps around, and
`block` of a 2 × 3 matrix with `top_left = (usize::MAX, 0)`, `dim = (2, 1)` computes a pointer
outside the matrix instead of panicking. -/
theorem C27_false [Target] : ¬ C27_statement := by
  intro h
  have := (h rel exRow exMem (W - 1, 0) (2, 1) exRow_sound trivial trivial (by decide_width)
    (by decide_width) (by decide_width) (by decide_width)).1 (by
      rintro ⟨h1, -⟩
      have h1 : W - 1 + 2 ≤ 2 := h1
      have := W_ge
      omega)
  have hu : exRow.block rel (W - 1, 0) (2, 1) = .ub := by decide_width
  rw [hu] at this
  simp at this

/-- **C27, partial**: with overflow checks, or for arguments that do not wrap, `block` panics for
every block that does not fit and succeeds for every non-empty one that does. Missing: wrapping
arguments in release builds (`C27_false`). -/
theorem C27_partial [Target] (cfg : Cfg) (m : BaseMatrix) (mem : Mem α) (h : Sound m mem)
    (hm : IsMajor m.layout) (hc : Contiguous m.layout) (tl d : Nat × Nat)
    (hmode : cfg.overflowChecks = true ∨ (tl.1 + d.1 < W ∧ tl.2 + d.2 < W)) :
    (¬ Fits m.layout tl d → m.block cfg tl d = .panic) ∧
    (Fits m.layout tl d → 1 ≤ d.1 → 1 ≤ d.2 → ∃ b, m.block cfg tl d = .ok b) := by
  refine ⟨block_panic_of_not_fits cfg m hmode, ?_⟩
  intro hf h1 h2
  obtain ⟨b, e, -⟩ := (view_of_contiguous h hm hc).block cfg hf h1 h2
  exact ⟨b, e⟩

/-- The exact outcome for empty blocks that fit, with overflow checks: a panic, except when the
corner's raw index is beyond the container, where computing the pointer is already undefined.
(For a row-major matrix that fills its container, that is the case for every `top_left` in the
row below the last one but the first.) -/
theorem C27_empty [Target] (cfg : Cfg) (hcheck : cfg.overflowChecks = true) (m : BaseMatrix)
    (hm : IsMajor m.layout) (tl d : Nat × Nat) (hW : tl.1 + d.1 < W ∧ tl.2 + d.2 < W)
    (hf : Fits m.layout tl d) (hd : d.1 = 0 ∨ d.2 = 0) :
    m.block cfg tl d =
      if m.data.len < raw m.layout tl.1 tl.2 ∧ raw m.layout tl.1 tl.2 < W then .ub else .panic :=
  block_empty cfg hcheck hm hW hf hd

example : exRow.block dbg (2, 1) (0, 2) = .ub ∧ exRow.block dbg (2, 0) (0, 3) = .panic ∧
    exRow.block dbg (0, 3) (2, 0) = .panic := by decide

example : exRow.block dbg (1, 1) (1, 3) = .panic ∧ exRow.block rel (1, 1) (2, 2) = .panic ∧
    exRow.block dbg (W - 1, 0) (2, 1) = .panic ∧ exRow.block dbg (1, 1) (1, 0) = .panic ∧
    exRow.block rel (1, 1) (1, 2) =
      .ok ⟨⟨0, 4, 2⟩, .asRowMajor ⟨(1, 2), (3, 1)⟩, .dynamic, .dynamic⟩ := by decide

/-! ## C28 -/

/-- The full statement of C28. -/
def C28_statement [Target] : Prop :=
  ∀ (cfg : Cfg) (m b1 b2 : BaseMatrix) (mem : Mem Int) (tl1 d1 tl2 d2 : Nat × Nat), Sound m mem →
    IsMajor m.layout → Contiguous m.layout → Fits m.layout tl1 d1 → m.block cfg tl1 d1 = .ok b1 →
    Fits b1.layout tl2 d2 → b1.block cfg tl2 d2 = .ok b2 → ∀ i j, i < d2.1 → j < d2.2 →
    b2.get cfg mem i j = m.get cfg mem (tl1.1 + tl2.1 + i) (tl1.2 + tl2.2 + j)

/-- **C28 is false of the code**: `stride` of an arbitrary-stride layout is computed from its
dimension instead of its stride, so a block of a block takes its rows too close together. In a
4 × 4 matrix the block at `(1, 0)` of the top-left 3 × 3 block reads its second row from element
`(1, 3)` of the matrix instead of `(2, 0)`. -/
theorem C28_false [Target] : ¬ C28_statement := by
  intro h
  have := h dbg exFour ⟨⟨0, 0, 11⟩, .asRowMajor ⟨(3, 3), (4, 1)⟩, .dynamic, .dynamic⟩
    ⟨⟨0, 4, 5⟩, .asRowMajor ⟨(2, 2), (3, 1)⟩, .dynamic, .dynamic⟩ exMem4 (0, 0) (3, 3) (1, 0) (2, 2)
    exFour_sound trivial trivial ⟨by decide_width, by decide_width⟩ (by decide_width) ⟨by decide_width, by decide_width⟩
    (by decide_width) 1 0 (by decide_width) (by decide_width)
  revert this
  decide_width

/-- **C28, partial**: a block of a block starts at the right element and its element `(i, j)` is
`d1.2 * i + j` cells further (row-major; `i + d1.1 * j` in the column-major case). It is therefore
the right element exactly in its first row, or when the outer block spans all columns of the
matrix (row-major; the transposed condition in the column-major case). -/
theorem C28_partial [Target] (cfg : Cfg) (m : BaseMatrix) (mem : Mem α) (h : Sound m mem)
    (hm : IsMajor m.layout) (hc : Contiguous m.layout) (tl1 d1 tl2 d2 : Nat × Nat)
    (hf1 : Fits m.layout tl1 d1) (hp1 : 1 ≤ d1.1) (hp2 : 1 ≤ d1.2)
    (hf2 : tl2.1 + d2.1 ≤ d1.1 ∧ tl2.2 + d2.2 ≤ d1.2) (hp3 : 1 ≤ d2.1) (hp4 : 1 ≤ d2.2) :
    ∃ b1 b2, m.block cfg tl1 d1 = .ok b1 ∧ b1.block cfg tl2 d2 = .ok b2 ∧ b2.layout.dim = d2 ∧
      (∀ R C, m.layout = .rowMajor ⟨(R, C)⟩ → ∀ i j, i < d2.1 → j < d2.2 →
        cell b2 i j = ⟨m.data.buf,
          (cell m (tl1.1 + tl2.1) (tl1.2 + tl2.2)).idx + (d1.2 * i + j)⟩ ∧
        (cell b2 i j = cell m (tl1.1 + tl2.1 + i) (tl1.2 + tl2.2 + j) ↔ i = 0 ∨ d1.2 = C)) ∧
      (∀ R C, m.layout = .columnMajor ⟨(R, C)⟩ → ∀ i j, i < d2.1 → j < d2.2 →
        cell b2 i j = ⟨m.data.buf,
          (cell m (tl1.1 + tl2.1) (tl1.2 + tl2.2)).idx + (i + d1.1 * j)⟩ ∧
        (cell b2 i j = cell m (tl1.1 + tl2.1 + i) (tl1.2 + tl2.2 + j) ↔ j = 0 ∨ d1.1 = R)) ∧
      (∀ mem' : Mem α, mem.size m.data.buf ≤ mem'.size m.data.buf → ∀ i j, i < d2.1 → j < d2.2 →
        cell b2 i j = cell m (tl1.1 + tl2.1 + i) (tl1.2 + tl2.2 + j) →
        b2.get cfg mem' i j = m.get cfg mem' (tl1.1 + tl2.1 + i) (tl1.2 + tl2.2 + j)) := by
  obtain ⟨b1, e1, hv1, hw1, hl1, hd1, -, -⟩ := (view_of_contiguous h hm hc).block cfg hf1 hp1 hp2
  have hdim1 : b1.layout.dim = d1 := by rw [hl1, blockLayout_dim]
  obtain ⟨b2, e2, hv2, hw2, hl2, hd2, -, -⟩ := hv1.block cfg (tl := tl2) (d := d2)
    (by rw [Fits, hdim1]; exact hf2) hp3 hp4
  have hdim2 : b2.layout.dim = d2 := by rw [hl2, blockLayout_dim]
  refine ⟨b1, b2, e1, e2, hdim2, ?_, ?_, ?_⟩
  · intro R C hR i j _ _
    have h1 : b1.layout = .asRowMajor ⟨d1, (C, 1)⟩ := by rw [hl1, hR]; rfl
    have h2 : b2.layout = .asRowMajor ⟨d2, (d1.2, 1)⟩ := by rw [hl2, h1]; rfl
    have hraw : m.data.off + raw m.layout tl1.1 tl1.2 + raw b1.layout tl2.1 tl2.2 =
        m.data.off + raw m.layout (tl1.1 + tl2.1) (tl1.2 + tl2.2) := by
      rw [hR, h1]; simp only [raw]; ring
    have hcell : cell b2 i j = ⟨m.data.buf,
        (cell m (tl1.1 + tl2.1) (tl1.2 + tl2.2)).idx + (d1.2 * i + j)⟩ := by
      simp only [cell, hd2, hd1, h2, Loc.mk.injEq, true_and]
      rw [hraw]; simp only [raw]; ring
    refine ⟨hcell, ?_⟩
    rw [hcell]
    simp only [cell, Loc.mk.injEq, true_and, hR, raw]
    constructor
    · intro e
      have e' : d1.2 * i = C * i := by
        have : (tl1.1 + tl2.1 + i) * C = (tl1.1 + tl2.1) * C + C * i := by ring
        omega
      rcases Nat.eq_zero_or_pos i with hi | hi
      · exact .inl hi
      · exact .inr (Nat.eq_of_mul_eq_mul_right hi e')
    · rintro (rfl | hC)
      · simp; omega
      · subst hC; ring
  · intro R C hR i j _ _
    have h1 : b1.layout = .asColumnMajor ⟨d1, (1, R)⟩ := by rw [hl1, hR]; rfl
    have h2 : b2.layout = .asColumnMajor ⟨d2, (1, d1.1)⟩ := by rw [hl2, h1]; rfl
    have hraw : m.data.off + raw m.layout tl1.1 tl1.2 + raw b1.layout tl2.1 tl2.2 =
        m.data.off + raw m.layout (tl1.1 + tl2.1) (tl1.2 + tl2.2) := by
      rw [hR, h1]; simp only [raw]; ring
    have hcell : cell b2 i j = ⟨m.data.buf,
        (cell m (tl1.1 + tl2.1) (tl1.2 + tl2.2)).idx + (i + d1.1 * j)⟩ := by
      simp only [cell, hd2, hd1, h2, Loc.mk.injEq, true_and]
      rw [hraw]; simp only [raw]; ring
    refine ⟨hcell, ?_⟩
    rw [hcell]
    simp only [cell, Loc.mk.injEq, true_and, hR, raw]
    constructor
    · intro e
      have e' : d1.1 * j = R * j := by
        have : (tl1.2 + tl2.2 + j) * R = (tl1.2 + tl2.2) * R + R * j := by ring
        omega
      rcases Nat.eq_zero_or_pos j with hi | hi
      · exact .inl hi
      · exact .inr (Nat.eq_of_mul_eq_mul_right hi e')
    · rintro (rfl | hC)
      · simp; omega
      · subst hC; ring
  · intro mem' hsz i j hi hj hcell
    have hm' : Sound m mem' := h.mono hsz
    have hb' : Sound b2 mem' := hv2.sound.mono (by rw [hw2.1, hw1.1]; exact hsz)
    have st1 : Stored b2.layout i j := (stored_iff hv2.major).2 (by rw [hdim2]; exact ⟨hi, hj⟩)
    have st2 : Stored m.layout (tl1.1 + tl2.1 + i) (tl1.2 + tl2.2 + j) := (stored_iff hm).2 (by
      have := hf1.1; have := hf1.2; omega)
    obtain ⟨v, hv'⟩ := hm'.elem_some st2
    rw [hm'.get cfg st2 hv', hb'.get cfg st1]
    rw [elem, hcell]
    exact hv'

/-- A full-width outer block: the inner one is right. -/
example : (do
    let b1 ← exFour.block dbg (1, 0) (3, 4)
    let b2 ← b1.block dbg (1, 1) (2, 2)
    b2.get dbg exMem4 1 1) = .ok 14 ∧ exFour.get dbg exMem4 3 2 = .ok 14 := by decide

/-! ## C29 -/

/-- Taking blocks of blocks. -/
def nest [Target] (cfg : Cfg) (m : BaseMatrix) (args : List ((Nat × Nat) × (Nat × Nat))) : Out BaseMatrix :=
  args.foldlM (fun b a => b.block cfg a.1 a.2) m

/-- The full statement of C29. -/
def C29_statement [Target] : Prop :=
  ∀ (cfg : Cfg) (m : BaseMatrix) (mem : Mem Int) (args : List ((Nat × Nat) × (Nat × Nat))),
    Sound m mem → IsMajor m.layout → Contiguous m.layout →
    (∀ a ∈ args, a.1.1 < W ∧ a.1.2 < W ∧ a.2.1 < W ∧ a.2.2 < W) →
    nest cfg m args ≠ .ub ∧
    ∀ b, nest cfg m args = .ok b → Within b m ∧ Sound b mem ∧
      ∀ i j, b.get cfg mem i j ≠ .ub ∧ b.get_mut cfg i j ≠ .ub

/-- **C29 is false of the code** already for one block: in release builds because of wrapping
(`C27_false`), and in both modes for an empty block below the last row, `block((2, 1), (0, 2))` of
a 2 × 3 matrix, which computes a pointer beyond the end of the matrix before it panics. -/
theorem C29_false [Target] : ¬ C29_statement ∧ nest dbg exRow [((2, 1), (0, 2))] = .ub := by
  refine ⟨fun h => ?_, by decide_width⟩
  have := (h rel exRow exMem [((W - 1, 0), (2, 1))] exRow_sound trivial trivial (by decide_width)).1
  exact this (by decide_width)

theorem access_ne_ub [Target] (cfg : Cfg) {b : BaseMatrix} {mem : Mem α} (h : Sound b mem) (i j : Nat) :
    b.get cfg mem i j ≠ .ub ∧ b.get_mut cfg i j ≠ .ub := by
  by_cases hs : Stored b.layout i j
  · obtain ⟨v, hv⟩ := h.elem_some hs
    rw [h.get cfg hs hv, h.get_mut cfg hs]
    simp
  · obtain ⟨h1, h2⟩ := not_stored_panic cfg b mem hs
    rw [h1, h2]
    simp

theorem within_refl (m : BaseMatrix) : Within m m := ⟨rfl, le_refl _, le_refl _⟩

theorem within_trans {a b c : BaseMatrix} (h : Within a b) (h' : Within b c) : Within a c :=
  ⟨h.1.trans h'.1, le_trans h'.2.1 h.2.1, le_trans h.2.2 h'.2.2⟩

/-- One more block. -/
theorem block_step [Target] (cfg : Cfg) {m : BaseMatrix} {mem : Mem α} (hv : View m mem) (tl d : Nat × Nat)
    (hne : 1 ≤ d.1 ∧ 1 ≤ d.2)
    (hmode : cfg.overflowChecks = true ∨ (tl.1 + d.1 < W ∧ tl.2 + d.2 < W)) :
    m.block cfg tl d = .panic ∨ ∃ b, m.block cfg tl d = .ok b ∧ View b mem ∧ Within b m := by
  by_cases hf : Fits m.layout tl d
  · obtain ⟨b, e, h1, h2, -⟩ := hv.block cfg hf hne.1 hne.2
    exact .inr ⟨b, e, h1, h2⟩
  · exact .inl (block_panic_of_not_fits cfg m hmode hf)

theorem nest_view [Target] (cfg : Cfg) {m : BaseMatrix} {mem : Mem α} (hv : View m mem)
    (args : List ((Nat × Nat) × (Nat × Nat)))
    (hne : ∀ a ∈ args, 1 ≤ a.2.1 ∧ 1 ≤ a.2.2)
    (hmode : cfg.overflowChecks = true ∨
      ∀ a ∈ args, a.1.1 + a.2.1 < W ∧ a.1.2 + a.2.2 < W) :
    nest cfg m args = .panic ∨ ∃ b, nest cfg m args = .ok b ∧ View b mem ∧ Within b m := by
  induction args generalizing m with
  | nil => exact .inr ⟨m, rfl, hv, within_refl m⟩
  | cons a args ih =>
    simp only [nest, List.foldlM_cons]
    rcases block_step cfg hv a.1 a.2 (hne a (by simp)) (hmode.imp id fun h => h a (by simp)) with
      e | ⟨b, e, h1, h2⟩
    · left; rw [e]; rfl
    · rw [e, Out.bind_ok]
      rcases ih h1 (fun a' ha' => hne a' (by simp [ha'])) (hmode.imp id fun h a' ha' => h a' (by simp [ha'])) with e' | ⟨b', e', h3, h4⟩
      · exact .inl e'
      · exact .inr ⟨b', e', h3, within_trans h4 h2⟩

/-- **C29, partial**: with overflow checks, or for bounds that do not wrap, taking non-empty
blocks of blocks to any depth never leaves memory; every view obtained lies inside the
one it was taken of and inside the original matrix, and all of its accesses stay in its window.
Missing: empty blocks, and wrapping arguments in release builds (`C29_false`). -/
theorem C29_partial [Target] (cfg : Cfg) (m : BaseMatrix) (mem : Mem α) (h : Sound m mem)
    (hm : IsMajor m.layout) (hc : Contiguous m.layout) (args : List ((Nat × Nat) × (Nat × Nat)))
    (hne : ∀ a ∈ args, 1 ≤ a.2.1 ∧ 1 ≤ a.2.2)
    (hmode : cfg.overflowChecks = true ∨
      ∀ a ∈ args, a.1.1 + a.2.1 < W ∧ a.1.2 + a.2.2 < W) :
    nest cfg m args ≠ .ub ∧
    ∀ b, nest cfg m args = .ok b →
      Within b m ∧
      (∀ i j, Stored b.layout i j → raw b.layout i j < b.data.len) ∧
      (∀ mem' : Mem α, mem.size m.data.buf ≤ mem'.size m.data.buf → ∀ i j,
        b.get cfg mem' i j ≠ .ub ∧ b.get_mut cfg i j ≠ .ub) ∧
      (∀ tl d b', 1 ≤ d.1 → 1 ≤ d.2 → cfg.overflowChecks = true → b.block cfg tl d = .ok b' → Within b' b) := by
  rcases nest_view cfg (view_of_contiguous h hm hc) args hne hmode with e | ⟨b, e, hv, hw⟩
  · rw [e]; exact ⟨by simp, fun b hb => by simp at hb⟩
  · rw [e]
    refine ⟨by simp, ?_⟩
    rintro b0 hb0
    obtain rfl : b = b0 := by simpa using hb0
    refine ⟨hw, hv.sound.inside, ?_, ?_⟩
    · intro mem' hsz i j
      exact access_ne_ub cfg (hv.sound.mono (by rw [hw.1]; exact hsz)) i j
    · intro tl d b' p1 p2 hc' hb'
      rcases block_step cfg hv tl d ⟨p1, p2⟩ (.inl hc') with e' | ⟨b'', e', -, h2⟩
      · rw [e'] at hb'; simp at hb'
      · rw [e'] at hb'; obtain rfl : b'' = b' := by simpa using hb'
        exact h2

example : nest dbg exFour [((1, 0), (3, 3)), ((1, 1), (2, 2)), ((0, 1), (2, 1))] =
    .ok ⟨⟨0, 10, 3⟩, .asRowMajor ⟨(2, 1), (2, 1)⟩, .dynamic, .dynamic⟩ := by decide

/-! ## C30 -/

/-- **C30.** Writing through a mutable block makes exactly that element of the matrix have the
new value. -/
theorem C30_block_write [Target] (cfg : Cfg) (m : BaseMatrix) (mem : Mem α) (h : Sound m mem)
    (hm : IsMajor m.layout) (hc : Contiguous m.layout) (tl d : Nat × Nat)
    (hf : Fits m.layout tl d) (i j : Nat) (hi : i < d.1) (hj : j < d.2) (v : α) :
    ∃ b mem', m.block cfg tl d = .ok b ∧ b.set cfg mem i j v = .ok mem' ∧
      b.set1d cfg mem (index b.layout i j) v = .ok mem' ∧
      m.get cfg mem' (tl.1 + i) (tl.2 + j) = .ok v ∧
      (∀ r c, ¬ (r = tl.1 + i ∧ c = tl.2 + j) → m.get cfg mem' r c = m.get cfg mem r c) ∧
      (∀ q, q ≠ cell m (tl.1 + i) (tl.2 + j) → mem'.get? q = mem.get? q) := by
  obtain ⟨b, e, hdim, hs, hb, hno, -⟩ := C26_block_is_submatrix cfg m mem h hm hc tl d hf
    (by omega) (by omega)
  have hbm : IsMajor b.layout := by
    obtain ⟨b', e', -, -, hl, -⟩ := (view_of_contiguous h hm hc).block cfg hf
      (by omega) (by omega)
    rw [e] at e'
    obtain rfl : b = b' := by simpa using e'
    rw [hl]; exact blockLayout_major _ _
  have st1 : Stored b.layout i j := (stored_iff hbm).2 (by rw [hdim]; exact ⟨hi, hj⟩)
  have st2 : Stored m.layout (tl.1 + i) (tl.2 + j) := (stored_iff hm).2 (by
    have := hf.1; have := hf.2; omega)
  have hcell := hs i j (by rw [hdim]; exact hi) (by rw [hdim]; exact hj)
  obtain ⟨mem1, hw1, hw2, -, -, -, hq⟩ := C19_read_your_writes cfg b mem hb hno i j st1 v
  obtain ⟨mem2, hw3, -, hg, ho, -, -⟩ := C19_read_your_writes cfg m mem h
    (contiguous_nonOverlapping hc) _ _ st2 v
  have hmm : mem1 = mem2 := by
    have h1 : b.set cfg mem i j v = mem.write (cell b i j) v := by
      simp [BaseMatrix.set, hb.get_mut cfg st1]
    have h2 : m.set cfg mem (tl.1 + i) (tl.2 + j) v =
        mem.write (cell m (tl.1 + i) (tl.2 + j)) v := by
      simp [BaseMatrix.set, h.get_mut cfg st2]
    rw [h1, hcell, ← h2, hw3] at hw1
    simpa using hw1.symm
  subst hmm
  exact ⟨b, mem1, e, hw1, hw2, hg, ho, by rw [← hcell]; exact hq⟩

example : (do
    let b ← exFour.block dbg (1, 2) (2, 2)
    let mem ← b.set dbg exMem4 1 0 99
    exFour.get dbg mem 2 2) = .ok 99 := by decide

/-! ## C31 -/

/-- The four parts, as blocks. -/
theorem split_blocks [Target] (cfg : Cfg) {m : BaseMatrix} {mem : Mem α} (h : Sound m mem) {R C : Nat}
    (hl : m.layout = .rowMajor ⟨(R, C)⟩) {s : Nat × Nat} (h1 : 0 < s.1) (h2 : s.1 < R)
    (h3 : 0 < s.2) (h4 : s.2 < C) :
    ∃ q, m.split_in_four_mut cfg s = .ok q ∧
      ∀ k, m.block cfg (origin s k) (shape R C s k) = .ok (quad q k) ∧
        Fits m.layout (origin s k) (shape R C s k) ∧ 1 ≤ (shape R C s k).1 ∧
        1 ≤ (shape R C s k).2 := by
  obtain ⟨b0, b1, b2, b3, e, e0, e1, e2, e3⟩ := split_ok h cfg hl h1 h2 h3 h4
  refine ⟨_, e, ?_⟩
  have hF : ∀ tl d : Nat × Nat, tl.1 + d.1 ≤ R → tl.2 + d.2 ≤ C → Fits m.layout tl d := by
    intro tl d h1 h2; rw [Fits, hl]; exact ⟨h1, h2⟩
  intro k
  match k with
  | 0 => exact ⟨e0, hF _ _ (by simp only [origin, shape]; omega) (by simp only [origin, shape]; omega),
      by simp only [shape]; omega, by simp only [shape]; omega⟩
  | 1 => exact ⟨e1, hF _ _ (by simp only [origin, shape]; omega) (by simp only [origin, shape]; omega),
      by simp only [shape]; omega, by simp only [shape]; omega⟩
  | 2 => exact ⟨e2, hF _ _ (by simp only [origin, shape]; omega) (by simp only [origin, shape]; omega),
      by simp only [shape]; omega, by simp only [shape]; omega⟩
  | 3 => exact ⟨e3, hF _ _ (by simp only [origin, shape]; omega) (by simp only [origin, shape]; omega),
      by simp only [shape]; omega, by simp only [shape]; omega⟩

/-- Every position belongs to exactly one of the four parts. -/
theorem quadrant (R C : Nat) (s : Nat × Nat) (hR : s.1 ≤ R) (hC : s.2 ≤ C) (r c : Nat) (hr : r < R)
    (hc : c < C) :
    ∃! k, ∃ i j, i < (shape R C s k).1 ∧ j < (shape R C s k).2 ∧ (origin s k).1 + i = r ∧
      (origin s k).2 + j = c := by
  have huniq : ∀ k, (∃ i j, i < (shape R C s k).1 ∧ j < (shape R C s k).2 ∧
      (origin s k).1 + i = r ∧ (origin s k).2 + j = c) →
      k = (if r < s.1 then (if c < s.2 then 0 else 1) else (if c < s.2 then 2 else 3)) := by
    rintro k ⟨i, j, h1, h2, h3, h4⟩
    match k with
    | 0 => simp only [shape, origin] at *; rw [if_pos (by omega), if_pos (by omega)]
    | 1 => simp only [shape, origin] at *; rw [if_pos (by omega), if_neg (by omega)]
    | 2 => simp only [shape, origin] at *; rw [if_neg (by omega), if_pos (by omega)]
    | 3 => simp only [shape, origin] at *; rw [if_neg (by omega), if_neg (by omega)]
  refine ⟨_, ?_, huniq⟩
  by_cases h1 : r < s.1
  · by_cases h2 : c < s.2
    · simp only [if_pos h1, if_pos h2]; exact ⟨r, c, h1, h2, by simp [origin], by simp [origin]⟩
    · simp only [if_pos h1, if_neg h2]
      exact ⟨r, c - s.2, h1, by simp only [shape]; omega, by simp [origin],
        by simp only [origin]; omega⟩
  · by_cases h2 : c < s.2
    · simp only [if_neg h1, if_pos h2]
      exact ⟨r - s.1, c, by simp only [shape]; omega, h2, by simp only [origin]; omega,
        by simp [origin]⟩
    · simp only [if_neg h1, if_neg h2]
      exact ⟨r - s.1, c - s.2, by simp only [shape]; omega, by simp only [shape]; omega,
        by simp only [origin]; omega, by simp only [origin]; omega⟩

/-- **C31.** At an interior point, `split_in_four_mut` returns four views of the documented
shapes that show the corresponding parts of the matrix; every element of the matrix is shown by
exactly one of them; writing through one changes exactly the corresponding element of the matrix
and no element of the other three. -/
theorem C31_split_partition [Target] (cfg : Cfg) (m : BaseMatrix) (mem : Mem α) (h : Sound m mem) (R C : Nat)
    (hl : m.layout = .rowMajor ⟨(R, C)⟩) (s : Nat × Nat) (h1 : 0 < s.1) (h2 : s.1 < R)
    (h3 : 0 < s.2) (h4 : s.2 < C) :
    ∃ q, m.split_in_four_mut cfg s = .ok q ∧
      (∀ k, (quad q k).layout.dim = shape R C s k ∧
        ShowsAt (quad q k) m (origin s k).1 (origin s k).2) ∧
      (∀ k, ∀ mem' : Mem α, mem.size m.data.buf ≤ mem'.size m.data.buf → ∀ i j,
        (quad q k).get cfg mem' i j = if i < (shape R C s k).1 ∧ j < (shape R C s k).2
          then m.get cfg mem' ((origin s k).1 + i) ((origin s k).2 + j) else .panic) ∧
      (∀ r c, r < R → c < C → ∃! k, ∃ i j, i < (shape R C s k).1 ∧ j < (shape R C s k).2 ∧
        cell (quad q k) i j = cell m r c) ∧
      (∀ k i j v, i < (shape R C s k).1 → j < (shape R C s k).2 → ∃ mem',
        (quad q k).set cfg mem i j v = .ok mem' ∧
        m.get cfg mem' ((origin s k).1 + i) ((origin s k).2 + j) = .ok v ∧
        (∀ r c, ¬ (r = (origin s k).1 + i ∧ c = (origin s k).2 + j) →
          m.get cfg mem' r c = m.get cfg mem r c) ∧
        (∀ k', k' ≠ k → ∀ i' j',
          (quad q k').get cfg mem' i' j' = (quad q k').get cfg mem i' j')) := by
  obtain ⟨q, e, hb⟩ := split_blocks cfg h hl h1 h2 h3 h4
  have hm : IsMajor m.layout := by rw [hl]; trivial
  have hc : Contiguous m.layout := by rw [hl]; trivial
  have key : ∀ k, (quad q k).layout.dim = shape R C s k ∧
      ShowsAt (quad q k) m (origin s k).1 (origin s k).2 ∧
      ∀ mem' : Mem α, mem.size m.data.buf ≤ mem'.size m.data.buf → ∀ i j,
        (quad q k).get cfg mem' i j = if i < (shape R C s k).1 ∧ j < (shape R C s k).2
          then m.get cfg mem' ((origin s k).1 + i) ((origin s k).2 + j) else .panic := by
    intro k
    obtain ⟨hk, hf, p1, p2⟩ := hb k
    obtain ⟨b, e', a1, a2, -, -, a3⟩ := C26_block_is_submatrix cfg m mem h hm hc _ _ hf p1 p2
    rw [hk] at e'
    obtain rfl : quad q k = b := by simpa using e'
    exact ⟨a1, a2, a3⟩
  refine ⟨q, e, fun k => ⟨(key k).1, (key k).2.1⟩, fun k => (key k).2.2, ?_, ?_⟩
  · intro r c hr hcc
    obtain ⟨k, ⟨i, j, a1, a2, a3, a4⟩, hu⟩ := quadrant R C s (by omega) (by omega) r c hr hcc
    refine ⟨k, ⟨i, j, a1, a2, ?_⟩, ?_⟩
    · rw [(key k).2.1 i j (by rw [(key k).1]; exact a1) (by rw [(key k).1]; exact a2), a3, a4]
    · rintro k' ⟨i', j', b1, b2, b3⟩
      apply hu
      rw [(key k').2.1 i' j' (by rw [(key k').1]; exact b1) (by rw [(key k').1]; exact b2)] at b3
      have hf := (hb k').2.1
      rw [Fits, hl] at hf
      obtain ⟨x, y⟩ := cell_inj (contiguous_nonOverlapping hc)
        ((stored_iff hm).2 (by rw [hl]; simp only [Layout.dim] at *; omega))
        ((stored_iff hm).2 (by rw [hl]; exact ⟨hr, hcc⟩)) b3
      exact ⟨i', j', b1, b2, x, y⟩
  · intro k i j v hi hj
    obtain ⟨hk, hf, p1, p2⟩ := hb k
    obtain ⟨b, mem', e', w1, -, w2, w3, w4⟩ := C30_block_write cfg m mem h hm hc _ _ hf i j hi hj v
    rw [hk] at e'
    obtain rfl : quad q k = b := by simpa using e'
    have hsz : mem.size m.data.buf ≤ mem'.size m.data.buf := by
      have : ∃ p, mem.write p v = .ok mem' := by
        simp only [BaseMatrix.set, Out.bind_eq_ok] at w1
        obtain ⟨p, -, hp⟩ := w1
        exact ⟨p, hp⟩
      obtain ⟨p, hp⟩ := this
      rw [(Mem.write_ok_upd hp).size]
    refine ⟨mem', w1, w2, w3, ?_⟩
    intro k' hne i' j'
    rw [(key k').2.2 mem' hsz, (key k').2.2 mem (le_refl _)]
    split
    · rename_i hij
      apply w3
      rintro ⟨x, y⟩
      have hf' := (hb k').2.1
      rw [Fits, hl] at hf'
      simp only [Layout.dim] at hf'
      obtain ⟨k0, -, hu⟩ := quadrant R C s (by omega) (by omega) ((origin s k').1 + i')
        ((origin s k').2 + j') (by omega) (by omega)
      have u1 := hu k' ⟨i', j', hij.1, hij.2, rfl, rfl⟩
      have u2 := hu k ⟨i, j, hi, hj, x.symm, y.symm⟩
      exact hne (u1.trans u2.symm)
    · rfl

example : (do
    let q ← exFour.split_in_four_mut dbg (1, 3)
    let mem ← (quad q 2).set dbg exMem4 2 1 99
    exFour.get dbg mem 3 1) = .ok 99 := by decide

/-! ## C32 -/

/-- The full statement of C32. -/
def C32_statement [Target] : Prop :=
  ∀ (cfg : Cfg) (m : BaseMatrix) (mem : Mem Int) (R C : Nat) (s : Nat × Nat), Sound m mem →
    m.layout = .rowMajor ⟨(R, C)⟩ → s.1 < W → s.2 < W → (R < s.1 ∨ C < s.2) →
    m.split_in_four_mut cfg s = .panic

/-- **C32 is false of the code** in release builds: `split_in_four_mut` has no bounds check but
the overflow check of the subtractions. Splitting a 2 × 3 matrix at `(5, 1)` leaves it. -/
theorem C32_false [Target] : ¬ C32_statement := by
  intro h
  have := h rel exRow exMem 2 3 (5, 1) exRow_sound rfl (by decide_width) (by decide_width) (by decide_width)
  revert this
  decide_width

/-- **C32, partial**: with overflow checks every split point that is not in the interior makes
`split_in_four_mut` panic. Missing: release builds (`C32_false`). -/
theorem C32_partial [Target] (cfg : Cfg) (hc : cfg.overflowChecks = true) (m : BaseMatrix) (mem : Mem α)
    (h : Sound m mem) (R C : Nat) (hl : m.layout = .rowMajor ⟨(R, C)⟩) (s : Nat × Nat) :
    (m.split_in_four_mut cfg s = .panic ↔ ¬ (0 < s.1 ∧ s.1 < R ∧ 0 < s.2 ∧ s.2 < C)) ∧
    m.split_in_four_mut cfg s ≠ .ub := by
  by_cases hs : 0 < s.1 ∧ s.1 < R ∧ 0 < s.2 ∧ s.2 < C
  · obtain ⟨b0, b1, b2, b3, e, -⟩ := split_ok h cfg hl hs.1 hs.2.1 hs.2.2.1 hs.2.2.2
    rw [e]
    simp [hs]
  · rw [split_panic h cfg hc hl hs]
    simp [hs]

example : exFour.split_in_four_mut dbg (4, 2) = .panic ∧
    exFour.split_in_four_mut dbg (5, 2) = .panic ∧ exFour.split_in_four_mut dbg (0, 2) = .panic := by
  decide

/-! ## C33 -/

/-- The cell `q` is in the memory window of `b`, hence reachable through `b.get_slice_mut`
(C15). -/
def InWindow (q : Loc) (b : BaseMatrix) : Prop :=
  q.buf = b.data.buf ∧ b.data.off ≤ q.idx ∧ q.idx < b.data.off + b.data.len

/-- Two views share a memory cell. -/
def Share (b b' : BaseMatrix) : Prop := ∃ q, InWindow q b ∧ InWindow q b'

/-- The full statement of C33: the memory that safe methods (`get_slice_mut` reaches the whole
window) of the four views expose is disjoint. -/
def C33_statement [Target] : Prop :=
  ∀ (cfg : Cfg) (m : BaseMatrix) (mem : Mem Int) (R C : Nat) (s : Nat × Nat)
    (q : BaseMatrix × BaseMatrix × BaseMatrix × BaseMatrix), Sound m mem →
    m.layout = .rowMajor ⟨(R, C)⟩ → 0 < s.1 → s.1 < R → 0 < s.2 → s.2 < C →
    m.split_in_four_mut cfg s = .ok q → ∀ k k', k ≠ k' → ¬ Share (quad q k) (quad q k')

/-- **C33 is false of the code**: splitting a 4 × 4 matrix at `(2, 2)`, the container of the
top-left view spans both rows, so `get_slice_mut(2, 3)` of the top-left view and
`get_mut(0, 0)` of the top-right view are mutable references to the same element. -/
theorem C33_false [Target] : ¬ C33_statement := by
  intro h
  have e : exFour.split_in_four_mut dbg (2, 2) = .ok
      (⟨⟨0, 0, 6⟩, .asRowMajor ⟨(2, 2), (4, 1)⟩, .dynamic, .dynamic⟩,
       ⟨⟨0, 2, 6⟩, .asRowMajor ⟨(2, 2), (4, 1)⟩, .dynamic, .dynamic⟩,
       ⟨⟨0, 8, 6⟩, .asRowMajor ⟨(2, 2), (4, 1)⟩, .dynamic, .dynamic⟩,
       ⟨⟨0, 10, 6⟩, .asRowMajor ⟨(2, 2), (4, 1)⟩, .dynamic, .dynamic⟩) := by decide_width
  exact h dbg exFour exMem4 4 4 (2, 2) _ exFour_sound rfl (by decide_width) (by decide_width) (by decide_width)
    (by decide_width) e 0 1 (by decide_width)
    ⟨⟨0, 2⟩, ⟨rfl, by decide_width, by decide_width⟩, ⟨rfl, by decide_width, by decide_width⟩⟩

/-- The two mutable accesses of `C33_false`. -/
example : (exFour.split_in_four_mut dbg (2, 2) >>= fun q => (quad q 0).get_slice_mut 2 3) =
      .ok ⟨0, 2, 1⟩ ∧
    (exFour.split_in_four_mut dbg (2, 2) >>= fun q => (quad q 1).get_mut dbg 0 0) = .ok ⟨0, 2⟩ := by
  decide

/-- The windows of the four views. -/
theorem split_windows [Target] (cfg : Cfg) {m : BaseMatrix} {mem : Mem α} (h : Sound m mem) {R C : Nat}
    (hl : m.layout = .rowMajor ⟨(R, C)⟩) {s : Nat × Nat} (h1 : 0 < s.1) (h2 : s.1 < R)
    (h3 : 0 < s.2) (h4 : s.2 < C) :
    ∃ q, m.split_in_four_mut cfg s = .ok q ∧
      ∀ k, (quad q k).data = ⟨m.data.buf, m.data.off + ((origin s k).1 * C + (origin s k).2),
        C * ((shape R C s k).1 - 1) + ((shape R C s k).2 - 1) + 1⟩ := by
  obtain ⟨q, e, hb⟩ := split_blocks cfg h hl h1 h2 h3 h4
  refine ⟨q, e, fun k => ?_⟩
  obtain ⟨hk, hf, p1, p2⟩ := hb k
  obtain ⟨b, e', -, -, -, hd, -⟩ := (view_of_contiguous h (by rw [hl]; trivial)
    (by rw [hl]; trivial)).block cfg hf p1 p2
  rw [hk] at e'
  obtain rfl : quad q k = b := by simpa using e'
  rw [hd, hl]
  simp [raw, extent, tight]

/-- **C33, partial**: no two of the four views have an element in common; windows of a top and a
bottom view are disjoint; the windows of the two top views overlap exactly when they have two or
more rows, and so do those of the two bottom views. Missing: disjointness of the windows
in that case, which is false (`C33_false`). -/
theorem C33_partial [Target] (cfg : Cfg) (m : BaseMatrix) (mem : Mem α) (h : Sound m mem) (R C : Nat)
    (hl : m.layout = .rowMajor ⟨(R, C)⟩) (s : Nat × Nat) (h1 : 0 < s.1) (h2 : s.1 < R)
    (h3 : 0 < s.2) (h4 : s.2 < C) :
    ∃ q, m.split_in_four_mut cfg s = .ok q ∧
      (∀ k k', k ≠ k' → Separate (quad q k) (quad q k')) ∧
      (∀ k k' : Fin 4, k < 2 → 2 ≤ k' → ¬ Share (quad q k) (quad q k')) ∧
      (Share (quad q 0) (quad q 1) ↔ 2 ≤ s.1) ∧
      (Share (quad q 2) (quad q 3) ↔ 2 ≤ R - s.1) := by
  obtain ⟨q, e, hdim, -, hpart, -⟩ := C31_split_partition cfg m mem h R C hl s h1 h2 h3 h4
  obtain ⟨q', e', hw⟩ := split_windows cfg h hl h1 h2 h3 h4
  rw [e] at e'
  obtain rfl : q = q' := by simpa using e'
  obtain ⟨q', e', hb⟩ := split_blocks cfg h hl h1 h2 h3 h4
  rw [e] at e'
  obtain rfl : q = q' := by simpa using e'
  refine ⟨q, e, ?_, ?_, ?_, ?_⟩
  · intro k k' hne i j i' j' hs hs' hcell
    have d1 := hs.1; have d2 := hs.2.1; have d3 := hs'.1; have d4 := hs'.2.1
    rw [(hdim k).1] at d1 d2
    rw [(hdim k').1] at d3 d4
    have hc := (hdim k).2 i j hs.1 hs.2.1
    have hf := (hb k).2.1
    rw [Fits, hl] at hf
    simp only [Layout.dim] at hf
    obtain ⟨k0, -, hu⟩ := hpart ((origin s k).1 + i) ((origin s k).2 + j) (by omega) (by omega)
    exact hne ((hu k ⟨i, j, d1, d2, hc⟩).trans
      (hu k' ⟨i', j', d3, d4, by rw [← hcell, hc]⟩).symm)
  · have hrow : ∀ x, 1 ≤ x → C * (x - 1) + C = C * x := by
      intro x hx
      obtain ⟨y, rfl⟩ : ∃ y, x = y + 1 := ⟨x - 1, by omega⟩
      simp; ring
    have hr := hrow s.1 h1
    have hco : s.1 * C = C * s.1 := Nat.mul_comm _ _
    rintro k k' hk hk' ⟨p, ⟨-, a2, a3⟩, ⟨-, b2, b3⟩⟩
    rw [hw k] at a2 a3
    rw [hw k'] at b2 b3
    match k, k' with
    | 0, 2 => simp only [origin, shape] at *; omega
    | 0, 3 => simp only [origin, shape] at *; omega
    | 1, 2 => simp only [origin, shape] at *; omega
    | 1, 3 => simp only [origin, shape] at *; omega
    | 2, _ => exact absurd hk (by decide)
    | 3, _ => exact absurd hk (by decide)
    | 0, 0 => exact absurd hk' (by decide)
    | 0, 1 => exact absurd hk' (by decide)
    | 1, 0 => exact absurd hk' (by decide)
    | 1, 1 => exact absurd hk' (by decide)
  · constructor
    · rintro ⟨p, ⟨-, a2, a3⟩, ⟨-, b2, b3⟩⟩
      rw [hw] at a2 a3 b2 b3
      simp only [origin, shape] at *
      by_contra hlt
      have : s.1 = 1 := by omega
      simp [this] at *
      omega
    · intro hs
      have : C ≤ C * (s.1 - 1) := Nat.le_mul_of_pos_right C (by omega)
      refine ⟨⟨m.data.buf, m.data.off + s.2⟩, ⟨?_, ?_, ?_⟩, ⟨?_, ?_, ?_⟩⟩ <;> rw [hw] <;>
        simp only [origin, shape] <;> omega
  · constructor
    · rintro ⟨p, ⟨-, a2, a3⟩, ⟨-, b2, b3⟩⟩
      rw [hw] at a2 a3 b2 b3
      simp only [origin, shape] at *
      by_contra hlt
      have : R - s.1 = 1 := by omega
      simp [this] at *
      omega
    · intro hs
      have : C ≤ C * (R - s.1 - 1) := Nat.le_mul_of_pos_right C (by omega)
      refine ⟨⟨m.data.buf, m.data.off + (s.1 * C + s.2)⟩, ⟨?_, ?_, ?_⟩, ⟨?_, ?_, ?_⟩⟩ <;> rw [hw] <;>
        simp only [origin, shape] <;> omega

/-! ## C54 -/

/-- The full statement of C54 for the arbitrary-stride layouts. -/
def C54_statement [Target] : Prop :=
  ∀ (cfg : Cfg) (p : Ptr) (d s : Nat × Nat) (b : BaseMatrix), 1 ≤ d.1 → 1 ≤ d.2 → d.1 < W →
    d.2 < W → s.1 < W → s.2 < W → from_pointer_strided cfg p d (.asRowMajor ⟨d, s⟩) = .ok b →
    ∀ i j, i < d.1 → j < d.2 → raw b.layout i j < b.data.len

/-- **C54 is false of the code** in release builds: for 2 × 2 with strides `(W/2, W/2 + 3)` the
largest raw index wraps around to 3 and the slice gets length 4. -/
theorem C54_false [Target] : ¬ C54_statement := by
  intro h
  have := h rel ⟨⟨0, 0, 6⟩, 0⟩ (2, 2) (W / 2, W / 2 + 3)
    ⟨⟨0, 0, 4⟩, .asRowMajor ⟨(2, 2), (W / 2, W / 2 + 3)⟩, .dynamic, .dynamic⟩ (by decide) (by decide)
    (by decide_width) (by decide_width) (by decide_width) (by decide_width) (by decide_width) 1 0
    (by decide) (by decide)
  simp only [raw] at this
  have := W_ge
  omega

/-- The slice of `b` starts at `p` and its length is one more than the largest raw index of `b`. -/
def ExactSlice (p : Ptr) (l : Layout) (b : BaseMatrix) : Prop :=
  b.layout = l ∧ b.data.buf = p.prov.buf ∧ b.data.off = p.prov.off + p.off ∧
  (∀ i j, Stored l i j → raw l i j < b.data.len) ∧ ∃ i j, Stored l i j ∧ raw l i j + 1 = b.data.len

/-- **C54, partial**: with overflow checks, or when the size of the memory spanned fits in
`usize`, the slice that `from_pointer` creates for a non-empty matrix, contiguous or strided,
starts at the pointer and ends just after the last element. Missing: wrap-around in release
builds (`C54_false`). -/
theorem C54_partial [Target] (cfg : Cfg) (p : Ptr) (d s : Nat × Nat) (h1 : 1 ≤ d.1) (h2 : 1 ≤ d.2) :
    (∀ l b, l = .asRowMajor ⟨d, s⟩ ∨ l = .asColumnMajor ⟨d, s⟩ →
      (cfg.overflowChecks = true ∨ (d.1 - 1) * s.1 + (d.2 - 1) * s.2 + 1 < W) →
      from_pointer_strided cfg p d l = .ok b → ExactSlice p l b) ∧
    (∀ l b, l = .rowMajor ⟨d⟩ ∨ l = .columnMajor ⟨d⟩ →
      (cfg.overflowChecks = true ∨ d.1 * d.2 < W) →
      from_pointer cfg p d l = .ok b → ExactSlice p l b) := by
  have hdata : ∀ {x : Out Container} {l : Layout} {b : BaseMatrix},
      (x >>= fun data => from_data cfg .dynamic .dynamic data l) = .ok b →
      x = .ok b.data ∧ b.layout = l := by
    intro x l b h
    simp only [Out.bind_eq_ok, from_data, BaseMatrix.new] at h
    obtain ⟨data, hx, n, -, -, -, h4⟩ := h
    obtain rfl := (Out.ok.injEq _ _).mp h4
    exact ⟨hx, rfl⟩
  have hptr : ∀ {n : Nat} {c : Container}, p.from_raw_parts n = .ok c →
      c.buf = p.prov.buf ∧ c.off = p.prov.off + p.off ∧ c.len = n := by
    intro n c h
    unfold Ptr.from_raw_parts at h
    split at h
    · obtain rfl := (Out.ok.injEq _ _).mp h
      exact ⟨rfl, rfl, rfl⟩
    · simp at h
  constructor
  · intro l b hl hmode h
    have hm : IsMajor l := by rcases hl with rfl | rfl <;> trivial
    have hdim : l.dim = d := by rcases hl with rfl | rfl <;> rfl
    have hraw : raw l (d.1 - 1) (d.2 - 1) = (d.1 - 1) * s.1 + (d.2 - 1) * s.2 := by
      rcases hl with rfl | rfl <;> simp only [raw] <;> ring
    unfold from_pointer_strided at h
    rw [Cfg.sub_ok cfg h1, Out.bind_ok, Cfg.sub_ok cfg h2, Out.bind_ok] at h
    rcases convert_major_checked cfg hm (d.1 - 1) (d.2 - 1)
      (hmode.imp id fun h => by rw [hraw]; omega) with ⟨_, e⟩ | ⟨_, e⟩
    · rw [e, Out.bind_ok] at h
      rcases cfg_add_cases cfg (raw l (d.1 - 1) (d.2 - 1)) 1
        (hmode.imp id fun h => by rw [hraw]; omega) with ⟨_, e'⟩ | ⟨_, e'⟩
      · rw [e', Out.bind_ok] at h
        obtain ⟨g1, g2⟩ := hdata h
        obtain ⟨g3, g4, g5⟩ := hptr g1
        refine ⟨g2, g3, g4, ?_, d.1 - 1, d.2 - 1, (stored_iff hm).2 (by rw [hdim]; omega),
          g5.symm⟩
        intro i j hs
        have := raw_lt_extent hm hs.1 hs.2.1
        rw [g5]
        rw [extent, hdim, ← raw_steps hm] at this
        exact this
      · rw [e'] at h; simp at h
    · rw [e] at h; simp at h
  · intro l b hl hmode h
    have hm : IsMajor l := by rcases hl with rfl | rfl <;> trivial
    have hdim : l.dim = d := by rcases hl with rfl | rfl <;> rfl
    have hraw : raw l (d.1 - 1) (d.2 - 1) + 1 = d.1 * d.2 := by
      obtain ⟨x, hx⟩ : ∃ x, d.1 = x + 1 := ⟨d.1 - 1, by omega⟩
      obtain ⟨y, hy⟩ : ∃ y, d.2 = y + 1 := ⟨d.2 - 1, by omega⟩
      rcases hl with rfl | rfl <;> simp only [raw, hx, hy, Nat.add_sub_cancel] <;> ring
    unfold from_pointer at h
    have hmul : d.1 * d.2 < W := by
      rcases hmode with hc | hc
      · by_contra hw
        simp [Cfg.mul, Cfg.wrap, hc, hw] at h
      · exact hc
    rw [Cfg.mul_ok cfg hmul, Out.bind_ok] at h
    obtain ⟨g1, g2⟩ := hdata h
    obtain ⟨g3, g4, g5⟩ := hptr g1
    refine ⟨g2, g3, g4, ?_, d.1 - 1, d.2 - 1, (stored_iff hm).2 (by rw [hdim]; omega),
      by rw [g5]; exact hraw⟩
    intro i j hs
    have := raw_lt_extent hm hs.1 hs.2.1
    rw [g5, ← hraw]
    rw [extent, hdim, ← raw_steps hm] at this
    exact this

example : from_pointer_strided rel ⟨⟨0, 2, 14⟩, 3⟩ (2, 3) (.asColumnMajor ⟨(2, 3), (1, 4)⟩) =
    .ok ⟨⟨0, 5, 10⟩, .asColumnMajor ⟨(2, 3), (1, 4)⟩, .dynamic, .dynamic⟩ := by decide
example : from_pointer rel ⟨⟨0, 2, 14⟩, 3⟩ (2, 3) (.rowMajor ⟨(2, 3)⟩) =
    .ok ⟨⟨0, 5, 6⟩, .rowMajor ⟨(2, 3)⟩, .dynamic, .dynamic⟩ := by decide

/-! ## C57 -/

/-- The arguments for which creating a view is defined: non-empty blocks, and without overflow
checks blocks that do not wrap around and interior splits. -/
def Sane [Target] (cfg : Cfg) (R C : Nat) : ViewOp α → Prop
  | .block tl d => 1 ≤ d.1 ∧ 1 ≤ d.2 ∧
      (cfg.overflowChecks = true ∨ (tl.1 + d.1 < W ∧ tl.2 + d.2 < W))
  | .split p => cfg.overflowChecks = true ∨ (0 < p.1 ∧ p.1 < R ∧ 0 < p.2 ∧ p.2 < C)
  | _ => True

/-- The layout of the matrix. -/
def majorLayout (byRow : Bool) (R C : Nat) : Layout :=
  if byRow then .rowMajor ⟨(R, C)⟩ else .columnMajor ⟨(R, C)⟩

/-- How a view in memory corresponds to an abstract view. -/
structure ViewRel [Target] (byRow : Bool) (m : BaseMatrix) (mem : Mem α) (b : BaseMatrix)
    (v : (Nat × Nat) × (Nat × Nat)) : Prop where
  sound : Sound b mem
  nonOverlapping : NonOverlapping b.layout
  major : IsMajor b.layout
  dim : b.layout.dim = v.2
  order : order b.layout = positions byRow v.2
  shows : ShowsAt b m v.1.1 v.1.2
  fits : Fits m.layout v.1 v.2

/-- The invariant. -/
structure ViewsRel [Target] (byRow : Bool) (m : BaseMatrix) (s : MemViews α) (a : ArrViews α) : Prop where
  sound : Sound m s.mem
  arr : Represents m s.mem a.arr
  views : List.Forall₂ (ViewRel byRow m s.mem) s.views a.views

theorem majorLayout_props (byRow : Bool) (R C : Nat) :
    IsMajor (majorLayout byRow R C) ∧ Contiguous (majorLayout byRow R C) ∧
    (majorLayout byRow R C).dim = (R, C) ∧
    order (majorLayout byRow R C) = positions byRow (R, C) ∧
    ∀ d, order (blockLayout (majorLayout byRow R C) d) = positions byRow d := by
  cases byRow <;> refine ⟨trivial, trivial, rfl, rfl, fun d => rfl⟩

theorem ViewRel.of_block [Target] {byRow : Bool} {R C : Nat} {m b : BaseMatrix} {mem : Mem α}
    (h : Sound m mem) (hl : m.layout = majorLayout byRow R C) (cfg : Cfg) {tl d : Nat × Nat}
    (hf : Fits m.layout tl d) (h1 : 1 ≤ d.1) (h2 : 1 ≤ d.2) (e : m.block cfg tl d = .ok b) :
    ViewRel byRow m mem b (tl, d) := by
  obtain ⟨p1, p2, p3, p4, p5⟩ := majorLayout_props byRow R C
  rw [← hl] at p1 p2 p3 p4 p5
  obtain ⟨b', e', hv, hw, hlb, hd, hno, -⟩ := (view_of_contiguous h p1 p2).block cfg hf h1 h2
  rw [e] at e'
  obtain rfl : b = b' := by simpa using e'
  exact ⟨hv.sound, hno, hv.major, by rw [hlb, blockLayout_dim], by rw [hlb, p5],
    block_shows p1 (contiguous_tight p1 p2) hlb (by rw [hd]) (by rw [hd]), hf⟩

theorem ViewRel.mono [Target] {byRow : Bool} {m b : BaseMatrix} {mem mem' : Mem α}
    {v : (Nat × Nat) × (Nat × Nat)} (h : ViewRel byRow m mem b v)
    (hs : ∀ k, mem'.size k = mem.size k) : ViewRel byRow m mem' b v :=
  ⟨h.sound.mono (by rw [hs]), h.nonOverlapping, h.major, h.dim, h.order, h.shows, h.fits⟩

theorem forall₂_get {A B : Type} {r : A → B → Prop} {xs : List A} {ys : List B}
    (h : List.Forall₂ r xs ys) (k : Nat) :
    (xs[k]? = none ∧ ys[k]? = none) ∨ ∃ x y, xs[k]? = some x ∧ ys[k]? = some y ∧ r x y := by
  induction h generalizing k with
  | nil => simp
  | cons hxy _ ih =>
    cases k with
    | zero => exact .inr ⟨_, _, rfl, rfl, hxy⟩
    | succ k => simpa using ih k

theorem forall₂_append {A B : Type} {r : A → B → Prop} {xs xs' : List A} {ys ys' : List B}
    (h : List.Forall₂ r xs ys) (h' : List.Forall₂ r xs' ys') :
    List.Forall₂ r (xs ++ xs') (ys ++ ys') := by
  induction h with
  | nil => exact h'
  | cons hxy _ ih => exact .cons hxy ih

theorem forall₂_map {A B I : Type} {r : A → B → Prop} {f : I → A} {g : I → B} (is : List I)
    (h : ∀ i, r (f i) (g i)) : List.Forall₂ r (is.map f) (is.map g) := by
  induction is with
  | nil => exact .nil
  | cons i is ih => exact .cons (h i) ih

theorem viewStep_refines [Target] (cfg : Cfg) (byRow : Bool) (R C : Nat) (m : BaseMatrix)
    (hl : m.layout = majorLayout byRow R C) (s : MemViews α) (a : ArrViews α)
    (h : ViewsRel byRow m s a) (op : ViewOp α) (hop : Sane cfg R C op) :
    ∃ s', viewStep cfg m s op = some ((a.step byRow R C op).1, s') ∧
      ViewsRel byRow m s' (a.step byRow R C op).2 ∧ FrameOf m s.mem s'.mem := by
  obtain ⟨p1, p2, p3, p4, p5⟩ := majorLayout_props byRow R C
  rw [← hl] at p1 p2 p3 p4 p5
  have hno := contiguous_nonOverlapping p2
  cases op with
  | onParent op =>
    obtain ⟨mem', e, h1, h2, h3⟩ := step_refines cfg m s.mem a.arr h.sound hno h.arr op
    rw [p4] at e h2
    refine ⟨⟨mem', s.views⟩, ?_, ⟨h1, h2, ?_⟩, h3⟩
    · simp [viewStep, e, ArrViews.step]
    · exact h.views.imp fun b v hv => hv.mono h3.size
  | onView k op =>
    rcases forall₂_get h.views k with ⟨e1, e2⟩ | ⟨b, ⟨o, d⟩, e1, e2, hv⟩
    · exact ⟨s, by simp [viewStep, e1, ArrViews.step, e2], by simpa [ArrViews.step, e2] using h,
        FrameOf.refl _ _⟩
    · have hA : Represents b s.mem (a.arr.view o) := by
        intro i j hs
        have st : Stored m.layout (o.1 + i) (o.2 + j) := (stored_iff p1).2 (by
          have := hs.1; have := hs.2.1; have := hv.fits.1; have := hv.fits.2
          rw [hv.dim] at *; simp only at *; omega)
        rw [elem, hv.shows i j hs.1 hs.2.1]
        exact h.arr _ _ st
      obtain ⟨mem', e, h1, h2, h3⟩ := step_refines cfg b s.mem _ hv.sound hv.nonOverlapping hA op
      rw [hv.order] at e h2
      have hd1 : b.layout.dim.1 = d.1 := by rw [hv.dim]
      have hd2 : b.layout.dim.2 = d.2 := by rw [hv.dim]
      have f1 := hv.fits.1
      have f2 := hv.fits.2
      simp only at f1 f2
      have hframe : FrameOf m s.mem mem' := by
        refine ⟨h3.size, h3.nbufs, fun q hq => h3.other q fun i j hs => ?_⟩
        rw [hv.shows i j hs.1 hs.2.1]
        exact hq _ _ ((stored_iff p1).2 (by have := hs.1; have := hs.2.1; simp only; omega))
      refine ⟨⟨mem', s.views⟩, ?_, ⟨h.sound.mono (by rw [h3.size]), ?_, ?_⟩, hframe⟩
      · simp [viewStep, e1, e, ArrViews.step, e2]
      · simp only [ArrViews.step, e2]
        intro r c hs
        simp only [Arr.patch]
        by_cases hin : o.1 ≤ r ∧ r < o.1 + d.1 ∧ o.2 ≤ c ∧ c < o.2 + d.2
        · rw [if_pos hin]
          have st : Stored b.layout (r - o.1) (c - o.2) := (stored_iff hv.major).2 (by omega)
          have := h2 _ _ st
          rw [elem, hv.shows _ _ st.1 st.2.1] at this
          simp only at this
          rw [show o.1 + (r - o.1) = r by omega, show o.2 + (c - o.2) = c by omega] at this
          exact this
        · rw [if_neg hin, ← h.arr r c hs]
          refine h3.other _ fun i j hs' heq => ?_
          rw [hv.shows i j hs'.1 hs'.2.1] at heq
          have b1 := hs'.1
          have b2 := hs'.2.1
          obtain ⟨x, y⟩ := cell_inj hno hs ((stored_iff p1).2 (by simp only; omega)) heq
          simp only at x y
          omega
      · simp only [ArrViews.step, e2]
        exact h.views.imp fun b v hv => hv.mono h3.size
  | block tl d =>
    obtain ⟨q1, q2, q3⟩ := hop
    by_cases hf : Fits m.layout tl d
    · obtain ⟨b, e, -⟩ := (view_of_contiguous h.sound p1 p2).block cfg hf q1 q2
      have hf' := hf
      rw [Fits, p3] at hf'
      refine ⟨⟨s.mem, s.views ++ [b]⟩, ?_, ?_, FrameOf.refl _ _⟩
      · simp only [viewStep, e, ArrViews.step]
        rw [if_pos ⟨hf'.1, hf'.2, q1, q2⟩]
      · simp only [ArrViews.step]
        rw [if_pos ⟨hf'.1, hf'.2, q1, q2⟩]
        exact ⟨h.sound, h.arr, forall₂_append h.views
          (.cons (ViewRel.of_block h.sound hl cfg hf q1 q2 e) .nil)⟩
    · have e := block_panic_of_not_fits cfg m q3 hf
      rw [Fits, p3] at hf
      have hn : ¬ (tl.1 + d.1 ≤ R ∧ tl.2 + d.2 ≤ C ∧ 1 ≤ d.1 ∧ 1 ≤ d.2) := by
        rintro ⟨a, b, -, -⟩; exact hf ⟨a, b⟩
      refine ⟨s, ?_, ?_, FrameOf.refl _ _⟩
      · simp only [viewStep, e, ArrViews.step]; rw [if_neg hn]
      · simp only [ArrViews.step]; rw [if_neg hn]; exact h
  | split p =>
    cases byRow with
    | false =>
      have e : m.split_in_four_mut cfg p = .panic := by
        unfold BaseMatrix.split_in_four_mut
        rw [hl]; rfl
      refine ⟨s, ?_, ?_, FrameOf.refl _ _⟩
      · simp [viewStep, e, ArrViews.step]
      · simpa [ArrViews.step] using h
    | true =>
      by_cases hp : 0 < p.1 ∧ p.1 < R ∧ 0 < p.2 ∧ p.2 < C
      · obtain ⟨q, e, hq⟩ := split_blocks cfg h.sound (R := R) (C := C) hl hp.1 hp.2.1 hp.2.2.1
          hp.2.2.2
        refine ⟨⟨s.mem, s.views ++ (List.finRange 4).map (quad q)⟩, ?_, ?_, FrameOf.refl _ _⟩
        · simp only [viewStep, e, ArrViews.step]
          rw [if_pos ⟨trivial, hp⟩]
        · simp only [ArrViews.step]
          rw [if_pos ⟨trivial, hp⟩]
          refine ⟨h.sound, h.arr, forall₂_append h.views (forall₂_map _ fun k => ?_)⟩
          obtain ⟨e', f, x, y⟩ := hq k
          exact ViewRel.of_block h.sound hl cfg f x y e'
      · have e := split_panic h.sound cfg (hop.resolve_right hp) (R := R) (C := C) hl hp
        have hn : ¬ (True ∧ 0 < p.1 ∧ p.1 < R ∧ 0 < p.2 ∧ p.2 < C) := fun x => hp x.2
        refine ⟨s, ?_, ?_, FrameOf.refl _ _⟩
        · simp only [viewStep, e, ArrViews.step]; rw [if_neg hn]
        · simp only [ArrViews.step]; rw [if_neg hn]; exact h

/-- **C57.** Take any history of reads, writes and in-place updates through a row- or
column-major matrix and through any number of blocks and split views of it, created at any
time and used in any interleaving. All responses, values and panics, are those of one array of
which the views are parts, so a read through any of them returns the last value written to that
element through any of them. -/
theorem C57_views_coherent [Target] (cfg : Cfg) (byRow : Bool) (R C : Nat) (m : BaseMatrix)
    (hl : m.layout = majorLayout byRow R C) (mem : Mem α) (h : Sound m mem) (A : Arr α)
    (hA : Represents m mem A) (ops : List (ViewOp α)) (hops : ∀ op ∈ ops, Sane cfg R C op) :
    ∃ s', viewRun cfg m ⟨mem, []⟩ ops = some ((ArrViews.run byRow R C ⟨A, []⟩ ops).1, s') ∧
      Represents m s'.mem (ArrViews.run byRow R C ⟨A, []⟩ ops).2.arr ∧
      ∀ q, (∀ r c, Stored m.layout r c → q ≠ cell m r c) → s'.mem.get? q = mem.get? q := by
  suffices hgen : ∀ (s : MemViews α) (a : ArrViews α), ViewsRel byRow m s a →
      ∃ s', viewRun cfg m s ops = some ((a.run byRow R C ops).1, s') ∧
        ViewsRel byRow m s' (a.run byRow R C ops).2 ∧ FrameOf m s.mem s'.mem by
    obtain ⟨s', e, h1, h2⟩ := hgen ⟨mem, []⟩ ⟨A, []⟩ ⟨h, hA, .nil⟩
    exact ⟨s', e, h1.arr, h2.other⟩
  induction ops with
  | nil => exact fun s a hr => ⟨s, rfl, hr, FrameOf.refl _ _⟩
  | cons op ops ih =>
    intro s a hr
    obtain ⟨s1, e1, r1, f1⟩ := viewStep_refines cfg byRow R C m hl s a hr op (hops op (by simp))
    obtain ⟨s2, e2, r2, f2⟩ := ih (fun op hop => hops op (by simp [hop])) s1 _ r1
    exact ⟨s2, by simp [viewRun, ArrViews.run, e1, e2], r2, f1.trans f2⟩

/-- A block, a split, and writes through the matrix, the block and a part of the split. -/
example : (viewRun dbg exFour ⟨exMem4, []⟩ [.block (1, 1) (2, 3), .split (2, 2),
      .onView 0 (.set 1 2 70), .onParent (.get 2 3), .onView 4 (.get 0 1),
      .onView 4 (.update 0 0 (· + 1)), .onView 0 (.get1d 4), .onView 1 (.get 2 0),
      .block (3, 3) (2, 2)]).map (·.1) =
    some [.done, .done, .done, .value 70, .value 70, .done, .value 11, .panicked, .panicked] := by
  decide

end Householder.Props
