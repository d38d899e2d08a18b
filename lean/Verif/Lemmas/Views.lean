import Verif.Lemmas.Construct
import Verif.Spec.Views

/-! # Lemmas on blocks -/

namespace Householder.Spec

variable {α : Type}

theorem raw_steps {l : Layout} (h : IsMajor l) (r c : Nat) :
    raw l r c = (steps l).1 * r + (steps l).2 * c := by
  cases l <;> simp only [IsMajor] at h <;> simp only [raw, steps] <;> ring

theorem stride_tight {l : Layout} (h : IsMajor l) : l.stride = .ok (tight l) := by
  cases l <;> simp only [IsMajor] at h <;> rfl

/-- A matrix that blocks can safely be taken of. -/
structure View [Target] (m : BaseMatrix) (mem : Mem α) : Prop where
  sound : Sound m mem
  major : IsMajor m.layout
  le1 : (tight m.layout).1 ≤ (steps m.layout).1
  le2 : (tight m.layout).2 ≤ (steps m.layout).2

/-- The layout of a block. -/
def blockLayout (l : Layout) (d : Nat × Nat) : Layout :=
  match l with
  | .rowMajor _ => .asRowMajor ⟨d, tight l⟩
  | .asRowMajor _ => .asRowMajor ⟨d, tight l⟩
  | _ => .asColumnMajor ⟨d, tight l⟩

theorem blockLayout_dim (l : Layout) (d : Nat × Nat) : (blockLayout l d).dim = d := by
  cases l <;> rfl

theorem blockLayout_major (l : Layout) (d : Nat × Nat) : IsMajor (blockLayout l d) := by
  cases l <;> trivial

theorem blockLayout_steps (l : Layout) (d : Nat × Nat) : steps (blockLayout l d) = tight l := by
  cases l <;> rfl

theorem strideLayout_eq {l : Layout} (h : IsMajor l) (d : Nat × Nat) :
    BaseMatrix.strideLayout l d (tight l) = some (blockLayout l d) := by
  cases l <;> simp only [IsMajor] at h <;> rfl

/-- Number of cells a block spans. -/
def extent (s d : Nat × Nat) : Nat := s.1 * (d.1 - 1) + s.2 * (d.2 - 1) + 1

theorem mul_le_extent {s d : Nat × Nat} (h1 : 1 ≤ d.1) (h2 : 1 ≤ d.2)
    (h : (d.2 ≤ s.1 ∧ 1 ≤ s.2) ∨ (d.1 ≤ s.2 ∧ 1 ≤ s.1)) : d.1 * d.2 ≤ extent s d := by
  obtain ⟨a, ha⟩ : ∃ a, d.1 = a + 1 := ⟨d.1 - 1, by omega⟩
  obtain ⟨b, hb⟩ : ∃ b, d.2 = b + 1 := ⟨d.2 - 1, by omega⟩
  unfold extent
  rw [ha, hb]
  simp only [Nat.add_sub_cancel]
  rcases h with ⟨h3, h4⟩ | ⟨h3, h4⟩
  · rw [hb] at h3
    have e1 : (b + 1) * a ≤ s.1 * a := Nat.mul_le_mul_right _ h3
    have e2 : 1 * b ≤ s.2 * b := Nat.mul_le_mul_right _ h4
    have e3 : (a + 1) * (b + 1) = (b + 1) * a + b + 1 := by ring
    omega
  · rw [ha] at h3
    have e1 : (a + 1) * b ≤ s.2 * b := Nat.mul_le_mul_right _ h3
    have e2 : 1 * a ≤ s.1 * a := Nat.mul_le_mul_right _ h4
    have e3 : (a + 1) * (b + 1) = (a + 1) * b + a + 1 := by ring
    omega

theorem raw_lt_extent {l : Layout} (hm : IsMajor l) {i j : Nat} (hi : i < l.dim.1)
    (hj : j < l.dim.2) : raw l i j < extent (steps l) l.dim := by
  rw [raw_steps hm]
  unfold extent
  have e1 : (steps l).1 * i ≤ (steps l).1 * (l.dim.1 - 1) := Nat.mul_le_mul_left _ (by omega)
  have e2 : (steps l).2 * j ≤ (steps l).2 * (l.dim.2 - 1) := Nat.mul_le_mul_left _ (by omega)
  omega

/-- `from_pointer` of the strided layouts, when the cells are there. -/
theorem from_pointer_strided_eq [Target] (cfg : Cfg) (p : Ptr) {l : Layout} (hm : IsMajor l)
    (h1 : 1 ≤ l.dim.1) (h2 : 1 ≤ l.dim.2) (hsmall : p.prov.len * 4 ≤ isizeMax)
    (hin : p.off + extent (steps l) l.dim ≤ p.prov.len)
    (hcount : l.dim.1 * l.dim.2 ≤ extent (steps l) l.dim) :
    from_pointer_strided cfg p l.dim l =
      .ok ⟨⟨p.prov.buf, p.prov.off + p.off, extent (steps l) l.dim⟩, l, .dynamic, .dynamic⟩ := by
  have hW := small_W hsmall
  have hs : Stored l (l.dim.1 - 1) (l.dim.2 - 1) :=
    (stored_of_notTri hm.notTri).2 ⟨by omega, by omega⟩
  have hraw : raw l (l.dim.1 - 1) (l.dim.2 - 1) + 1 = extent (steps l) l.dim := by
    rw [raw_steps hm]; rfl
  unfold from_pointer_strided
  rw [Cfg.sub_ok cfg h1, Cfg.sub_ok cfg h2]
  simp only [Out.bind_ok]
  rw [convert_2d_raw_ok cfg hs (by omega) hm.triFits]
  simp only [Out.bind_ok]
  rw [Cfg.add_ok cfg (by omega), hraw]
  simp only [Out.bind_ok, Ptr.from_raw_parts, if_pos hin]
  rw [from_data_small cfg _ _ (by simp only; omega) (by simp only [hm.count]; exact hcount)]

/-- A block of a view: what `block` returns, and that it is a view again. -/
theorem View.block [Target] {m : BaseMatrix} {mem : Mem α} (hv : View m mem) (cfg : Cfg) {tl d : Nat × Nat}
    (hf : Fits m.layout tl d) (h1 : 1 ≤ d.1) (h2 : 1 ≤ d.2) :
    ∃ b, m.block cfg tl d = .ok b ∧ View b mem ∧ Within b m ∧ b.layout = blockLayout m.layout d ∧
      b.data = ⟨m.data.buf, m.data.off + raw m.layout tl.1 tl.2,
        extent (tight m.layout) d⟩ ∧ NonOverlapping b.layout ∧
      from_pointer_strided cfg ⟨m.data, raw m.layout tl.1 tl.2⟩ d (blockLayout m.layout d) =
        .ok b := by
  obtain ⟨hS, hm, hle1, hle2⟩ := hv
  have hW := small_W hS.container.small
  have hlast : Stored m.layout (tl.1 + d.1 - 1) (tl.2 + d.2 - 1) :=
    (stored_of_notTri hm.notTri).2 ⟨by have := hf.1; omega, by have := hf.2; omega⟩
  have hfirst : Stored m.layout tl.1 tl.2 :=
    (stored_of_notTri hm.notTri).2 ⟨by have := hf.1; omega, by have := hf.2; omega⟩
  -- the last cell bounds everything
  have hbound : raw m.layout tl.1 tl.2 + extent (tight m.layout) d ≤ m.data.len := by
    have := hS.inside _ _ hlast
    rw [raw_steps hm] at this ⊢
    unfold extent
    have e1 : (tight m.layout).1 * (d.1 - 1) ≤ (steps m.layout).1 * (d.1 - 1) :=
      Nat.mul_le_mul_right _ hle1
    have e2 : (tight m.layout).2 * (d.2 - 1) ≤ (steps m.layout).2 * (d.2 - 1) :=
      Nat.mul_le_mul_right _ hle2
    have e3 : (steps m.layout).1 * (tl.1 + d.1 - 1) =
        (steps m.layout).1 * tl.1 + (steps m.layout).1 * (d.1 - 1) := by
      rw [← Nat.mul_add]; congr 1; omega
    have e4 : (steps m.layout).2 * (tl.2 + d.2 - 1) =
        (steps m.layout).2 * tl.2 + (steps m.layout).2 * (d.2 - 1) := by
      rw [← Nat.mul_add]; congr 1; omega
    omega
  have htight : (d.2 ≤ (tight m.layout).1 ∧ 1 ≤ (tight m.layout).2) ∨
      (d.1 ≤ (tight m.layout).2 ∧ 1 ≤ (tight m.layout).1) := by
    have hf1 := hf.1
    have hf2 := hf.2
    cases hl : m.layout <;> rw [hl] at hm hf1 hf2 <;> simp only [IsMajor] at hm <;>
      simp only [Layout.dim] at hf1 hf2
    case rowMajor l => left; simp only [tight]; omega
    case columnMajor l => right; simp only [tight]; omega
    case asRowMajor l => left; simp only [tight]; omega
    case asColumnMajor l => right; simp only [tight]; omega
  have hcount := mul_le_extent (s := tight m.layout) h1 h2 htight
  have hdimW : m.layout.dim.1 < W ∧ m.layout.dim.2 < W := by
    have hc := hS.count_le
    rw [hm.count] at hc
    have p1 : 1 ≤ m.layout.dim.1 := by have := hf.1; omega
    have p2 : 1 ≤ m.layout.dim.2 := by have := hf.2; omega
    have q1 : m.layout.dim.1 * 1 ≤ m.layout.dim.1 * m.layout.dim.2 := Nat.mul_le_mul_left _ p2
    have q2 : 1 * m.layout.dim.2 ≤ m.layout.dim.1 * m.layout.dim.2 := Nat.mul_le_mul_right _ p1
    omega
  have hfp := from_pointer_strided_eq cfg (⟨m.data, raw m.layout tl.1 tl.2⟩ : Ptr)
    (blockLayout_major m.layout d) (by rw [blockLayout_dim]; exact h1)
    (by rw [blockLayout_dim]; exact h2) hS.container.small
    (by rw [blockLayout_steps, blockLayout_dim]; exact hbound)
    (by rw [blockLayout_steps, blockLayout_dim]; exact hcount)
  rw [blockLayout_steps, blockLayout_dim] at hfp
  refine ⟨⟨⟨m.data.buf, m.data.off + raw m.layout tl.1 tl.2, extent (tight m.layout) d⟩,
    blockLayout m.layout d, .dynamic, .dynamic⟩, ?_, ⟨⟨⟨?_, ?_⟩, ?_, ?_⟩, blockLayout_major _ _, ?_,
    ?_⟩, ⟨rfl, ?_, ?_⟩, rfl, rfl, ?_, hfp⟩
  · unfold BaseMatrix.block
    rw [Cfg.add_ok cfg (show tl.1 + d.1 < W from lt_of_le_of_lt hf.1 hdimW.1),
      Cfg.add_ok cfg (show tl.2 + d.2 < W from lt_of_le_of_lt hf.2 hdimW.2)]
    simp only [Out.bind_ok]
    rw [Out.assert_pos (show _ ∧ _ from hf)]
    simp only [Out.bind_ok]
    rw [convert_2d_raw_ok cfg hfirst (hS.raw_lt hfirst) hm.triFits]
    simp only [Out.bind_ok, BaseMatrix.get_pointer, Container.get_pointer, Ptr.add, Nat.zero_add]
    rw [if_pos (show raw m.layout tl.1 tl.2 ≤ m.data.len by omega)]
    simp only [Out.bind_ok, stride_tight hm, strideLayout_eq hm]
    exact hfp
  · have := hS.container.window
    simp only
    omega
  · have := hS.container.small
    simp only
    omega
  · intro i j hij
    have := raw_lt_extent (blockLayout_major m.layout d) hij.1 hij.2.1
    rw [blockLayout_steps, blockLayout_dim] at this
    exact this
  · simp only [(blockLayout_major m.layout d).count, blockLayout_dim]
    exact hcount
  · simp only [blockLayout_steps]
    have hf1 := hf.1
    have hf2 := hf.2
    cases hl : m.layout <;> rw [hl] at hm hf1 hf2 <;> simp only [IsMajor] at hm <;>
      simp only [Layout.dim] at hf1 hf2 <;> simp only [blockLayout, tight] <;> omega
  · simp only [blockLayout_steps]
    have hf1 := hf.1
    have hf2 := hf.2
    cases hl : m.layout <;> rw [hl] at hm hf1 hf2 <;> simp only [IsMajor] at hm <;>
      simp only [Layout.dim] at hf1 hf2 <;> simp only [blockLayout, tight] <;> omega
  · simp only; omega
  · simp only; omega
  · have hf1 := hf.1
    have hf2 := hf.2
    cases hl : m.layout <;> rw [hl] at hm hf1 hf2 <;> simp only [IsMajor] at hm <;>
      simp only [Layout.dim] at hf1 hf2 <;> simp only [blockLayout, tight, NonOverlapping] <;> omega

/-- A contiguous row- or column-major matrix is a view. -/
theorem view_of_contiguous [Target] {m : BaseMatrix} {mem : Mem α} (h : Sound m mem)
    (hm : IsMajor m.layout) (hc : Contiguous m.layout) : View m mem := by
  refine ⟨h, hm, ?_, ?_⟩ <;>
    cases hl : m.layout <;> simp only [hl, IsMajor, Contiguous] at hm hc <;> simp [tight, steps]

theorem View.mono [Target] {m : BaseMatrix} {mem mem' : Mem α} (h : View m mem)
    (hs : mem.size m.data.buf ≤ mem'.size m.data.buf) : View m mem' :=
  ⟨h.sound.mono hs, h.major, h.le1, h.le2⟩

/-- The block of a view whose reported stride is right shows the right part of it. -/
theorem block_shows {m b : BaseMatrix} {tl d : Nat × Nat} (hm : IsMajor m.layout)
    (ht : tight m.layout = steps m.layout) (hl : b.layout = blockLayout m.layout d)
    (hd : b.data.buf = m.data.buf) (ho : b.data.off = m.data.off + raw m.layout tl.1 tl.2) :
    ShowsAt b m tl.1 tl.2 := by
  intro i j _ _
  simp only [cell, hd, ho, hl, Loc.mk.injEq, true_and]
  rw [raw_steps (blockLayout_major _ _), raw_steps hm, raw_steps hm, blockLayout_steps, ht]
  ring

theorem contiguous_tight {l : Layout} (hm : IsMajor l) (hc : Contiguous l) : tight l = steps l := by
  cases l <;> simp only [IsMajor, Contiguous] at hm hc <;> rfl

theorem cfg_add_cases [Target] (cfg : Cfg) (a b : Nat) (h : cfg.overflowChecks = true ∨ a + b < W) :
    (a + b < W ∧ cfg.add a b = .ok (a + b)) ∨ (¬ a + b < W ∧ cfg.add a b = .panic) := by
  by_cases hw : a + b < W
  · exact .inl ⟨hw, Cfg.add_ok cfg hw⟩
  · exact .inr ⟨hw, by simp [Cfg.add, Cfg.wrap, hw, h.resolve_right hw]⟩

theorem Sound.dim_lt [Target] {m : BaseMatrix} {mem : Mem α} (h : Sound m mem) {r c : Nat}
    (hs : Stored m.layout r c) (hm : IsMajor m.layout) :
    m.layout.dim.1 < W ∧ m.layout.dim.2 < W := by
  have hc := h.count_lt
  rw [hm.count] at hc
  have p1 : 1 ≤ m.layout.dim.1 := by have := hs.1; omega
  have p2 : 1 ≤ m.layout.dim.2 := by have := hs.2.1; omega
  have q1 : m.layout.dim.1 * 1 ≤ m.layout.dim.1 * m.layout.dim.2 := Nat.mul_le_mul_left _ p2
  have q2 : 1 * m.layout.dim.2 ≤ m.layout.dim.1 * m.layout.dim.2 := Nat.mul_le_mul_right _ p1
  omega

/-- A block that does not fit panics (if its corner is representable, or with overflow
checks). -/
theorem block_panic_of_not_fits [Target] (cfg : Cfg) (m : BaseMatrix) {tl d : Nat × Nat}
    (hmode : cfg.overflowChecks = true ∨ (tl.1 + d.1 < W ∧ tl.2 + d.2 < W))
    (hf : ¬ Fits m.layout tl d) : m.block cfg tl d = .panic := by
  unfold BaseMatrix.block
  rcases cfg_add_cases cfg tl.1 d.1 (hmode.imp id And.left) with ⟨_, h1⟩ | ⟨_, h1⟩
  · rcases cfg_add_cases cfg tl.2 d.2 (hmode.imp id And.right) with ⟨_, h2⟩ | ⟨_, h2⟩
    · rw [h1, h2]
      simp only [Out.bind_ok]
      rw [Out.assert_neg (show ¬ (_ ∧ _) from hf)]; rfl
    · rw [h1, h2]; rfl
  · rw [h1]; rfl

/-- With overflow checks, an empty block panics or the call panicked before. -/
theorem block_ok_nonempty [Target] (cfg : Cfg) (hc : cfg.overflowChecks = true) (m : BaseMatrix)
    {tl d : Nat × Nat} {b : BaseMatrix} (h : m.block cfg tl d = .ok b) :
    Fits m.layout tl d ∧ 1 ≤ d.1 ∧ 1 ≤ d.2 := by
  have hf : Fits m.layout tl d := by
    by_contra hf
    rw [block_panic_of_not_fits cfg m (.inl hc) hf] at h
    simp at h
  unfold BaseMatrix.block at h
  simp only [Out.bind_eq_ok] at h
  obtain ⟨_, _, _, _, _, _, _, _, ptr, _, s, _, h⟩ := h
  split at h
  · unfold from_pointer_strided at h
    simp only [Out.bind_eq_ok] at h
    obtain ⟨x, h1, y, h2, _⟩ := h
    exact ⟨hf, (Cfg.sub_exact (.inl hc) h1).2, (Cfg.sub_exact (.inl hc) h2).2⟩
  · simp at h

theorem from_pointer_strided_empty [Target] (cfg : Cfg) (hc : cfg.overflowChecks = true) (p : Ptr)
    {d : Nat × Nat} (l : Layout) (hd : d.1 = 0 ∨ d.2 = 0) :
    from_pointer_strided cfg p d l = .panic := by
  have subp : ∀ a b, b > a → cfg.sub a b = .panic := by
    intro a b hab; simp [Cfg.sub, hc, show ¬ b ≤ a by omega]
  unfold from_pointer_strided
  by_cases h0 : d.1 = 0
  · rw [subp d.1 1 (by omega)]; rfl
  · rw [Cfg.sub_ok cfg (show 1 ≤ d.1 by omega), Out.bind_ok,
      subp d.2 1 (by rcases hd with hd | hd <;> omega)]; rfl

theorem convert_major_checked [Target] (cfg : Cfg) {l : Layout} (hm : IsMajor l) (r c : Nat)
    (hmode : cfg.overflowChecks = true ∨ raw l r c < W) :
    (raw l r c < W ∧ l.convert_2d_raw cfg r c = .ok (raw l r c)) ∨
    (¬ raw l r c < W ∧ l.convert_2d_raw cfg r c = .panic) := by
  have key : ∀ a b x y, (cfg.overflowChecks = true ∨ a * b + x * y < W) →
      (a * b + x * y < W ∧
        (do let p ← cfg.mul a b; let q ← cfg.mul x y; cfg.add p q) = .ok (a * b + x * y)) ∨
      (¬ a * b + x * y < W ∧
        (do let p ← cfg.mul a b; let q ← cfg.mul x y; cfg.add p q) = Out.panic) := by
    intro a b x y hmode
    by_cases hw : a * b + x * y < W
    · left
      refine ⟨hw, ?_⟩
      rw [Cfg.mul_ok cfg (by omega), Out.bind_ok, Cfg.mul_ok cfg (by omega), Out.bind_ok,
        Cfg.add_ok cfg hw]
    · right
      refine ⟨hw, ?_⟩
      have hc := hmode.resolve_right hw
      by_cases h1 : a * b < W
      · rw [Cfg.mul_ok cfg h1, Out.bind_ok]
        by_cases h2 : x * y < W
        · rw [Cfg.mul_ok cfg h2, Out.bind_ok]; simp [Cfg.add, Cfg.wrap, hc, hw]
        · simp [Cfg.mul, Cfg.wrap, hc, h2]
      · simp [Cfg.mul, Cfg.wrap, hc, h1]
  have key1 : ∀ a b x, (cfg.overflowChecks = true ∨ a * b + x < W) →
      (a * b + x < W ∧ (do let p ← cfg.mul a b; cfg.add p x) = .ok (a * b + x)) ∨
      (¬ a * b + x < W ∧ (do let p ← cfg.mul a b; cfg.add p x) = Out.panic) := by
    intro a b x hmode
    by_cases hw : a * b + x < W
    · left
      refine ⟨hw, ?_⟩
      rw [Cfg.mul_ok cfg (by omega), Out.bind_ok, Cfg.add_ok cfg hw]
    · right
      refine ⟨hw, ?_⟩
      have hc := hmode.resolve_right hw
      by_cases h1 : a * b < W
      · rw [Cfg.mul_ok cfg h1, Out.bind_ok]; simp [Cfg.add, Cfg.wrap, hc, hw]
      · simp [Cfg.mul, Cfg.wrap, hc, h1]
  cases l <;> simp only [IsMajor] at hm
  case rowMajor l => exact key1 _ _ _ hmode
  case columnMajor l => exact key1 _ _ _ hmode
  case asRowMajor l => exact key _ _ _ _ hmode
  case asColumnMajor l => exact key _ _ _ _ hmode

/-- With overflow checks, an empty block panics, unless its corner lies so far outside that
already the pointer to it must not be computed. -/
theorem block_empty [Target] (cfg : Cfg) (hc : cfg.overflowChecks = true) {m : BaseMatrix}
    (hm : IsMajor m.layout) {tl d : Nat × Nat} (hW : tl.1 + d.1 < W ∧ tl.2 + d.2 < W)
    (hf : Fits m.layout tl d) (hd : d.1 = 0 ∨ d.2 = 0) :
    m.block cfg tl d =
      if m.data.len < raw m.layout tl.1 tl.2 ∧ raw m.layout tl.1 tl.2 < W then .ub else .panic := by
  unfold BaseMatrix.block
  rw [Cfg.add_ok cfg hW.1, Cfg.add_ok cfg hW.2]
  simp only [Out.bind_ok]
  rw [Out.assert_pos (show _ ∧ _ from hf), Out.bind_ok]
  rcases convert_major_checked cfg hm tl.1 tl.2 (.inl hc) with ⟨h1, e⟩ | ⟨h1, e⟩
  · rw [e, Out.bind_ok]
    unfold BaseMatrix.get_pointer Container.get_pointer Ptr.add
    by_cases hlen : raw m.layout tl.1 tl.2 ≤ m.data.len
    · rw [if_pos (by simp only; omega), if_neg (by omega)]
      simp only [Out.bind_ok, stride_tight hm, strideLayout_eq hm]
      exact from_pointer_strided_empty cfg hc _ _ hd
    · rw [if_neg (by simp only; omega), if_pos (by omega)]; rfl
  · rw [e, if_neg (by tauto)]; rfl

/-! ## Splitting -/

theorem asIsize_of_le [Target] {x : Nat} (h : x ≤ isizeMax) : asIsize x = (x : Int) := by
  simp [asIsize, h]

theorem offset_ok [Target] {p : Ptr} {x : Nat} (hx : x ≤ isizeMax) (h : p.off + x ≤ p.prov.len) :
    p.offset (asIsize x) = .ok ⟨p.prov, p.off + x⟩ := by
  rw [asIsize_of_le hx]
  unfold Ptr.offset
  rw [if_pos (by omega)]
  congr 2

/-- An interior split returns the four blocks. -/
theorem split_ok [Target] {m : BaseMatrix} {mem : Mem α} (h : Sound m mem) (cfg : Cfg) {R C : Nat}
    (hl : m.layout = .rowMajor ⟨(R, C)⟩) {s : Nat × Nat} (h1 : 0 < s.1) (h2 : s.1 < R)
    (h3 : 0 < s.2) (h4 : s.2 < C) :
    ∃ b0 b1 b2 b3, m.split_in_four_mut cfg s = .ok (b0, b1, b2, b3) ∧
      m.block cfg (0, 0) s = .ok b0 ∧ m.block cfg (0, s.2) (s.1, C - s.2) = .ok b1 ∧
      m.block cfg (s.1, 0) (R - s.1, s.2) = .ok b2 ∧ m.block cfg s (R - s.1, C - s.2) = .ok b3 := by
  have hm : IsMajor m.layout := by rw [hl]; trivial
  have hv : View m mem := view_of_contiguous h hm (by rw [hl]; trivial)
  have hfits : ∀ tl d : Nat × Nat, tl.1 + d.1 ≤ R → tl.2 + d.2 ≤ C → Fits m.layout tl d := by
    intro tl d h1 h2; rw [Fits, hl]; exact ⟨h1, h2⟩
  have hstart : ∀ r c, r < R → c < C → m.layout.convert_2d_raw cfg r c = .ok (raw m.layout r c) ∧
      (Ptr.mk m.data 0).offset (asIsize (raw m.layout r c)) = .ok ⟨m.data, raw m.layout r c⟩ := by
    intro r c hr hc
    have hs : Stored m.layout r c := (stored_of_notTri hm.notTri).2 (by rw [hl]; exact ⟨hr, hc⟩)
    have hin := h.inside r c hs
    have hW := small_W h.container.small
    refine ⟨convert_2d_raw_ok cfg hs (h.raw_lt hs) hm.triFits, ?_⟩
    rw [offset_ok (by omega) (by simp only; omega)]
    simp
  obtain ⟨b0, e0, -, -, -, -, -, f0⟩ := hv.block cfg (hfits (0, 0) s (by simp only; omega)
    (by simp only; omega)) (by omega) (by omega)
  obtain ⟨b1, e1, -, -, -, -, -, f1⟩ := hv.block cfg (hfits (0, s.2) (s.1, C - s.2)
    (by simp only; omega) (by simp only; omega)) (by simp only; omega) (by simp only; omega)
  obtain ⟨b2, e2, -, -, -, -, -, f2⟩ := hv.block cfg (hfits (s.1, 0) (R - s.1, s.2)
    (by simp only; omega) (by simp only; omega)) (by simp only; omega) (by simp only; omega)
  obtain ⟨b3, e3, -, -, -, -, -, f3⟩ := hv.block cfg (hfits s (R - s.1, C - s.2)
    (by simp only; omega) (by simp only; omega)) (by simp only; omega) (by simp only; omega)
  refine ⟨b0, b1, b2, b3, ?_, e0, e1, e2, e3⟩
  have g0 := hstart 0 0 (by omega) (by omega)
  have g1 := hstart 0 s.2 (by omega) (by omega)
  have g2 := hstart s.1 0 (by omega) (by omega)
  have g3 := hstart s.1 s.2 (by omega) (by omega)
  simp only [hl] at g0 g1 g2 g3 f0 f1 f2 f3
  unfold BaseMatrix.split_in_four_mut
  simp only [hl]
  simp only [Layout.dim, Layout.stride, RowMajor.stride, Out.bind_ok,
    Cfg.sub_ok cfg (show s.2 ≤ C by omega), Cfg.sub_ok cfg (show s.1 ≤ R by omega)]
  simp only [g0.1, g1.1, g2.1, g3.1, Out.bind_ok, BaseMatrix.get_pointer, Container.get_pointer,
    g0.2, g1.2, g2.2, g3.2]
  simp only [blockLayout, tight] at f0 f1 f2 f3
  simp only [f0, f1, f2, f3, Out.bind_ok, Out.pure_eq]

/-- With overflow checks, every other split panics. -/
theorem split_panic [Target] {m : BaseMatrix} {mem : Mem α} (h : Sound m mem) (cfg : Cfg)
    (hc : cfg.overflowChecks = true) {R C : Nat} (hl : m.layout = .rowMajor ⟨(R, C)⟩)
    {s : Nat × Nat} (hs : ¬ (0 < s.1 ∧ s.1 < R ∧ 0 < s.2 ∧ s.2 < C)) :
    m.split_in_four_mut cfg s = .panic := by
  have hm : IsMajor m.layout := by rw [hl]; trivial
  have hv : View m mem := view_of_contiguous h hm (by rw [hl]; trivial)
  have hfits : ∀ tl d : Nat × Nat, tl.1 + d.1 ≤ R → tl.2 + d.2 ≤ C → Fits m.layout tl d := by
    intro tl d h1 h2; rw [Fits, hl]; exact ⟨h1, h2⟩
  have subp : ∀ a b, b > a → cfg.sub a b = .panic := by
    intro a b hab; simp [Cfg.sub, hc, show ¬ b ≤ a by omega]
  have convp : ∀ r c, (Layout.rowMajor ⟨(R, C)⟩).convert_2d_raw cfg r c = .ok (r * C + c) ∨
      (Layout.rowMajor ⟨(R, C)⟩).convert_2d_raw cfg r c = .panic := by
    intro r c
    simp only [Layout.convert_2d_raw, RowMajor.convert_2d_raw, RowMajor.convert_2d_1d, Cfg.mul,
      Cfg.add, Cfg.wrap, hc]
    by_cases h1 : r * C < W
    · by_cases h2 : r * C + c < W
      · simp [h1, h2]
      · simp [h1, h2]
    · simp [h1]
  have hW := small_W h.container.small
  have hcount := h.count_le
  rw [hl] at hcount
  simp only [count] at hcount
  unfold BaseMatrix.split_in_four_mut
  simp only [hl]
  simp only [Layout.dim, Layout.stride, RowMajor.stride, Out.bind_ok, BaseMatrix.get_pointer,
    Container.get_pointer]
  by_cases hC : s.2 ≤ C
  swap
  · rw [subp _ _ (by omega)]; rfl
  rw [Cfg.sub_ok cfg hC]
  by_cases hR : s.1 ≤ R
  swap
  · rw [subp R _ (by omega)]; rfl
  rw [Cfg.sub_ok cfg hR]
  simp only [Out.bind_ok]
  have zero_ok : (Layout.rowMajor ⟨(R, C)⟩).convert_2d_raw cfg 0 0 = .ok (0 * C + 0) := by
    simp [Layout.convert_2d_raw, RowMajor.convert_2d_raw, RowMajor.convert_2d_1d, Cfg.mul,
      Cfg.add, Cfg.wrap, W_pos]
  rw [zero_ok]
  rcases convp 0 s.2 with e1 | e1 <;> rw [e1]
  swap
  · rfl
  rcases convp s.1 0 with e2 | e2 <;> rw [e2]
  swap
  · rfl
  rcases convp s.1 s.2 with e3 | e3 <;> rw [e3]
  swap
  · rfl
  simp only [Out.bind_ok, Nat.zero_mul, Nat.zero_add, Nat.add_zero]
  rw [offset_ok (by omega) (by simp)]
  simp only [Out.bind_ok]
  have fpanic : ∀ (p : Ptr) (d : Nat × Nat) (l : Layout), (d.1 = 0 ∨ d.2 = 0) →
      from_pointer_strided cfg p d l = .panic := by
    intro p d l hd
    unfold from_pointer_strided
    by_cases h0 : d.1 = 0
    · rw [subp d.1 1 (by omega)]; rfl
    · rw [Cfg.sub_ok cfg (show 1 ≤ d.1 by omega), Out.bind_ok,
        subp d.2 1 (by rcases hd with hd | hd <;> omega)]; rfl
  by_cases hz : s.1 = 0 ∨ s.2 = 0
  · rw [fpanic _ _ _ hz]; rfl
  have hz1 : 1 ≤ s.1 := by omega
  have hz2 : 1 ≤ s.2 := by omega
  have hCRC : C ≤ R * C := by
    have := Nat.mul_le_mul_right C (show 1 ≤ R by omega); omega
  obtain ⟨b0, -, -, -, -, -, -, f0⟩ := hv.block cfg (hfits (0, 0) s (by simp only; omega)
    (by simp only; omega)) hz1 hz2
  simp only [hl, raw, blockLayout, tight, Nat.zero_mul, Nat.add_zero] at f0
  rw [f0]
  simp only [Out.bind_ok]
  rw [offset_ok (by omega) (by simp only; omega)]
  simp only [Out.bind_ok]
  by_cases hCe : s.2 = C
  · rw [fpanic _ _ _ (.inr (by simp only; omega))]; rfl
  have hRe : s.1 = R := by omega
  obtain ⟨b1, -, -, -, -, -, -, f1⟩ := hv.block cfg (hfits (0, s.2) (s.1, C - s.2)
    (by simp only; omega) (by simp only; omega)) (by simp only; omega) (by simp only; omega)
  simp only [hl, raw, blockLayout, tight, Nat.zero_mul, Nat.zero_add] at f1
  simp only [Nat.zero_add]
  rw [f1]
  simp only [Out.bind_ok]
  rw [offset_ok (by rw [hRe]; omega) (by simp only; rw [hRe]; omega)]
  simp only [Out.bind_ok]
  rw [fpanic _ _ _ (.inl (by simp only; omega))]; rfl

end Householder.Spec
