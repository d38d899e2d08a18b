import Verif.Spec.Expr
import Verif.Lemmas.Construct

/-! # Lemmas on expressions -/

namespace Householder.Spec

variable {α : Type}

/-! ## Layouts up to strides -/

/-- The contiguous layout of a kind and a shape. -/
def kindLayout (k : BaseKind) (d : Nat × Nat) : Layout :=
  match k with
  | .rowMajor => .rowMajor ⟨d⟩
  | .columnMajor => .columnMajor ⟨d⟩
  | .rowVector => .rowVector ⟨d.2⟩
  | .columnVector => .columnVector ⟨d.1⟩
  | .upperTriangular => .upperTriangular ⟨d.1⟩

theorem index_layout_eq (l : Layout) : l.index_layout = kindLayout l.indexKind l.dim := by
  cases l <;> rfl

theorem index_layout_dim (l : Layout) : l.index_layout.dim = l.dim := by cases l <;> rfl

theorem index_layout_kind (l : Layout) : l.index_layout.indexKind = l.indexKind := by
  cases l <;> rfl

theorem index_layout_idem (l : Layout) : l.index_layout.index_layout = l.index_layout := by
  cases l <;> rfl

theorem index_layout_contiguous (l : Layout) : Contiguous l.index_layout := by cases l <;> trivial

theorem index_layout_order (l : Layout) : order l.index_layout = order l := by cases l <;> rfl

theorem index_layout_count (l : Layout) : count l.index_layout = count l := by cases l <;> rfl

theorem index_layout_index (l : Layout) (r c : Nat) : index l.index_layout r c = index l r c := by
  cases l <;> rfl

theorem index_layout_triFits [Target] (l : Layout) : TriFits l.index_layout ↔ TriFits l := by
  cases l <;> rfl

theorem order_eq_orderOf (l : Layout) : order l = orderOf l.indexKind l.dim := by cases l <;> rfl

theorem index_layout_stored (l : Layout) (r c : Nat) :
    Stored l.index_layout r c ↔ Stored l r c := by
  rw [← mem_order, ← mem_order, index_layout_order]

theorem layout_same {l l' : Layout} (hk : l.indexKind = l'.indexKind) (hd : l.dim = l'.dim) :
    l.index_layout = l'.index_layout := by
  rw [index_layout_eq, index_layout_eq, hk, hd]

theorem stored_same {l l' : Layout} (hk : l.indexKind = l'.indexKind) (hd : l.dim = l'.dim)
    (r c : Nat) : Stored l r c ↔ Stored l' r c := by
  rw [← index_layout_stored, layout_same hk hd, index_layout_stored]

theorem index_same {l l' : Layout} (hk : l.indexKind = l'.indexKind) (hd : l.dim = l'.dim)
    (r c : Nat) : index l r c = index l' r c := by
  rw [← index_layout_index, layout_same hk hd, index_layout_index]

/-! ## Built expressions -/

/-- The operands of all sums fit together and the base matrices are sound. -/
def MatOK [Target] (mem : Mem α) : Mat α → Prop
  | .base b => Sound b mem
  | .ref m => MatOK mem m
  | .addition a b l => MatOK mem a ∧ MatOK mem b ∧ a.layout.dim = b.layout.dim ∧
      a.layout.indexKind = b.layout.indexKind ∧ l = a.layout.index_layout
  | .scalarMult m _ => MatOK mem m

/-- The value at a position. -/
def matValue [Add α] [Mul α] (mem : Mem α) (r c : Nat) : Mat α → Option α
  | .base b => elem b mem r c
  | .ref m => matValue mem r c m
  | .addition a b _ => do
      let x ← matValue mem r c a
      let y ← matValue mem r c b
      return x + y
  | .scalarMult m s => do
      let x ← matValue mem r c m
      return s * x

theorem MatOK.small [Target] {mem : Mem α} {m : Mat α} (h : MatOK mem m) :
    count m.layout * 4 ≤ isizeMax := by
  induction m with
  | base b =>
    have h : Sound b mem := h
    have := h.count_le; have := h.container.small
    simp only [Mat.layout]; omega
  | ref m ih => exact ih h
  | addition a b l iha _ =>
    have := iha h.1
    simp only [Mat.layout]
    rw [h.2.2.2.2, index_layout_count]; exact this
  | scalarMult m s ih => exact ih h

theorem MatOK.count_lt [Target] {mem : Mem α} {m : Mat α} (h : MatOK mem m) : count m.layout < W :=
  (small_W h.small).2.1

theorem MatOK.triFits [Target] {mem : Mem α} {m : Mat α} (h : MatOK mem m) : TriFits m.layout :=
  tri_fits_of_small h.small

theorem MatOK.number_of_elements [Target] {mem : Mem α} {m : Mat α} (h : MatOK mem m) (cfg : Cfg) :
    m.layout.number_of_elements cfg = .ok (count m.layout) :=
  number_of_elements_ok cfg h.count_lt h.triFits

/-- Both unchecked accessors compute the value. -/
theorem MatOK.unchecked [Target] [Add α] [Mul α] {mem : Mem α} {m : Mat α} (h : MatOK mem m) (cfg : Cfg)
    {r c : Nat} (hs : Stored m.layout r c) :
    ∃ v, matValue mem r c m = some v ∧ m.get_unchecked cfg mem r c = .ok v ∧
      m.get1d_unchecked cfg mem (index m.layout r c) = .ok v := by
  induction m with
  | base b =>
    obtain ⟨v, hv⟩ := Sound.elem_some h hs
    exact ⟨v, hv, Sound.get_unchecked h cfg hs hv, Sound.get1d_unchecked h cfg hs hv⟩
  | ref m ih => exact ih h hs
  | addition a b l iha ihb =>
    obtain ⟨ha, hb, hd, hk, rfl⟩ := h
    simp only [Mat.layout] at hs ⊢
    rw [index_layout_stored] at hs
    obtain ⟨x, x1, x2, x3⟩ := iha ha hs
    obtain ⟨y, y1, y2, y3⟩ := ihb hb ((stored_same hk hd r c).1 hs)
    refine ⟨x + y, by simp [matValue, x1, y1], by simp [Mat.get_unchecked, x2, y2], ?_⟩
    rw [index_layout_index]
    simp only [Mat.get1d_unchecked, x3, Out.bind_ok]
    rw [index_same hk hd, y3]
    rfl
  | scalarMult m s ih =>
    obtain ⟨x, x1, x2, x3⟩ := ih h hs
    exact ⟨s * x, by simp [matValue, x1], by simp [Mat.get_unchecked, x2], by
      simp only [Mat.layout] at *
      simp [Mat.get1d_unchecked, x3]⟩

theorem MatOK.get [Target] [Add α] [Mul α] {mem : Mem α} {m : Mat α} (h : MatOK mem m) (cfg : Cfg)
    {r c : Nat} (hs : Stored m.layout r c) {v : α} (hv : matValue mem r c m = some v) :
    m.get cfg mem r c = .ok v ∧ m.get1d cfg mem (index m.layout r c) = .ok v := by
  obtain ⟨w, w1, w2, w3⟩ := h.unchecked cfg hs
  obtain rfl : v = w := by rw [hv] at w1; simpa using w1
  constructor
  · unfold Mat.get
    rw [assert_dimension_ok hs.1 hs.2.1]
    exact w2
  · unfold Mat.get1d
    rw [h.number_of_elements cfg]
    simp only [Out.bind_ok, assert_dimension1d, Out.assert_pos (index_lt hs)]
    exact w3

/-- Values only depend on the memory at the leaves. -/
theorem matValue_congr [Target] [Add α] [Mul α] {mem mem' : Mem α} {m : Mat α} (h : MatOK mem m)
    (hm : ∀ b : BaseMatrix, Sound b mem → ∀ r c, Stored b.layout r c →
      elem b mem' r c = elem b mem r c) {r c : Nat} (hs : Stored m.layout r c) :
    matValue mem' r c m = matValue mem r c m := by
  induction m with
  | base b => exact hm b h r c hs
  | ref m ih => exact ih h hs
  | addition a b l iha ihb =>
    obtain ⟨ha, hb, hd, hk, rfl⟩ := h
    simp only [Mat.layout] at hs
    rw [index_layout_stored] at hs
    simp only [matValue]
    rw [iha ha hs, ihb hb ((stored_same hk hd r c).1 hs)]
  | scalarMult m s ih =>
    simp only [matValue]
    rw [ih h hs]

theorem MatOK.mono [Target] {mem mem' : Mem α} {m : Mat α} (h : MatOK mem m)
    (hs : ∀ b, mem.size b ≤ mem'.size b) : MatOK mem' m := by
  induction m with
  | base b => exact Sound.mono h (hs _)
  | ref m ih => exact ih h
  | addition a b l iha ihb => exact ⟨iha h.1, ihb h.2.1, h.2.2⟩
  | scalarMult m s ih => exact ih h

/-! ## From source expressions to built ones -/

theorem Ex.build_spec [Target] (e : Ex α) (ht : e.Typed) :
    (e.Conform → ∃ m, e.build = .ok m ∧ m.layout.dim = e.dim ∧ m.layout.indexKind = e.kind ∧
      m.sizes = e.sizes ∧ (∀ mem, (∀ b ∈ e.leaves, Sound b mem) → MatOK mem m) ∧
      ∀ (_ : Add α) (_ : Mul α) mem r c, matValue mem r c m = e.value mem r c) ∧
    (¬ e.Conform → e.build = .panic) := by
  induction e with
  | leaf b =>
    exact ⟨fun _ => ⟨_, rfl, rfl, rfl, rfl, fun mem h => h b (by simp [leaves]),
      fun _ _ _ _ _ => rfl⟩, fun h => absurd trivial h⟩
  | ref a ih =>
    refine ⟨fun hc => ?_, fun hc => ?_⟩
    · obtain ⟨m, h1, h2, h3, h4, h5, h6⟩ := (ih ht).1 hc
      exact ⟨.ref m, by simp [build, h1, Mat.from_ref], h2, h3, h4, h5, h6⟩
    · simp [build, (ih ht).2 hc]
  | add f g a b iha ihb =>
    obtain ⟨ta, tb, tk, ts⟩ := ht
    have hnew : ∀ x y : Mat α, x.layout.dim = y.layout.dim →
        Mat.addition_new x y = .ok (.addition x y x.layout.index_layout) := by
      intro x y hd
      simp [Mat.addition_new, Out.assert_pos hd]
    have hnewp : ∀ x y : Mat α, x.layout.dim ≠ y.layout.dim → Mat.addition_new x y = .panic := by
      intro x y hd
      simp [Mat.addition_new, Out.assert_neg hd]
    refine ⟨fun hc => ?_, fun hc => ?_⟩
    · obtain ⟨ca, cb, cd⟩ := hc
      obtain ⟨x, x1, x2, x3, x4, x5, x6⟩ := (iha ta).1 ca
      obtain ⟨y, y1, y2, y3, y4, y5, y6⟩ := (ihb tb).1 cb
      have hd : x.layout.dim = y.layout.dim := by rw [x2, y2, cd]
      have hk : x.layout.indexKind = y.layout.indexKind := by rw [x3, y3, tk]
      have hleaf : ∀ mem : Mem α, (∀ z ∈ a.leaves ++ b.leaves, Sound z mem) →
          (∀ z ∈ a.leaves, Sound z mem) ∧ (∀ z ∈ b.leaves, Sound z mem) := by
        intro mem h
        exact ⟨fun z hz => h z (by simp [hz]), fun z hz => h z (by simp [hz])⟩
      have hval : ∀ (_ : Add α) (_ : Mul α) (mem : Mem α) r c,
          (do let p ← matValue mem r c x; let q ← matValue mem r c y; return p + q) =
            (Ex.add f g a b).value mem r c := by
        intro _ _ mem r c
        simp only [value]
        rw [x6, y6]
      cases f <;> cases g
      · refine ⟨.addition x y x.layout.index_layout, ?_, ?_, ?_, x4,
          fun mem h => ⟨x5 mem (hleaf mem h).1, y5 mem (hleaf mem h).2, hd, hk, rfl⟩, hval⟩
        · simp [build, x1, y1, Mat.add_vv, hnew x y hd]
        · simp only [Mat.layout, index_layout_dim]; exact x2
        · simp only [Mat.layout, index_layout_kind]; exact x3
      · refine ⟨.addition x (.ref y) x.layout.index_layout, ?_, ?_, ?_, x4,
          fun mem h => ⟨x5 mem (hleaf mem h).1, y5 mem (hleaf mem h).2, hd, hk, rfl⟩, hval⟩
        · simp [build, x1, y1, Mat.add_vr, Mat.from_ref, hnew x (.ref y) hd]
        · simp only [Mat.layout, index_layout_dim]; exact x2
        · simp only [Mat.layout, index_layout_kind]; exact x3
      · refine ⟨.addition (.ref x) y x.layout.index_layout, ?_, ?_, ?_, x4,
          fun mem h => ⟨x5 mem (hleaf mem h).1, y5 mem (hleaf mem h).2, hd, hk, rfl⟩, hval⟩
        · simp [build, x1, y1, Mat.add_rv, Mat.from_ref, hnew (.ref x) y hd, Mat.layout]
        · simp only [Mat.layout, index_layout_dim]; exact x2
        · simp only [Mat.layout, index_layout_kind]; exact x3
      · refine ⟨.addition (.ref x) (.ref y) x.layout.index_layout, ?_, ?_, ?_, x4,
          fun mem h => ⟨x5 mem (hleaf mem h).1, y5 mem (hleaf mem h).2, hd, hk, rfl⟩, hval⟩
        · simp [build, x1, y1, Mat.add_rr, Mat.from_ref, hnew (.ref x) (.ref y) hd, Mat.layout]
        · simp only [Mat.layout, index_layout_dim]; exact x2
        · simp only [Mat.layout, index_layout_kind]; exact x3
    · by_cases ca : a.Conform
      · obtain ⟨x, x1, x2, -⟩ := (iha ta).1 ca
        by_cases cb : b.Conform
        · obtain ⟨y, y1, y2, -⟩ := (ihb tb).1 cb
          have hd : x.layout.dim ≠ y.layout.dim := by
            rw [x2, y2]; exact fun h => hc ⟨ca, cb, h⟩
          cases f <;> cases g
          · simp [build, x1, y1, Mat.add_vv, hnewp x y hd]
          · simp [build, x1, y1, Mat.add_vr, Mat.from_ref, hnewp x (.ref y) hd]
          · simp [build, x1, y1, Mat.add_rv, Mat.from_ref, hnewp (.ref x) y hd]
          · simp [build, x1, y1, Mat.add_rr, Mat.from_ref, hnewp (.ref x) (.ref y) hd]
        · simp [build, x1, (ihb tb).2 cb]
      · simp [build, (iha ta).2 ca]
  | scale f g s a ih =>
    refine ⟨fun hc => ?_, fun hc => ?_⟩
    · obtain ⟨x, x1, x2, x3, x4, x5, x6⟩ := (ih ht).1 hc
      have hval : ∀ (_ : Add α) (_ : Mul α) (mem : Mem α) r c,
          (do let p ← matValue mem r c x; return s * p) =
            (Ex.scale f g s a).value mem r c := by
        intro _ _ mem r c
        simp only [value]
        rw [x6]
      cases f <;> cases g
      · exact ⟨.scalarMult x s, by simp [build, x1, Mat.mul_vs, Mat.scalar_mult_new], x2, x3, x4,
          x5, hval⟩
      · exact ⟨.scalarMult (.ref x) s, by
          simp [build, x1, Mat.mul_rs, Mat.scalar_mult_new, Mat.from_ref], x2, x3, x4, x5, hval⟩
      · exact ⟨.scalarMult x s, by simp [build, x1, Mat.mul_sv, Mat.scalar_mult_new], x2, x3, x4,
          x5, hval⟩
      · exact ⟨.scalarMult (.ref x) s, by
          simp [build, x1, Mat.mul_sr, Mat.scalar_mult_new, Mat.from_ref], x2, x3, x4, x5, hval⟩
    · simp [build, (ih ht).2 hc]

/-! ## eval -/

/-- Cells in other allocations are not cells of `m`. -/
theorem FrameOf.extends {m : BaseMatrix} {mem mem1 mem2 : Mem α} (h : FrameOf m mem1 mem2)
    (he : Extends mem mem1) (hf : Fresh m mem) : Extends mem mem2 := by
  refine ⟨by rw [h.nbufs]; exact he.1, fun q hq => ?_⟩
  rw [h.other q, he.2 q hq]
  intro r c _ e
  rw [e] at hq
  simp only [cell] at hq
  unfold Fresh at hf
  omega

theorem from_dimension_kind {l : Layout} (h : l.indexKind = .columnVector → l.dim.1 = 1) :
    l.indexKind.from_dimension l.dim = .ok l.index_layout := by
  cases l <;> simp_all [Layout.indexKind, BaseKind.from_dimension, Layout.index_layout, Layout.dim,
    RowMajor.from_dimension, ColumnMajor.from_dimension, RowVector.from_dimension,
    ColumnVector.from_dimension, UpperTriangular.from_dimension, Out.assert,
    RowMajor.index_layout, ColumnMajor.index_layout, RowVector.index_layout,
    ColumnVector.index_layout, UpperTriangular.index_layout, ArbitraryStrideRowMajor.index_layout,
    ArbitraryStrideColumnMajor.index_layout, ArbitraryStrideRowVector.index_layout,
    ArbitraryStrideColumnVector.index_layout]

/-- `eval` of a built expression. -/
theorem MatOK.eval [Target] [Zero α] [Add α] [Mul α] {mem : Mem α} {m : Mat α} (h : MatOK mem m) (cfg : Cfg)
    (hk : m.layout.indexKind = .columnVector → m.layout.dim.1 = 1)
    (hsz : count m.layout * cfg.item.size ≤ isizeMax) :
    ∃ R mem', m.eval cfg mem = .ok (R, mem') ∧ R.layout = m.layout.index_layout ∧
      R.rs = .dynamic ∧ R.cs = .dynamic ∧ Sound R mem' ∧ Fresh R mem ∧ Extends mem mem' ∧
      (∀ r c, Stored R.layout r c → elem R mem' r c = matValue mem r c m) ∧
      mem'.bufs.length = mem.bufs.length + 1 := by
  obtain ⟨h1, h2⟩ := zeros_from_dim_ok cfg (k := m.layout.indexKind) (rows := m.layout.dim.1)
    (cols := m.layout.dim.2) (l := m.layout.index_layout) (from_dimension_kind hk)
    (index_layout_contiguous _) (by rw [index_layout_count]; exact hsz) mem
  generalize hR : (⟨⟨mem.bufs.length, 0, count m.layout.index_layout⟩, m.layout.index_layout,
    .dynamic, .dynamic⟩ : BaseMatrix) = R at h1 h2
  have hRl : R.layout = m.layout.index_layout := by rw [← hR]
  have hRs : R.rs = .dynamic ∧ R.cs = .dynamic := by rw [← hR]; exact ⟨rfl, rfl⟩
  generalize (mem.alloc _).2 = mem0 at h1 h2
  have hn : NonOverlapping R.layout := by
    rw [hRl]; exact contiguous_nonOverlapping (index_layout_contiguous _)
  unfold Mat.eval
  simp only [h1, Out.bind_ok, h.number_of_elements cfg]
  have := forRange_inv (n := count m.layout) (s := mem0)
    (body := fun index mem => do
      let v ← m.get1d_unchecked cfg mem index
      let p ← R.get1d_unchecked_mut cfg index
      mem.write p v)
    (fun i mem1 => FrameOf R mem0 mem1 ∧ ∀ r c, Stored R.layout r c → index R.layout r c < i →
      elem R mem1 r c = matValue mem r c m)
    ⟨FrameOf.refl _ _, fun r c _ hi => by omega⟩ ?_
  · obtain ⟨mem', e, hfr, hv⟩ := this
    refine ⟨R, mem', by simp [e], hRl, hRs.1, hRs.2, h2.sound.mono (by rw [hfr.size]), h2.fresh,
      hfr.extends h2.ext h2.fresh, ?_, by rw [hfr.nbufs, h2.nbufs]⟩
    intro r c hs
    apply hv r c hs
    have := index_lt hs
    rwa [hRl, index_layout_count, ← hRl] at this
  · rintro i mem1 hi ⟨hfr, hv⟩
    obtain ⟨r, c, hs, rfl⟩ := exists_index hi
    have hext := hfr.extends h2.ext h2.fresh
    have hok1 : MatOK mem1 m := h.mono fun b => hext.size_le b
    obtain ⟨v, v1, -, v3⟩ := hok1.unchecked cfg hs
    have hval : matValue mem1 r c m = matValue mem r c m :=
      matValue_congr h (fun b hb r c hs => hext.elem hb hs) hs
    have hsR : Stored R.layout r c := by rw [hRl, index_layout_stored]; exact hs
    have hiR : index R.layout r c = index m.layout r c := by rw [hRl, index_layout_index]
    have hR1 : Sound R mem1 := h2.sound.mono (by rw [hfr.size])
    obtain ⟨mem2, hw, hu⟩ := Mem.write_upd (v := v) (hR1.cell_lt hsR)
    refine ⟨mem2, ?_, hfr.trans (FrameOf.of_upd hsR hu), ?_⟩
    · have hp := hR1.get1d_unchecked_mut cfg hsR
      rw [hiR] at hp
      simp only [v3, Out.bind_ok, hp, hw]
    · intro r' c' hs' hi'
      by_cases he : r' = r ∧ c' = c
      · obtain ⟨rfl, rfl⟩ := he
        rw [elem_upd_self hu, ← hval, v1]
      · rw [elem_upd_other hn hsR hu hs' he]
        apply hv r' c' hs'
        have : index R.layout r' c' ≠ index m.layout r c := by
          rw [← hiR]
          exact fun e => he (index_inj hs' hsR e)
        omega

end Householder.Spec
