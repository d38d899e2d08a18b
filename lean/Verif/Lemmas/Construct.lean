import Verif.Lemmas.Slices

/-! # Lemmas on constructors -/

namespace Householder.Spec

variable {α : Type}

theorem Extends.refl (mem : Mem α) : Extends mem mem := ⟨le_rfl, fun _ _ => rfl⟩

theorem Extends.trans {mem mem' mem'' : Mem α} (h : Extends mem mem') (h' : Extends mem' mem'') :
    Extends mem mem'' :=
  ⟨le_trans h.1 h'.1, fun q hq => by rw [h'.2 q (lt_of_lt_of_le hq h.1), h.2 q hq]⟩

theorem extends_alloc (mem : Mem α) (xs : List α) : Extends mem (mem.alloc xs).2 :=
  ⟨by simp [Mem.alloc], fun _ hq => Mem.alloc_get_old mem xs hq⟩

theorem size_eq_of_get {mem mem' : Mem α} {b : Nat}
    (h : ∀ i, mem'.get? ⟨b, i⟩ = mem.get? ⟨b, i⟩) : mem'.size b = mem.size b := by
  have key : ∀ i, i < mem'.size b ↔ i < mem.size b := by
    intro i
    have h1 := Mem.get?_isSome_iff (mem := mem') (p := ⟨b, i⟩)
    have h2 := Mem.get?_isSome_iff (mem := mem) (p := ⟨b, i⟩)
    rw [h i] at h1
    exact h1.symm.trans h2
  by_contra hne
  rcases Nat.lt_or_gt_of_ne hne with hlt | hgt
  · exact absurd ((key _).2 hlt) (lt_irrefl _)
  · exact absurd ((key _).1 hgt) (lt_irrefl _)

theorem Extends.size {mem mem' : Mem α} (h : Extends mem mem') {b : Nat}
    (hb : b < mem.bufs.length) : mem'.size b = mem.size b :=
  size_eq_of_get fun i => h.2 ⟨b, i⟩ hb

theorem Extends.size_le {mem mem' : Mem α} (h : Extends mem mem') (b : Nat) :
    mem.size b ≤ mem'.size b := by
  by_cases hb : b < mem.bufs.length
  · rw [h.size hb]
  · rw [Mem.size_eq_zero (by omega)]; omega

theorem Extends.sound [Target] {mem mem' : Mem α} (h : Extends mem mem') {m : BaseMatrix}
    (hm : Sound m mem) : Sound m mem' := hm.mono (h.size_le _)

theorem Extends.get_some {mem mem' : Mem α} (h : Extends mem mem') {p : Loc} {v : α}
    (hv : mem.get? p = some v) : mem'.get? p = some v := by
  rw [h.2 p (Mem.buf_lt_of_get hv), hv]

theorem Extends.elem [Target] {mem mem' : Mem α} (h : Extends mem mem') {m : BaseMatrix}
    (hm : Sound m mem) {r c : Nat} (hs : Stored m.layout r c) : elem m mem' r c = elem m mem r c := by
  obtain ⟨v, hv⟩ := hm.elem_some hs
  rw [hv]; exact h.get_some hv

/-- `get` on an existing matrix is not changed by growing the memory. -/
theorem Extends.get [Target] {mem mem' : Mem α} (h : Extends mem mem') {m : BaseMatrix}
    (hm : Sound m mem) (cfg : Cfg) {r c : Nat} (hs : Stored m.layout r c) :
    m.get cfg mem' r c = m.get cfg mem r c := by
  obtain ⟨v, hv⟩ := hm.elem_some hs
  rw [hm.get cfg hs hv, (h.sound hm).get cfg hs (by rw [h.elem hm hs, hv])]

theorem ContainerOK.mono [Target] {d : Container} {mem mem' : Mem α} (h : ContainerOK d mem)
    (hs : mem.size d.buf ≤ mem'.size d.buf) : ContainerOK d mem' :=
  ⟨le_trans h.window hs, h.small⟩

theorem four_mul_le [Target] {cfg : Cfg} {n : Nat} (h : n * cfg.item.size ≤ isizeMax) :
    n * 4 ≤ isizeMax := le_trans (Nat.mul_le_mul_left _ (ItemTy.four_le _)) h

/-- What every zero constructor returns. -/
structure ZeroMatrix [Target] [Zero α] (m : BaseMatrix) (mem mem' : Mem α) : Prop where
  sound : Sound m mem'
  zero : ∀ r c, Stored m.layout r c → elem m mem' r c = some 0
  fresh : Fresh m mem
  ext : Extends mem mem'
  buf : m.data.buf = mem.bufs.length
  nbufs : mem'.bufs.length = mem.bufs.length + 1
  off : m.data.off = 0
  len : m.data.len = count m.layout
  size : mem'.size m.data.buf = m.data.len

/-- A contiguous layout over a fresh zero buffer of the right size. -/
theorem zero_matrix_alloc [Target] [Zero α] (mem : Mem α) (l : Layout) (hl : Contiguous l) (rs cs : SizeId)
    (hn : count l * 4 ≤ isizeMax) :
    ZeroMatrix ⟨⟨mem.bufs.length, 0, count l⟩, l, rs, cs⟩ mem
      (mem.alloc (List.replicate (count l) 0)).2 := by
  have hsize : (mem.alloc (List.replicate (count l) (0 : α))).2.size mem.bufs.length = count l := by
    rw [Mem.alloc_size_new]; simp
  have hS : Sound (⟨⟨mem.bufs.length, 0, count l⟩, l, rs, cs⟩ : BaseMatrix)
      (mem.alloc (List.replicate (count l) (0 : α))).2 :=
    sound_of_contiguous hl ⟨by simp only; rw [hsize]; omega, hn⟩ le_rfl
  refine ⟨hS, ?_, le_rfl, extends_alloc _ _, rfl, by simp [Mem.alloc], rfl, rfl, hsize⟩
  intro r c hs
  have := hS.inside r c hs
  simp only at this
  simp only [elem, cell, Mem.alloc_get_new, Nat.zero_add]
  simp [this]

theorem tri_fits_of_small [Target] {l : Layout} (h : count l * 4 ≤ isizeMax) : TriFits l := by
  cases l <;> simp only [TriFits]
  case upperTriangular u =>
    simp only [count] at h
    have := two_tri u.dim
    have := small_W h
    omega

theorem number_of_elements_small [Target] (cfg : Cfg) {l : Layout} (h : count l * 4 ≤ isizeMax) :
    l.number_of_elements cfg = .ok (count l) :=
  number_of_elements_ok cfg (small_W h).2.1 (tri_fits_of_small h)

theorem from_data_small [Target] (cfg : Cfg) (rs cs : SizeId) {d : Container} {l : Layout}
    (h : d.len * 4 ≤ isizeMax) (hc : count l ≤ d.len) :
    from_data cfg rs cs d l = .ok ⟨d, l, rs, cs⟩ := by
  rw [from_data_eq cfg rs cs d l (number_of_elements_small cfg (by omega)), if_pos hc]

/-- `zeros_from_dim` when the shape is possible and can be allocated. -/
theorem zeros_from_dim_ok [Target] [Zero α] (cfg : Cfg) {k : BaseKind} {rows cols : Nat} {l : Layout}
    (hk : k.from_dimension (rows, cols) = .ok l) (hl : Contiguous l)
    (hsz : count l * cfg.item.size ≤ isizeMax) (mem : Mem α) :
    zeros_from_dim cfg k rows cols mem =
        .ok (⟨⟨mem.bufs.length, 0, count l⟩, l, .dynamic, .dynamic⟩,
          (mem.alloc (List.replicate (count l) 0)).2) ∧
      ZeroMatrix ⟨⟨mem.bufs.length, 0, count l⟩, l, .dynamic, .dynamic⟩ mem
        (mem.alloc (List.replicate (count l) 0)).2 := by
  have h4 := four_mul_le hsz
  refine ⟨?_, zero_matrix_alloc mem l hl _ _ h4⟩
  unfold zeros_from_dim
  simp only [hk, Out.bind_ok, number_of_elements_small cfg h4, Container.newVector, hsz, if_true,
    Mem.alloc_fst]
  rw [from_data_small cfg _ _ (d := ⟨mem.bufs.length, 0, count l⟩) h4 le_rfl]
  rfl

/-- The vector constructors. -/
theorem zeros_row_ok [Target] [Zero α] (cfg : Cfg) {n : Nat} (hsz : n * cfg.item.size ≤ isizeMax)
    (mem : Mem α) :
    RowVectorD.zeros_from_length cfg n mem =
        .ok (⟨⟨mem.bufs.length, 0, n⟩, .rowVector ⟨n⟩, .fixed1, .dynamic⟩,
          (mem.alloc (List.replicate n 0)).2) ∧
      ZeroMatrix ⟨⟨mem.bufs.length, 0, n⟩, .rowVector ⟨n⟩, .fixed1, .dynamic⟩ mem
        (mem.alloc (List.replicate n 0)).2 := by
  have h4 := four_mul_le hsz
  refine ⟨?_, zero_matrix_alloc mem (.rowVector ⟨n⟩) trivial _ _ h4⟩
  unfold RowVectorD.zeros_from_length
  simp only [Container.newVector, hsz, if_true, Mem.alloc_fst, Out.bind_ok, RowVector.from_length]
  rw [from_data_small cfg _ _ (d := ⟨mem.bufs.length, 0, n⟩) h4 (le_of_eq rfl)]
  rfl

theorem zeros_col_ok [Target] [Zero α] (cfg : Cfg) {n : Nat} (hsz : n * cfg.item.size ≤ isizeMax)
    (mem : Mem α) :
    ColumnVectorD.zeros_from_length cfg n mem =
        .ok (⟨⟨mem.bufs.length, 0, n⟩, .columnVector ⟨n⟩, .dynamic, .fixed1⟩,
          (mem.alloc (List.replicate n 0)).2) ∧
      ZeroMatrix ⟨⟨mem.bufs.length, 0, n⟩, .columnVector ⟨n⟩, .dynamic, .fixed1⟩ mem
        (mem.alloc (List.replicate n 0)).2 := by
  have h4 := four_mul_le hsz
  refine ⟨?_, zero_matrix_alloc mem (.columnVector ⟨n⟩) trivial _ _ h4⟩
  unfold ColumnVectorD.zeros_from_length
  simp only [Container.newVector, hsz, if_true, Mem.alloc_fst, Out.bind_ok,
    ColumnVector.from_length]
  rw [from_data_small cfg _ _ (d := ⟨mem.bufs.length, 0, n⟩) h4 (le_of_eq rfl)]
  rfl

theorem row_zeros_from_dim_eq [Target] [Zero α] (cfg : Cfg) (rows cols : Nat) (mem : Mem α) :
    RowVectorD.zeros_from_dim cfg rows cols mem =
      if rows = 1 then RowVectorD.zeros_from_length cfg cols mem else .panic := by
  unfold RowVectorD.zeros_from_dim
  by_cases h : rows = 1
  · rw [Out.assert_pos h, if_pos h]; rfl
  · rw [Out.assert_neg h, if_neg h]; rfl

theorem col_zeros_from_dim_eq [Target] [Zero α] (cfg : Cfg) (rows cols : Nat) (mem : Mem α) :
    ColumnVectorD.zeros_from_dim cfg rows cols mem =
      if cols = 1 then ColumnVectorD.zeros_from_length cfg rows mem else .panic := by
  unfold ColumnVectorD.zeros_from_dim
  by_cases h : cols = 1
  · rw [Out.assert_pos h, if_pos h]; rfl
  · rw [Out.assert_neg h, if_neg h]; rfl

end Householder.Spec
