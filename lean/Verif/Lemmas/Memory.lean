import Verif.Spec.Matrix
import Verif.Lemmas.Layout
import Verif.Model.Constructors

/-! # Lemmas on memory, containers and element access -/

namespace Householder

variable {α : Type}

namespace Mem

theorem get?_isSome_iff {mem : Mem α} {p : Loc} :
    (∃ v, mem.get? p = some v) ↔ p.idx < mem.size p.buf := by
  unfold get? size
  cases h : mem.bufs[p.buf]? with
  | none => simp
  | some xs =>
    simp only [Option.bind_some, Option.getD_some]
    rw [← Option.isSome_iff_exists]; simp

theorem get?_eq_none {mem : Mem α} {p : Loc} (h : mem.size p.buf ≤ p.idx) : mem.get? p = none := by
  cases hg : mem.get? p with
  | none => rfl
  | some v => exact absurd (get?_isSome_iff.1 ⟨v, hg⟩) (by omega)

theorem read_ok_iff {mem : Mem α} {p : Loc} {v : α} : mem.read p = .ok v ↔ mem.get? p = some v := by
  unfold read
  cases mem.get? p <;> simp

theorem read_ok {mem : Mem α} {p : Loc} (h : p.idx < mem.size p.buf) :
    ∃ v, mem.read p = .ok v ∧ mem.get? p = some v := by
  obtain ⟨v, hv⟩ := get?_isSome_iff.2 h
  exact ⟨v, read_ok_iff.2 hv, hv⟩

/-- A write changes exactly one place and no size. -/
structure Upd (mem mem' : Mem α) (p : Loc) (v : α) : Prop where
  size : ∀ b, mem'.size b = mem.size b
  get : ∀ q, mem'.get? q = if q = p then some v else mem.get? q
  nbufs : mem'.bufs.length = mem.bufs.length

theorem write_upd {mem : Mem α} {p : Loc} {v : α} (h : p.idx < mem.size p.buf) :
    ∃ mem', mem.write p v = .ok mem' ∧ Upd mem mem' p v := by
  obtain ⟨w, hw⟩ := get?_isSome_iff.2 h
  refine ⟨⟨mem.bufs.modify p.buf (·.set p.idx v)⟩, by simp [write, hw], ?_, ?_, ?_⟩
  · intro b
    simp only [size, List.getElem?_modify]
    cases hb : mem.bufs[b]? with
    | none => simp
    | some xs => by_cases hpb : p.buf = b <;> simp [hpb]
  · rintro ⟨qb, qi⟩
    obtain ⟨pb, pi⟩ := p
    simp only [get?, List.getElem?_modify, Loc.mk.injEq]
    by_cases hb : pb = qb
    · subst hb
      simp only [if_true, true_and]
      have hlt : pi < mem.size pb := h
      unfold size at hlt
      cases hx : mem.bufs[pb]? with
      | none => simp [hx] at hlt
      | some xs =>
        rw [hx] at hlt
        simp only [Option.getD_some] at hlt
        simp only [Option.bind_some]
        by_cases hi : pi = qi
        · subst hi; simp [hlt]
        · simp [hi, Ne.symm hi]
    · simp [hb, Ne.symm hb]
  · simp

theorem write_ok_upd {mem mem' : Mem α} {p : Loc} {v : α} (h : mem.write p v = .ok mem') :
    Upd mem mem' p v := by
  have hlt : p.idx < mem.size p.buf := by
    rw [← get?_isSome_iff]
    unfold write at h
    cases hg : mem.get? p with
    | none => simp [hg] at h
    | some w => exact ⟨w, rfl⟩
  obtain ⟨mem'', h1, h2⟩ := write_upd (v := v) hlt
  rw [h] at h1
  cases h1
  exact h2

theorem alloc_fst (mem : Mem α) (xs : List α) : (mem.alloc xs).1 = mem.bufs.length := rfl

theorem alloc_size_new (mem : Mem α) (xs : List α) :
    (mem.alloc xs).2.size mem.bufs.length = xs.length := by
  simp [alloc, size]

theorem alloc_get_new (mem : Mem α) (xs : List α) (i : Nat) :
    (mem.alloc xs).2.get? ⟨mem.bufs.length, i⟩ = xs[i]? := by
  simp [alloc, get?]

theorem size_eq_zero {mem : Mem α} {b : Nat} (h : mem.bufs.length ≤ b) : mem.size b = 0 := by
  simp [size, List.getElem?_eq_none h]

theorem alloc_size_old (mem : Mem α) (xs : List α) {b : Nat} (h : b < mem.bufs.length) :
    (mem.alloc xs).2.size b = mem.size b := by
  simp [alloc, size, List.getElem?_append_left h]

theorem alloc_get_old (mem : Mem α) (xs : List α) {p : Loc} (h : p.buf < mem.bufs.length) :
    (mem.alloc xs).2.get? p = mem.get? p := by
  simp [alloc, get?, List.getElem?_append_left h]

theorem buf_lt_of_size {mem : Mem α} {b : Nat} (h : 0 < mem.size b) : b < mem.bufs.length := by
  by_contra hb
  rw [size_eq_zero (by omega)] at h
  omega

theorem buf_lt_of_get {mem : Mem α} {p : Loc} {v : α} (h : mem.get? p = some v) :
    p.buf < mem.bufs.length :=
  buf_lt_of_size (by have := get?_isSome_iff.1 ⟨v, h⟩; omega)

/-- Two memories with the same sizes and contents are equal. -/
theorem ext_get {mem mem' : Mem α} (hn : mem.bufs.length = mem'.bufs.length)
    (h : ∀ p, mem.get? p = mem'.get? p) : mem = mem' := by
  cases mem with | mk bs => cases mem' with | mk bs' =>
  simp only [Mem.mk.injEq]
  apply List.ext_getElem hn
  intro b h1 h2
  apply List.ext_getElem?
  intro i
  have := h ⟨b, i⟩
  simpa [get?, h1, h2] using this

end Mem

namespace Container

theorem get_unchecked_ok {d : Container} {mem : Mem α} (hd : d.off + d.len ≤ mem.size d.buf)
    {i : Nat} (hi : i < d.len) :
    ∃ v, d.get_unchecked mem i = .ok v ∧ mem.get? ⟨d.buf, d.off + i⟩ = some v := by
  obtain ⟨v, h1, h2⟩ := Mem.read_ok (mem := mem) (p := ⟨d.buf, d.off + i⟩)
    (show d.off + i < mem.size d.buf by omega)
  exact ⟨v, by simp [get_unchecked, hi, h1], h2⟩

theorem get_unchecked_mut_ok {d : Container} {i : Nat} (hi : i < d.len) :
    d.get_unchecked_mut i = .ok ⟨d.buf, d.off + i⟩ := by simp [get_unchecked_mut, hi]

end Container

namespace Spec

theorem small_W [Target] {n : Nat} (h : n * 4 ≤ isizeMax) : 2 * n < W ∧ n < W ∧ n ≤ isizeMax := by
  have := W_eq; omega

theorem ItemTy.four_le (t : ItemTy) : 4 ≤ t.size := by cases t <;> decide

theorem Sound.triFits [Target] {m : BaseMatrix} {mem : Mem α} (h : Sound m mem) : TriFits m.layout := by
  have h1 := h.count_le
  have h2 := small_W h.container.small
  cases hl : m.layout <;> simp only [TriFits]
  case upperTriangular u =>
    rw [hl] at h1
    simp only [count] at h1
    have := two_tri u.dim
    omega

theorem Sound.count_lt [Target] {m : BaseMatrix} {mem : Mem α} (h : Sound m mem) : count m.layout < W := by
  have h1 := h.count_le
  have h2 := small_W h.container.small
  omega

theorem Sound.raw_lt [Target] {m : BaseMatrix} {mem : Mem α} (h : Sound m mem) {r c : Nat}
    (hs : Stored m.layout r c) : raw m.layout r c < W := by
  have h1 := h.inside r c hs
  have h2 := small_W h.container.small
  omega

theorem Sound.cell_lt [Target] {m : BaseMatrix} {mem : Mem α} (h : Sound m mem) {r c : Nat}
    (hs : Stored m.layout r c) : (cell m r c).idx < mem.size (cell m r c).buf := by
  have h1 := h.inside r c hs
  have h2 := h.container.window
  simp only [cell]; omega

theorem Sound.number_of_elements [Target] {m : BaseMatrix} {mem : Mem α} (h : Sound m mem) (cfg : Cfg) :
    m.layout.number_of_elements cfg = .ok (count m.layout) :=
  number_of_elements_ok cfg h.count_lt h.triFits

/-- Soundness only depends on the sizes of the allocations. -/
theorem Sound.mono [Target] {β : Type} {m : BaseMatrix} {mem : Mem α} {mem' : Mem β} (h : Sound m mem)
    (hs : mem.size m.data.buf ≤ mem'.size m.data.buf) : Sound m mem' :=
  ⟨⟨le_trans h.container.window hs, h.container.small⟩, h.inside, h.count_le⟩

theorem Sound.elem_some [Target] {m : BaseMatrix} {mem : Mem α} (h : Sound m mem) {r c : Nat}
    (hs : Stored m.layout r c) : ∃ v, elem m mem r c = some v :=
  Mem.get?_isSome_iff.2 (h.cell_lt hs)

theorem Sound.get_unchecked [Target] {m : BaseMatrix} {mem : Mem α} (h : Sound m mem) (cfg : Cfg)
    {r c : Nat} (hs : Stored m.layout r c) {v : α} (hv : elem m mem r c = some v) :
    m.get_unchecked cfg mem r c = .ok v := by
  unfold BaseMatrix.get_unchecked
  rw [convert_2d_raw_ok cfg hs (h.raw_lt hs) h.triFits]
  obtain ⟨w, h1, h2⟩ := Container.get_unchecked_ok h.container.window (h.inside r c hs)
  simp only [Out.bind_ok, h1]
  have : some w = some v := by rw [← h2, ← hv]; rfl
  simpa using this

theorem Sound.get1d_unchecked [Target] {m : BaseMatrix} {mem : Mem α} (h : Sound m mem) (cfg : Cfg)
    {r c : Nat} (hs : Stored m.layout r c) {v : α} (hv : elem m mem r c = some v) :
    m.get1d_unchecked cfg mem (index m.layout r c) = .ok v := by
  have := h.get_unchecked cfg hs hv
  unfold BaseMatrix.get1d_unchecked
  rw [convert_1d_raw_eq cfg hs h.count_lt h.triFits]
  exact this

theorem Sound.get_unchecked_mut [Target] {m : BaseMatrix} {mem : Mem α} (h : Sound m mem) (cfg : Cfg)
    {r c : Nat} (hs : Stored m.layout r c) : m.get_unchecked_mut cfg r c = .ok (cell m r c) := by
  unfold BaseMatrix.get_unchecked_mut
  rw [convert_2d_raw_ok cfg hs (h.raw_lt hs) h.triFits]
  simp only [Out.bind_ok]
  exact Container.get_unchecked_mut_ok (h.inside r c hs)

theorem Sound.get1d_unchecked_mut [Target] {m : BaseMatrix} {mem : Mem α} (h : Sound m mem) (cfg : Cfg)
    {r c : Nat} (hs : Stored m.layout r c) :
    m.get1d_unchecked_mut cfg (index m.layout r c) = .ok (cell m r c) := by
  have := h.get_unchecked_mut cfg hs
  unfold BaseMatrix.get1d_unchecked_mut
  rw [convert_1d_raw_eq cfg hs h.count_lt h.triFits]
  exact this

theorem assert_dimension_ok {r c : Nat} {d : Nat × Nat} (h1 : r < d.1) (h2 : c < d.2) :
    assert_dimension r c d = .ok () := by
  simp [assert_dimension, Out.assert, h1, h2]

theorem assert_dimension_panic {r c : Nat} {d : Nat × Nat} (h : ¬ (r < d.1 ∧ c < d.2)) :
    assert_dimension r c d = .panic := by
  unfold assert_dimension Out.assert
  by_cases h1 : r < d.1
  · simp [h1, show ¬ c < d.2 from fun h2 => h ⟨h1, h2⟩]
  · simp [h1]

/-- `get` at a stored position returns the element. -/
theorem Sound.get [Target] {m : BaseMatrix} {mem : Mem α} (h : Sound m mem) (cfg : Cfg)
    {r c : Nat} (hs : Stored m.layout r c) {v : α} (hv : elem m mem r c = some v) :
    m.get cfg mem r c = .ok v := by
  unfold BaseMatrix.get
  rw [assert_dimension_ok hs.1 hs.2.1]
  exact h.get_unchecked cfg hs hv

theorem Sound.get_iff [Target] {m : BaseMatrix} {mem : Mem α} (h : Sound m mem) (cfg : Cfg)
    {r c : Nat} (hs : Stored m.layout r c) (v : α) :
    m.get cfg mem r c = .ok v ↔ elem m mem r c = some v := by
  obtain ⟨w, hw⟩ := h.elem_some hs
  rw [h.get cfg hs hw, hw]
  simp

theorem Sound.get1d [Target] {m : BaseMatrix} {mem : Mem α} (h : Sound m mem) (cfg : Cfg)
    {r c : Nat} (hs : Stored m.layout r c) {v : α} (hv : elem m mem r c = some v) :
    m.get1d cfg mem (index m.layout r c) = .ok v := by
  unfold BaseMatrix.get1d
  rw [h.number_of_elements cfg]
  simp only [Out.bind_ok, assert_dimension1d, Out.assert_pos (index_lt hs)]
  exact h.get1d_unchecked cfg hs hv

theorem Sound.get_mut [Target] {m : BaseMatrix} {mem : Mem α} (h : Sound m mem) (cfg : Cfg)
    {r c : Nat} (hs : Stored m.layout r c) : m.get_mut cfg r c = .ok (cell m r c) := by
  unfold BaseMatrix.get_mut
  rw [assert_dimension_ok hs.1 hs.2.1]
  exact h.get_unchecked_mut cfg hs

theorem Sound.get1d_mut [Target] {m : BaseMatrix} {mem : Mem α} (h : Sound m mem) (cfg : Cfg)
    {r c : Nat} (hs : Stored m.layout r c) :
    m.get1d_mut cfg (index m.layout r c) = .ok (cell m r c) := by
  unfold BaseMatrix.get1d_mut
  rw [h.number_of_elements cfg]
  simp only [Out.bind_ok, assert_dimension1d, Out.assert_pos (index_lt hs)]
  exact h.get1d_unchecked_mut cfg hs

/-- 2D access outside the dimension panics, on every matrix. -/
theorem get_panic [Target] (cfg : Cfg) (m : BaseMatrix) (mem : Mem α) {r c : Nat}
    (h : ¬ (r < m.layout.dim.1 ∧ c < m.layout.dim.2)) : m.get cfg mem r c = .panic := by
  unfold BaseMatrix.get; rw [assert_dimension_panic h]; rfl

theorem get_mut_panic [Target] (cfg : Cfg) (m : BaseMatrix) {r c : Nat}
    (h : ¬ (r < m.layout.dim.1 ∧ c < m.layout.dim.2)) : m.get_mut cfg r c = .panic := by
  unfold BaseMatrix.get_mut; rw [assert_dimension_panic h]; rfl

theorem Sound.get1d_panic [Target] {m : BaseMatrix} {mem : Mem α} (h : Sound m mem) (cfg : Cfg) {k : Nat}
    (hk : ¬ k < count m.layout) : m.get1d cfg mem k = .panic := by
  unfold BaseMatrix.get1d
  rw [h.number_of_elements cfg]
  simp [assert_dimension1d, Out.assert_neg hk]

theorem Sound.get1d_mut_panic [Target] {m : BaseMatrix} {mem : Mem α} (h : Sound m mem) (cfg : Cfg) {k : Nat}
    (hk : ¬ k < count m.layout) : m.get1d_mut cfg k = .panic := by
  unfold BaseMatrix.get1d_mut
  rw [h.number_of_elements cfg]
  simp [assert_dimension1d, Out.assert_neg hk]

/-- Below the diagonal the raw conversion of a triangle panics. -/
theorem tri_convert_panic [Target] (cfg : Cfg) (u : UpperTriangular) {r c : Nat} (h : c < r) :
    u.convert_2d_1d cfg r c = .panic ∧ u.convert_2d_raw cfg r c = .panic := by
  have h1 : u.convert_2d_1d cfg r c = .panic := by
    unfold UpperTriangular.convert_2d_1d
    rw [Out.assert_neg (by omega)]; rfl
  exact ⟨h1, by unfold UpperTriangular.convert_2d_raw; rw [h1]; rfl⟩

/-- A write through `set` updates exactly the cell of the element. -/
theorem Sound.set [Target] {m : BaseMatrix} {mem : Mem α} (h : Sound m mem) (cfg : Cfg)
    {r c : Nat} (hs : Stored m.layout r c) (v : α) :
    ∃ mem', m.set cfg mem r c v = .ok mem' ∧ Mem.Upd mem mem' (cell m r c) v := by
  obtain ⟨mem', h1, h2⟩ := Mem.write_upd (v := v) (h.cell_lt hs)
  exact ⟨mem', by simp [BaseMatrix.set, h.get_mut cfg hs, h1], h2⟩

theorem Sound.set1d [Target] {m : BaseMatrix} {mem : Mem α} (h : Sound m mem) (cfg : Cfg)
    {r c : Nat} (hs : Stored m.layout r c) (v : α) :
    ∃ mem', m.set1d cfg mem (index m.layout r c) v = .ok mem' ∧ Mem.Upd mem mem' (cell m r c) v := by
  obtain ⟨mem', h1, h2⟩ := Mem.write_upd (v := v) (h.cell_lt hs)
  exact ⟨mem', by simp [BaseMatrix.set1d, h.get1d_mut cfg hs, h1], h2⟩

theorem cell_inj {m : BaseMatrix} (hn : NonOverlapping m.layout) {r c r' c' : Nat}
    (h : Stored m.layout r c) (h' : Stored m.layout r' c') (e : cell m r c = cell m r' c') :
    r = r' ∧ c = c' := by
  simp only [cell, Loc.mk.injEq, true_and] at e
  exact raw_inj hn h h' (by omega)

theorem contiguous_nonOverlapping {l : Layout} (h : Contiguous l) : NonOverlapping l := by
  cases l <;> simp_all [Contiguous, NonOverlapping]

/-! ## Construction -/

theorem from_data_eq [Target] (cfg : Cfg) (rs cs : SizeId) (d : Container) (l : Layout) {n : Nat}
    (h : l.number_of_elements cfg = .ok n) :
    from_data cfg rs cs d l = if n ≤ d.len then .ok ⟨d, l, rs, cs⟩ else .panic := by
  simp only [from_data, BaseMatrix.new, h, Out.bind_ok]
  by_cases hn : n ≤ d.len
  · rw [Out.assert_pos (show n ≤ d.number_of_elements from hn), if_pos hn]; rfl
  · rw [Out.assert_neg (show ¬ n ≤ d.number_of_elements from hn), if_neg hn]; rfl

/-- A contiguous layout on a container that is large enough is sound. -/
theorem sound_of_contiguous [Target] {m : BaseMatrix} {mem : Mem α} (hc : Contiguous m.layout)
    (hd : ContainerOK m.data mem) (hn : count m.layout ≤ m.data.len) : Sound m mem :=
  ⟨hd, fun r c hs => by rw [raw_eq_index hc]; exact lt_of_lt_of_le (index_lt hs) hn, hn⟩

/-- What `from_data` checked, when it succeeded and its element count did not wrap. -/
theorem from_data_ok [Target] {cfg : Cfg} {rs cs : SizeId} {d : Container} {l : Layout} {m : BaseMatrix}
    (h : from_data cfg rs cs d l = .ok m)
    (hm : cfg.overflowChecks = true ∨ (count l < W ∧ TriFits l)) :
    m = ⟨d, l, rs, cs⟩ ∧ count l ≤ d.len := by
  simp only [from_data, BaseMatrix.new, Out.bind_eq_ok] at h
  obtain ⟨n, h1, _, h2, h3⟩ := h
  rw [Out.assert_eq_ok] at h2
  replace h2 : n ≤ d.len := h2
  simp at h3
  refine ⟨h3.symm, ?_⟩
  rcases hm with hc | ⟨h4, h5⟩
  · rw [← (number_of_elements_exact hc h1).1]; exact h2
  · rw [number_of_elements_ok cfg h4 h5] at h1
    simp at h1
    omega

end Spec

end Householder
