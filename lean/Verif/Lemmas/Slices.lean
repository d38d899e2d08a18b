import Verif.Lemmas.Memory

/-! # Lemmas on slices and `for_each` -/

namespace Householder

variable {α : Type}

/-- `mapM` over a list of successful computations. -/
theorem mapM_eq_ok {α β : Type} {f : α → Out β} {g : α → β} {xs : List α}
    (h : ∀ a ∈ xs, f a = .ok (g a)) : xs.mapM f = .ok (xs.map g) := by
  induction xs with
  | nil => rfl
  | cons x xs ih =>
    simp [List.mapM_cons, h x (by simp), ih (fun a ha => h a (by simp [ha]))]

namespace Container

/-- The elements of a window inside memory. -/
theorem toList_ok {d : Container} {mem : Mem α} (hd : d.off + d.len ≤ mem.size d.buf) :
    ∃ xs, d.toList mem = .ok xs ∧ xs.length = d.len ∧
      ∀ i, i < d.len → xs[i]? = mem.get? ⟨d.buf, d.off + i⟩ := by
  by_cases h0 : d.len = 0
  · exact ⟨[], by simp [toList, h0], by simp [h0], by omega⟩
  obtain ⟨v0, hv0, -⟩ := get_unchecked_ok hd (show 0 < d.len by omega)
  have key : ∀ i, ∃ v, i < d.len →
      (d.get_unchecked mem i = .ok v ∧ mem.get? ⟨d.buf, d.off + i⟩ = some v) := by
    intro i
    by_cases hi : i < d.len
    · obtain ⟨v, hv⟩ := get_unchecked_ok hd hi
      exact ⟨v, fun _ => hv⟩
    · exact ⟨v0, fun h => absurd h hi⟩
  choose g hg using key
  refine ⟨(List.range d.len).map g, mapM_eq_ok ?_, by simp, ?_⟩
  · intro i hi
    exact (hg i (by simpa using hi)).1
  · intro i hi
    simp [hi, (hg i hi).2]

theorem get_slice_eq (d : Container) {first last : Nat} (h1 : first < last) (h2 : last ≤ d.len) :
    d.get_slice first last = .ok ⟨d.buf, d.off + first, last - first⟩ := by
  simp only [get_slice, get_pointer, Ptr.add, Ptr.from_raw_parts]
  rw [Out.assert_pos h1, Out.assert_pos (show last ≤ d.number_of_elements from h2)]
  simp only [Out.bind_ok, Nat.zero_add]
  rw [if_pos (by omega), Out.bind_ok, if_pos (by simp only; omega)]

theorem get_slice_panic (d : Container) {first last : Nat} (h : ¬ (first < last ∧ last ≤ d.len)) :
    d.get_slice first last = .panic := by
  unfold get_slice
  by_cases h1 : first < last
  · rw [Out.assert_pos h1, Out.assert_neg (show ¬ last ≤ d.number_of_elements from
      fun h2 => h ⟨h1, h2⟩)]; rfl
  · rw [Out.assert_neg h1]; rfl

theorem get_slice_mut_eq (d : Container) {first last : Nat} (h1 : first < last)
    (h2 : last ≤ d.len) :
    d.get_slice_mut first last = .ok ⟨d.buf, d.off + first, last - first⟩ := by
  simp only [get_slice_mut, get_pointer, Ptr.add, Ptr.from_raw_parts]
  rw [Out.assert_pos h1, Out.assert_pos (show last ≤ d.number_of_elements from h2),
    Out.assert_pos (show first < d.number_of_elements from by
      simp only [number_of_elements]; omega)]
  simp only [Out.bind_ok, Nat.zero_add]
  rw [if_pos (by omega), Out.bind_ok, if_pos (by simp only; omega)]

theorem get_slice_mut_panic (d : Container) {first last : Nat}
    (h : ¬ (first < last ∧ last ≤ d.len)) : d.get_slice_mut first last = .panic := by
  unfold get_slice_mut
  by_cases h1 : first < last
  · rw [Out.assert_pos h1]
    by_cases h3 : first < d.number_of_elements
    · rw [Out.assert_pos h3, Out.assert_neg (show ¬ last ≤ d.number_of_elements from
        fun h2 => h ⟨h1, h2⟩)]; rfl
    · rw [Out.assert_neg h3]; rfl
  · rw [Out.assert_neg h1]; rfl

/-- Storing a list through a window. -/
theorem writeList_ok {d : Container} {mem : Mem α} (hd : d.off + d.len ≤ mem.size d.buf)
    {xs : List α} (hx : xs.length ≤ d.len) :
    ∃ mem', d.writeList mem xs = .ok mem' ∧ (∀ b, mem'.size b = mem.size b) ∧
      mem'.bufs.length = mem.bufs.length ∧
      ∀ q, mem'.get? q = if q.buf = d.buf ∧ d.off ≤ q.idx ∧ q.idx < d.off + xs.length
        then xs[q.idx - d.off]? else mem.get? q := by
  unfold writeList
  rw [if_pos hx]
  have := forRange_inv (n := xs.length) (s := mem)
    (body := fun i mem => match xs[i]? with
      | some v => do
          let p ← d.get_unchecked_mut i
          mem.write p v
      | none => .panic)
    (fun i mem' => (∀ b, mem'.size b = mem.size b) ∧ mem'.bufs.length = mem.bufs.length ∧
      ∀ q, mem'.get? q = if q.buf = d.buf ∧ d.off ≤ q.idx ∧ q.idx < d.off + i
        then xs[q.idx - d.off]? else mem.get? q)
    ⟨fun _ => rfl, rfl, fun q => by rw [if_neg (by omega)]⟩ ?_
  · exact this
  · rintro i mem1 hi ⟨hs, hb, hg⟩
    obtain ⟨mem2, hw, hu⟩ := Mem.write_upd (mem := mem1) (p := ⟨d.buf, d.off + i⟩) (v := xs[i])
      (show d.off + i < mem1.size d.buf by rw [hs]; omega)
    refine ⟨mem2, ?_, fun b => by rw [hu.size, hs], by rw [hu.nbufs, hb], ?_⟩
    · rw [List.getElem?_eq_getElem hi]
      simp only [get_unchecked_mut_ok (show i < d.len by omega), Out.bind_ok, hw]
    · rintro ⟨qb, qi⟩
      rw [hu.get, hg]
      by_cases hq : (⟨qb, qi⟩ : Loc) = ⟨d.buf, d.off + i⟩
      · simp only [Loc.mk.injEq] at hq
        obtain ⟨rfl, rfl⟩ := hq
        simp [hi]
      · rw [if_neg hq]
        simp only [Loc.mk.injEq] at hq
        by_cases h1 : qb = d.buf ∧ d.off ≤ qi ∧ qi < d.off + i
        · rw [if_pos h1, if_pos ⟨h1.1, h1.2.1, by simp only; omega⟩]
        · rw [if_neg h1, if_neg]
          rintro ⟨h2, h3, h4⟩
          simp only at h2 h3 h4
          have : qi = d.off + i ∨ qi < d.off + i := by omega
          rcases this with h5 | h5
          · exact hq ⟨h2, h5⟩
          · exact h1 ⟨h2, h3, h5⟩

end Container

namespace Spec

/-- Changing memory only at cells of `m`. -/
structure FrameOf (m : BaseMatrix) (mem mem' : Mem α) : Prop where
  size : ∀ b, mem'.size b = mem.size b
  nbufs : mem'.bufs.length = mem.bufs.length
  other : ∀ q, (∀ r c, Stored m.layout r c → q ≠ cell m r c) → mem'.get? q = mem.get? q

theorem FrameOf.refl (m : BaseMatrix) (mem : Mem α) : FrameOf m mem mem :=
  ⟨fun _ => rfl, rfl, fun _ _ => rfl⟩

theorem FrameOf.of_upd {m : BaseMatrix} {mem mem' : Mem α} {r c : Nat} {v : α}
    (hs : Stored m.layout r c) (h : Mem.Upd mem mem' (cell m r c) v) : FrameOf m mem mem' :=
  ⟨h.size, h.nbufs, fun q hq => by rw [h.get, if_neg (hq r c hs)]⟩

theorem FrameOf.trans {m : BaseMatrix} {mem mem' mem'' : Mem α} (h : FrameOf m mem mem')
    (h' : FrameOf m mem' mem'') : FrameOf m mem mem'' :=
  ⟨fun b => by rw [h'.size, h.size], by rw [h'.nbufs, h.nbufs],
    fun q hq => by rw [h'.other q hq, h.other q hq]⟩

theorem elem_upd_self {m : BaseMatrix} {mem mem' : Mem α} {r c : Nat} {v : α}
    (h : Mem.Upd mem mem' (cell m r c) v) : elem m mem' r c = some v := by
  rw [elem, h.get, if_pos rfl]

theorem elem_upd_other {m : BaseMatrix} {mem mem' : Mem α} {r c : Nat} {v : α}
    (hn : NonOverlapping m.layout) (hs : Stored m.layout r c)
    (h : Mem.Upd mem mem' (cell m r c) v) {r' c' : Nat} (hs' : Stored m.layout r' c')
    (hne : ¬ (r' = r ∧ c' = c)) : elem m mem' r' c' = elem m mem r' c' := by
  rw [elem, h.get, if_neg (fun e => hne (cell_inj hn hs' hs e))]; rfl

/-- The loop over all elements of `m` in 1D order that `for_each` performs. -/
theorem Sound.for_each [Target] {σ : Type} {m : BaseMatrix} {mem : Mem α} (h : Sound m mem)
    (hn : NonOverlapping m.layout) (cfg : Cfg) (f : σ → α → σ × α) (s : σ) :
    ∃ (mem' : Mem α) (st : Nat → σ), m.for_each cfg f s mem = .ok (st (count m.layout), mem') ∧
      st 0 = s ∧
      (∀ k r c, (order m.layout)[k]? = some (r, c) → ∃ v, elem m mem r c = some v ∧
        (f (st k) v).1 = st (k + 1) ∧ elem m mem' r c = some (f (st k) v).2) ∧
      FrameOf m mem mem' := by
  unfold BaseMatrix.for_each
  rw [h.number_of_elements cfg]
  simp only [Out.bind_ok]
  have := forRange_inv (n := count m.layout) (s := (s, mem))
    (body := fun index st => do
      let p ← m.get1d_unchecked_mut cfg index
      let v ← st.2.read p
      let r := f st.1 v
      let mem' ← st.2.write p r.2
      return (r.1, mem'))
    (fun i x => ∃ st : Nat → σ, st 0 = s ∧ st i = x.1 ∧
      (∀ k r c, k < i → (order m.layout)[k]? = some (r, c) → ∃ v, elem m mem r c = some v ∧
        (f (st k) v).1 = st (k + 1) ∧ elem m x.2 r c = some (f (st k) v).2) ∧
      (∀ k r c, i ≤ k → (order m.layout)[k]? = some (r, c) → elem m x.2 r c = elem m mem r c) ∧
      FrameOf m mem x.2)
    ⟨fun _ => s, rfl, rfl, fun k r c hk => by omega, fun _ _ _ _ _ => rfl, FrameOf.refl _ _⟩ ?_
  · obtain ⟨⟨s', mem'⟩, h1, st, h2, h3, h4, h5, h6⟩ := this
    simp only at h3
    refine ⟨mem', st, by rw [h1, h3], h2, ?_, h6⟩
    intro k r c hk
    exact h4 k r c (by
      obtain ⟨h', _⟩ := List.getElem?_eq_some_iff.1 hk; rwa [order_length] at h') hk
  · rintro i ⟨s1, mem1⟩ hi ⟨st, h0, hsi, hdone, htodo, hfr⟩
    simp only at hsi hdone htodo hfr
    obtain ⟨r, c, hs, rfl⟩ := exists_index hi
    have ho := order_index hs
    have h1 : Sound m mem1 := h.mono (by rw [hfr.size])
    obtain ⟨v, hv⟩ := h1.elem_some hs
    obtain ⟨mem2, hw, hu⟩ := Mem.write_upd (v := (f s1 v).2) (h1.cell_lt hs)
    refine ⟨((f s1 v).1, mem2), ?_, fun k => if k = index m.layout r c + 1 then (f s1 v).1 else st k,
      ?_, ?_, ?_, ?_, ?_⟩
    · simp only [h1.get1d_unchecked_mut cfg hs, Out.bind_ok, Mem.read_ok_iff.2 hv, hw, Out.pure_eq]
    · simp [h0]
    · simp
    · intro k r' c' hk hk'
      by_cases hki : k = index m.layout r c
      · subst hki
        rw [ho] at hk'
        simp at hk'
        obtain ⟨rfl, rfl⟩ := hk'
        refine ⟨v, by rw [← htodo _ _ _ le_rfl ho, hv], ?_, ?_⟩
        · simp [hsi]
        · simp only [if_neg (show ¬ index m.layout r c = index m.layout r c + 1 by omega), hsi]
          exact elem_upd_self hu
      · have hlt : k < index m.layout r c := by omega
        obtain ⟨w, hw1, hw2, hw3⟩ := hdone k r' c' hlt hk'
        refine ⟨w, hw1, ?_, ?_⟩
        · simp only [if_neg (show ¬ k = index m.layout r c + 1 by omega),
            if_neg (show ¬ k + 1 = index m.layout r c + 1 by omega)]
          exact hw2
        · simp only [if_neg (show ¬ k = index m.layout r c + 1 by omega)]
          obtain ⟨hs', hk''⟩ := order_get_iff.1 hk'
          rw [elem_upd_other hn hs hu hs' (by rintro ⟨rfl, rfl⟩; omega)]
          exact hw3
    · intro k r' c' hk hk'
      obtain ⟨hs', hk''⟩ := order_get_iff.1 hk'
      show elem m mem2 r' c' = _
      rw [elem_upd_other hn hs hu hs' (by rintro ⟨rfl, rfl⟩; omega)]
      exact htodo k r' c' (by omega) hk'
    · exact hfr.trans (FrameOf.of_upd hs hu)

end Spec

end Householder
