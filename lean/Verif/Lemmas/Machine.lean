import Verif.Spec.Machine
import Verif.Props.Histories

/-! # Lemmas on the abstract machine -/

namespace Householder.Spec

variable {α : Type}

/-! ## Cells -/

theorem get?_load [Zero α] {mem : Mem α} {p : Loc} (h : p.idx < mem.size p.buf) :
    mem.get? p = some (load mem.bufs p.buf p.idx) := by
  obtain ⟨v, hv⟩ := Mem.get?_isSome_iff.2 h
  rw [hv]
  unfold Mem.get? at hv
  unfold load
  cases hb : mem.bufs[p.buf]? with
  | none => simp [hb] at hv
  | some xs =>
    simp only [hb, Option.bind_some] at hv
    simp [hv]

theorem read_load [Zero α] {mem : Mem α} {p : Loc} (h : p.idx < mem.size p.buf) :
    mem.read p = .ok (load mem.bufs p.buf p.idx) := Mem.read_ok_iff.2 (get?_load h)

theorem write_save {mem : Mem α} {p : Loc} (v : α) (h : p.idx < mem.size p.buf) :
    mem.write p v = .ok ⟨save mem.bufs p.buf p.idx v⟩ := by
  obtain ⟨w, hw⟩ := Mem.get?_isSome_iff.2 h
  simp [Mem.write, hw, save]

theorem save_upd {mem : Mem α} {p : Loc} (v : α) (h : p.idx < mem.size p.buf) :
    Mem.Upd mem ⟨save mem.bufs p.buf p.idx v⟩ p v := Mem.write_ok_upd (write_save v h)

theorem save_load [Zero α] {mem : Mem α} {p : Loc} (h : p.idx < mem.size p.buf) :
    save mem.bufs p.buf p.idx (load mem.bufs p.buf p.idx) = mem.bufs := by
  have hu := save_upd (load mem.bufs p.buf p.idx) h
  have : (⟨save mem.bufs p.buf p.idx (load mem.bufs p.buf p.idx)⟩ : Mem α) = mem := by
    refine Mem.ext_get hu.nbufs fun q => ?_
    rw [hu.get]
    split
    · rename_i e; rw [e, get?_load h]
    · rfl
  exact congrArg Mem.bufs this

/-- Changing several cells. -/
theorem foldl_save {I : Type} (b : Nat) (place : I → Nat) (v : I → α) (is : List I)
    (hinj : ∀ i ∈ is, ∀ j ∈ is, place i = place j → i = j) (mem : Mem α)
    (hin : ∀ i ∈ is, place i < mem.size b) :
    ∃ mem' : Mem α, is.foldl (fun x i => save x b (place i) (v i)) mem.bufs = mem'.bufs ∧
      (∀ x, mem'.size x = mem.size x) ∧ mem'.bufs.length = mem.bufs.length ∧
      (∀ i ∈ is, mem'.get? ⟨b, place i⟩ = some (v i)) ∧
      ∀ q : Loc, (∀ i ∈ is, q ≠ ⟨b, place i⟩) → mem'.get? q = mem.get? q := by
  induction is generalizing mem with
  | nil => exact ⟨mem, rfl, fun _ => rfl, rfl, by simp, fun _ _ => rfl⟩
  | cons i is ih =>
    have hu := save_upd (mem := mem) (p := ⟨b, place i⟩) (v i) (hin i (by simp))
    obtain ⟨mem', e, h1, h2, h3, h4⟩ := ih
      (fun i hi j hj => hinj i (by simp [hi]) j (by simp [hj]))
      ⟨save mem.bufs b (place i) (v i)⟩ (fun j hj => by
        rw [hu.size]; exact hin j (by simp [hj]))
    refine ⟨mem', e, fun x => by rw [h1, hu.size], by rw [h2, hu.nbufs], ?_, ?_⟩
    · intro j hj
      by_cases hji : j ∈ is
      · exact h3 j hji
      · obtain rfl : j = i := by simpa [hji] using hj
        rw [h4 _ fun k hk e => hji (by
          have e : place j = place k := by simpa using e
          rw [hinj j (by simp) k (by simp [hk]) e]; exact hk), hu.get, if_pos rfl]
    · intro q hq
      rw [h4 q fun j hj => hq j (by simp [hj]), hu.get, if_neg (hq i (by simp))]

/-! ## Matrices -/

/-- The matrix `b` in memory is the matrix `m` of the machine. -/
structure Rep [Target] (mem : Mem α) (b : BaseMatrix) (m : AMat) : Prop where
  sound : Sound b mem
  store : b.data.buf = m.store
  lo : b.data.off = m.lo
  len : b.data.len = m.len
  kind : b.layout.indexKind = m.kind
  sizes : (b.rs, b.cs) = m.sizes
  dim : b.layout.dim = m.dim
  plain : isBaseLayout b.layout = m.plain
  place : ∀ r c, Stored b.layout r c → m.place r c = b.data.off + raw b.layout r c

theorem Rep.mono [Target] {mem mem' : Mem α} {b : BaseMatrix} {m : AMat} (h : Rep mem b m)
    (hs : ∀ x, mem.size x ≤ mem'.size x) : Rep mem' b m :=
  { h with sound := h.sound.mono (hs _) }

theorem Rep.positions [Target] {mem : Mem α} {b : BaseMatrix} {m : AMat} (h : Rep mem b m) :
    m.positions = order b.layout := by
  rw [AMat.positions, order_eq_orderOf, h.kind, h.dim]

theorem Rep.stored [Target] {mem : Mem α} {b : BaseMatrix} {m : AMat} (h : Rep mem b m) {r c : Nat} :
    (r, c) ∈ m.positions ↔ Stored b.layout r c := by rw [h.positions, mem_order]

theorem Rep.cell [Target] {mem : Mem α} {b : BaseMatrix} {m : AMat} (h : Rep mem b m) {r c : Nat}
    (hs : Stored b.layout r c) : cell b r c = ⟨m.store, m.place r c⟩ := by
  rw [Spec.cell, h.store, h.place r c hs]

theorem Rep.lt [Target] {mem : Mem α} {b : BaseMatrix} {m : AMat} (h : Rep mem b m) {r c : Nat}
    (hs : Stored b.layout r c) : m.place r c < mem.size m.store := by
  have := h.sound.cell_lt hs
  rwa [h.cell hs] at this

theorem Rep.elem [Target] [Zero α] {mem : Mem α} {b : BaseMatrix} {m : AMat} (h : Rep mem b m) {r c : Nat}
    (hs : Stored b.layout r c) : elem b mem r c = some (m.load mem.bufs r c) := by
  rw [Spec.elem, h.cell hs, AMat.load, get?_load (h.lt hs)]

theorem Rep.write [Target] {mem : Mem α} {b : BaseMatrix} {m : AMat} (h : Rep mem b m) {r c : Nat}
    (hs : Stored b.layout r c) (v : α) :
    mem.write (Spec.cell b r c) v = .ok ⟨m.save mem.bufs r c v⟩ ∧
      ∀ x, (⟨m.save mem.bufs r c v⟩ : Mem α).size x = mem.size x := by
  have hu := save_upd (mem := mem) (p := ⟨m.store, m.place r c⟩) v (h.lt hs)
  rw [h.cell hs]
  exact ⟨write_save v (h.lt hs), hu.size⟩

/-- The elements of `ps` in a fold over all of them: the loop of `for_each`. -/
theorem Rep.for_each [Target] [Zero α] {σ : Type} {mem : Mem α} {b : BaseMatrix} {m : AMat} (h : Rep mem b m)
    (cfg : Cfg) (f : σ → α → σ × α) (s : σ) :
    ∃ y : σ × List (List α), y = m.positions.foldl (fun x p =>
        ((f x.1 (m.load x.2 p.1 p.2)).1, m.save x.2 p.1 p.2 (f x.1 (m.load x.2 p.1 p.2)).2))
        (s, mem.bufs) ∧
      b.for_each cfg f s mem = .ok (y.1, ⟨y.2⟩) ∧ ∀ x, (⟨y.2⟩ : Mem α).size x = mem.size x := by
  refine ⟨_, rfl, ?_⟩
  unfold BaseMatrix.for_each
  rw [h.sound.number_of_elements cfg]
  simp only [Out.bind_ok]
  rw [h.positions]
  have := forRange_inv (n := count b.layout) (s := (s, mem))
    (body := fun index st => do
      let p ← b.get1d_unchecked_mut cfg index
      let v ← st.2.read p
      let r := f st.1 v
      let mem' ← st.2.write p r.2
      return (r.1, mem'))
    (fun i x => (x.1, x.2.bufs) = ((order b.layout).take i).foldl (fun x p =>
        ((f x.1 (m.load x.2 p.1 p.2)).1, m.save x.2 p.1 p.2 (f x.1 (m.load x.2 p.1 p.2)).2))
        (s, mem.bufs) ∧ ∀ y, x.2.size y = mem.size y) ⟨rfl, fun _ => rfl⟩ ?_
  · obtain ⟨⟨s', mem'⟩, e, h1, h2⟩ := this
    rw [← order_length, List.take_length] at h1
    rw [← h1]
    exact ⟨e, h2⟩
  · rintro i ⟨s1, mem1⟩ hi ⟨h1, h2⟩
    obtain ⟨r, c, hs, rfl⟩ := exists_index hi
    have ho := order_index hs
    have hR : Rep mem1 b m := h.mono fun x => by rw [h2]
    obtain ⟨w1, w2⟩ := hR.write hs (f s1 (m.load mem1.bufs r c)).2
    refine ⟨((f s1 (m.load mem1.bufs r c)).1, ⟨m.save mem1.bufs r c (f s1 (m.load mem1.bufs r c)).2⟩),
      ?_, ?_, fun y => by rw [w2, h2]⟩
    · simp only [hR.sound.get1d_unchecked_mut cfg hs, Out.bind_ok, Mem.read_ok_iff.2 (hR.elem hs), w1,
        Out.pure_eq]
    · rw [List.take_add_one, ho, List.foldl_append, ← h1]
      rfl

/-! ## Values -/

/-- The value in the library is the value of the machine. -/
def RepVal [Target] (mem : Mem α) : Mat α → AVal α → Prop
  | .base b, .base m => Rep mem b m
  | .ref a, .ref x => RepVal mem a x
  | .addition a b l, .add x y => RepVal mem a x ∧ RepVal mem b y ∧ a.layout.dim = b.layout.dim ∧
      a.layout.indexKind = b.layout.indexKind ∧ l = a.layout.index_layout
  | .scalarMult a s, .scale s' x => RepVal mem a x ∧ s = s'
  | _, _ => False

/-- Induction over related values. -/
theorem RepVal.rec' [Target] {mem : Mem α} {P : Mat α → AVal α → Prop}
    (base : ∀ b m, Rep mem b m → P (.base b) (.base m))
    (ref : ∀ a x, RepVal mem a x → P a x → P (.ref a) (.ref x))
    (add : ∀ a b x y, RepVal mem a x → RepVal mem b y → a.layout.dim = b.layout.dim →
      a.layout.indexKind = b.layout.indexKind → P a x → P b y →
      P (.addition a b a.layout.index_layout) (.add x y))
    (scale : ∀ a x s, RepVal mem a x → P a x → P (.scalarMult a s) (.scale s x))
    {a : Mat α} {x : AVal α} (h : RepVal mem a x) : P a x := by
  induction a generalizing x with
  | base b => cases x <;> first | exact base _ _ h | exact h.elim
  | ref a ih => cases x <;> first | exact ref _ _ h (ih h) | exact h.elim
  | addition a b l iha ihb =>
    cases x <;> first | exact h.elim | skip
    obtain ⟨h1, h2, h3, h4, rfl⟩ := h
    exact add _ _ _ _ h1 h2 h3 h4 (iha h1) (ihb h2)
  | scalarMult a s ih =>
    cases x <;> first | exact h.elim | skip
    obtain ⟨h1, rfl⟩ := h
    exact scale _ _ _ h1 (ih h1)

theorem RepVal.ok [Target] {mem : Mem α} {a : Mat α} {x : AVal α} (h : RepVal mem a x) : MatOK mem a :=
  h.rec' (P := fun a _ => MatOK mem a) (fun _ _ h => h.sound) (fun _ _ _ ih => ih)
    (fun _ _ _ _ _ _ h1 h2 ih1 ih2 => ⟨ih1, ih2, h1, h2, rfl⟩) (fun _ _ _ _ ih => ih)

theorem RepVal.kind [Target] {mem : Mem α} {a : Mat α} {x : AVal α} (h : RepVal mem a x) :
    a.layout.indexKind = x.kind :=
  h.rec' (P := fun a x => a.layout.indexKind = x.kind) (fun _ _ h => h.kind) (fun _ _ _ ih => ih)
    (fun _ _ _ _ _ _ _ _ ih1 _ => by simpa only [Mat.layout, index_layout_kind, AVal.kind] using ih1)
    (fun _ _ _ _ ih => ih)

theorem RepVal.dim [Target] {mem : Mem α} {a : Mat α} {x : AVal α} (h : RepVal mem a x) :
    a.layout.dim = x.dim :=
  h.rec' (P := fun a x => a.layout.dim = x.dim) (fun _ _ h => h.dim) (fun _ _ _ ih => ih)
    (fun _ _ _ _ _ _ _ _ ih1 _ => by simpa only [Mat.layout, index_layout_dim, AVal.dim] using ih1)
    (fun _ _ _ _ ih => ih)

theorem RepVal.sizes [Target] {mem : Mem α} {a : Mat α} {x : AVal α} (h : RepVal mem a x) :
    a.sizes = x.sizes :=
  h.rec' (P := fun a x => a.sizes = x.sizes) (fun _ _ h => h.sizes) (fun _ _ _ ih => ih)
    (fun _ _ _ _ _ _ _ _ ih1 _ => ih1) (fun _ _ _ _ ih => ih)

theorem RepVal.mono [Target] {mem mem' : Mem α} {a : Mat α} {x : AVal α} (h : RepVal mem a x)
    (hs : ∀ y, mem.size y ≤ mem'.size y) : RepVal mem' a x :=
  h.rec' (P := fun a x => RepVal mem' a x) (fun _ _ h => h.mono hs) (fun _ _ _ ih => ih)
    (fun _ _ _ _ _ _ h1 h2 ih1 ih2 => ⟨ih1, ih2, h1, h2, rfl⟩) (fun _ _ _ _ ih => ⟨ih, rfl⟩)

theorem RepVal.positions [Target] {mem : Mem α} {a : Mat α} {x : AVal α} (h : RepVal mem a x) :
    x.positions = order a.layout := by
  rw [AVal.positions, order_eq_orderOf, h.kind, h.dim]

theorem RepVal.value [Target] [Zero α] [Add α] [Mul α] {mem : Mem α} {a : Mat α} {x : AVal α}
    (h : RepVal mem a x) {r c : Nat} (hs : Stored a.layout r c) :
    matValue mem r c a = some (x.value mem.bufs r c) := by
  revert hs
  refine h.rec' (P := fun a x => Stored a.layout r c → matValue mem r c a = some (x.value mem.bufs r c))
    (fun _ _ h hs => h.elem hs) (fun _ _ _ ih => ih) (fun a b x y _ _ h1 h2 ih1 ih2 hs => ?_)
    (fun a x s _ ih hs => ?_)
  · have hs : Stored a.layout.index_layout r c := hs
    rw [index_layout_stored] at hs
    simp [matValue, AVal.value, ih1 hs, ih2 ((stored_same h2 h1 r c).1 hs)]
  · simp [matValue, AVal.value, ih hs]

theorem RepVal.get [Target] [Zero α] [Add α] [Mul α] {mem : Mem α} {a : Mat α} {x : AVal α}
    (h : RepVal mem a x) (cfg : Cfg) {r c : Nat} (hs : Stored a.layout r c) :
    a.get cfg mem r c = .ok (x.value mem.bufs r c) := (h.ok.get cfg hs (h.value hs)).1

theorem RepVal.get1d [Target] [Zero α] [Add α] [Mul α] {mem : Mem α} {a : Mat α} {x : AVal α}
    (h : RepVal mem a x) (cfg : Cfg) {r c : Nat} (hs : Stored a.layout r c) :
    a.get1d cfg mem (index a.layout r c) = .ok (x.value mem.bufs r c) :=
  (h.ok.get cfg hs (h.value hs)).2

/-- Reading a position that is not stored panics, for every matrix. -/
theorem MatOK.get_panic [Target] [Add α] [Mul α] {mem : Mem α} {a : Mat α} (h : MatOK mem a) (cfg : Cfg)
    {r c : Nat} (hs : ¬ Stored a.layout r c) : a.get cfg mem r c = .panic := by
  by_cases hd : r < a.layout.dim.1 ∧ c < a.layout.dim.2
  · rw [Mat.get, assert_dimension_ok hd.1 hd.2, Out.bind_ok]
    induction a with
    | base b =>
      have := (Props.not_stored_panic cfg b mem hs).1
      rwa [BaseMatrix.get, assert_dimension_ok (d := b.layout.dim) hd.1 hd.2, Out.bind_ok] at this
    | ref a ih => exact ih h hs hd
    | addition a b l iha ihb =>
      obtain ⟨ha, hb, h1, h2, rfl⟩ := h
      have hd' : r < a.layout.dim.1 ∧ c < a.layout.dim.2 := by
        have : (a.layout.index_layout).dim = a.layout.dim := index_layout_dim _
        simpa only [Mat.layout, this] using hd
      have := iha ha (fun h => hs ((index_layout_stored _ _ _).2 h)) hd'
      simp [Mat.get_unchecked, this]
    | scalarMult a s ih => simp [Mat.get_unchecked, ih h hs hd]
  · rw [Mat.get, assert_dimension_panic hd]; rfl

theorem MatOK.get1d_panic [Target] [Add α] [Mul α] {mem : Mem α} {a : Mat α} (h : MatOK mem a) (cfg : Cfg)
    {k : Nat} (hk : ¬ k < count a.layout) : a.get1d cfg mem k = .panic := by
  rw [Mat.get1d, h.number_of_elements cfg, Out.bind_ok, assert_dimension1d, Out.assert_neg hk]; rfl

/-! ## New matrices -/

theorem kindLayout_order (k : BaseKind) (d : Nat × Nat) : order (kindLayout k d) = orderOf k d := by
  cases k <;> rfl

theorem kindLayout_kind (k : BaseKind) (d : Nat × Nat) : (kindLayout k d).indexKind = k := by
  cases k <;> rfl

theorem kindLayout_dim {k : BaseKind} {d : Nat × Nat} (h : HasShape k d) : (kindLayout k d).dim = d := by
  obtain ⟨r, c⟩ := d
  cases k <;> simp_all [kindLayout, Layout.dim, HasShape]

theorem kindLayout_contiguous (k : BaseKind) (d : Nat × Nat) : Contiguous (kindLayout k d) := by
  cases k <;> trivial

theorem kindLayout_base (k : BaseKind) (d : Nat × Nat) : isBaseLayout (kindLayout k d) = true := by
  cases k <;> rfl

theorem idxOf_order {l : Layout} {r c : Nat} (hs : Stored l r c) :
    (order l).idxOf (r, c) = index l r c := by
  have ho := order_index hs
  obtain ⟨hlt, he⟩ := List.getElem?_eq_some_iff.1 ho
  rw [← he]
  exact (order_nodup l).idxOf_getElem _ hlt

/-- A matrix with a contiguous layout at the start of a new store. -/
theorem rep_new [Target] {mem : Mem α} (l : Layout) (hc : Contiguous l) (rs cs : SizeId) (xs : List α)
    (hx : xs.length * 4 ≤ isizeMax) (hn : count l ≤ xs.length) (m : AMat)
    (hm : m.store = mem.bufs.length ∧ m.lo = 0 ∧ m.len = xs.length ∧ m.kind = l.indexKind ∧
      m.sizes = (rs, cs) ∧ m.dim = l.dim ∧ m.plain = isBaseLayout l ∧
      ∀ r c, Stored l r c → m.place r c = (order l).idxOf (r, c)) :
    Rep ⟨mem.bufs ++ [xs]⟩ ⟨⟨mem.bufs.length, 0, xs.length⟩, l, rs, cs⟩ m := by
  obtain ⟨h1, h2, h3, h4, h5, h6, h7, h8⟩ := hm
  refine ⟨sound_of_contiguous hc ⟨?_, hx⟩ hn, h1.symm, h2.symm, h3.symm, h4.symm, h5.symm, h6.symm,
    h7.symm, ?_⟩
  · have := Mem.alloc_size_new mem xs
    simp only [Mem.alloc] at this
    simp [this]
  · intro r c hs
    rw [h8 r c hs, idxOf_order hs, raw_eq_index hc]
    simp

theorem rep_root [Target] {mem : Mem α} (k : BaseKind) (d : Nat × Nat) (hd : HasShape k d) (rs cs : SizeId)
    (xs : List α) (hx : xs.length * 4 ≤ isizeMax) (hn : xs.length = (orderOf k d).length) :
    Rep ⟨mem.bufs ++ [xs]⟩ ⟨⟨mem.bufs.length, 0, xs.length⟩, kindLayout k d, rs, cs⟩
      (AMat.root mem.bufs.length xs.length k (rs, cs) d) :=
  rep_new _ (kindLayout_contiguous k d) rs cs xs hx
    (by rw [hn, ← order_length, kindLayout_order]) _
    ⟨rfl, rfl, rfl, (kindLayout_kind k d).symm, rfl, (kindLayout_dim hd).symm,
      (kindLayout_base k d).symm, fun r c _ => by rw [kindLayout_order]; rfl⟩

/-! ## Views -/

theorem tight_honest [Target] {mem : Mem α} {b : BaseMatrix} {m : AMat} (h : Rep mem b m) (ht : m.Tight)
    (hn : NotTriangular b.layout) : Honest b.layout := by
  have hp := h.place
  have hst := @stored_of_notTri _ hn
  unfold AMat.Tight at ht
  have hk := h.kind
  have hd := h.dim
  cases hl : b.layout with
  | asRowMajor l =>
    rw [hl] at hp hst hk hd
    rw [← hk] at ht
    simp only [Layout.indexKind, ← hd, Layout.dim] at ht
    simp only [hst, Layout.dim, raw] at hp
    refine ⟨fun h1 h2 => ?_, fun h1 h2 => ?_⟩
    · have e1 := ht 1 0 h1 h2
      rw [hp 1 0 ⟨h1, h2⟩, hp 0 0 ⟨by omega, h2⟩] at e1
      simp at e1; omega
    · have e1 := ht 0 1 h2 h1
      rw [hp 0 1 ⟨h2, h1⟩, hp 0 0 ⟨h2, by omega⟩] at e1
      simp at e1; omega
  | asColumnMajor l =>
    rw [hl] at hp hst hk hd
    rw [← hk] at ht
    simp only [Layout.indexKind, ← hd, Layout.dim] at ht
    simp only [hst, Layout.dim, raw] at hp
    refine ⟨fun h1 h2 => ?_, fun h1 h2 => ?_⟩
    · have e1 := ht 1 0 h1 h2
      rw [hp 1 0 ⟨h1, h2⟩, hp 0 0 ⟨by omega, h2⟩] at e1
      simp at e1; omega
    · have e1 := ht 0 1 h2 h1
      rw [hp 0 1 ⟨h2, h1⟩, hp 0 0 ⟨h2, by omega⟩] at e1
      simp at e1; omega
  | upperTriangular u => exact absurd hl (hn u)
  | _ => trivial

theorem tight_claimed {l : Layout} (h : IsMajor l) : tight l = claimed l := by
  cases l <;> first | rfl | exact h.elim

theorem blockLayout_kind {l : Layout} (h : IsMajor l) (d : Nat × Nat) :
    (blockLayout l d).indexKind = l.indexKind := by cases l <;> first | rfl | exact h.elim

theorem blockLayout_not_base (l : Layout) (d : Nat × Nat) : isBaseLayout (blockLayout l d) = false := by
  cases l <;> rfl

theorem honest_step {l : Layout} (ho : Honest l) {r c i j : Nat}
    (hi : r + i < l.dim.1) (hj : c + j < l.dim.2) :
    raw l (r + i) (c + j) = raw l r c + ((claimed l).1 * i + (claimed l).2 * j) := by
  rw [← ho.raw hi hj, ← ho.raw (show r < _ by omega) (show c < _ by omega)]
  ring

/-- `block` of a matrix without gaps between its rows (columns). -/
theorem Rep.block [Target] {mem : Mem α} {b : BaseMatrix} {m : AMat} (h : Rep mem b m) (ht : m.Tight)
    (hm : IsMajor b.layout) (cfg : Cfg) {tl d : Nat × Nat} (hf : Fits b.layout tl d) (h1 : 1 ≤ d.1)
    (h2 : 1 ≤ d.2) : ∃ v, b.block cfg tl d = .ok v ∧
      (m.sizes = (.dynamic, .dynamic) → Rep mem v (m.part tl d)) := by
  have ho := tight_honest h ht hm.notTri
  have hS := h.sound
  have hW := small_W hS.container.small
  have hlast : Stored b.layout (tl.1 + d.1 - 1) (tl.2 + d.2 - 1) :=
    (stored_of_notTri hm.notTri).2 ⟨by have := hf.1; omega, by have := hf.2; omega⟩
  have hfirst : Stored b.layout tl.1 tl.2 :=
    (stored_of_notTri hm.notTri).2 ⟨by have := hf.1; omega, by have := hf.2; omega⟩
  have hstep : raw b.layout (tl.1 + d.1 - 1) (tl.2 + d.2 - 1) + 1 =
      raw b.layout tl.1 tl.2 + extent (tight b.layout) d := by
    have := honest_step ho (r := tl.1) (c := tl.2) (i := d.1 - 1) (j := d.2 - 1)
      (by have := hf.1; omega) (by have := hf.2; omega)
    rw [show tl.1 + d.1 - 1 = tl.1 + (d.1 - 1) by omega, show tl.2 + d.2 - 1 = tl.2 + (d.2 - 1) by omega,
      this, tight_claimed hm, extent]
    omega
  have hbound : raw b.layout tl.1 tl.2 + extent (tight b.layout) d ≤ b.data.len := by
    have := hS.inside _ _ hlast
    omega
  have htight : (d.2 ≤ (tight b.layout).1 ∧ 1 ≤ (tight b.layout).2) ∨
      (d.1 ≤ (tight b.layout).2 ∧ 1 ≤ (tight b.layout).1) := by
    have hf1 := hf.1
    have hf2 := hf.2
    cases hl : b.layout <;> rw [hl] at hm hf1 hf2 <;> simp only [IsMajor] at hm <;>
      simp only [Layout.dim] at hf1 hf2
    case rowMajor l => left; simp only [tight]; omega
    case columnMajor l => right; simp only [tight]; omega
    case asRowMajor l => left; simp only [tight]; omega
    case asColumnMajor l => right; simp only [tight]; omega
  have hcount := mul_le_extent (s := tight b.layout) h1 h2 htight
  have hdimW := hS.dim_lt hfirst hm
  have hfp := from_pointer_strided_eq cfg (⟨b.data, raw b.layout tl.1 tl.2⟩ : Ptr)
    (blockLayout_major b.layout d) (by rw [blockLayout_dim]; exact h1)
    (by rw [blockLayout_dim]; exact h2) hS.container.small
    (by rw [blockLayout_steps, blockLayout_dim]; exact hbound)
    (by rw [blockLayout_steps, blockLayout_dim]; exact hcount)
  rw [blockLayout_steps, blockLayout_dim] at hfp
  refine ⟨⟨⟨b.data.buf, b.data.off + raw b.layout tl.1 tl.2, extent (tight b.layout) d⟩,
    blockLayout b.layout d, .dynamic, .dynamic⟩, ?_, fun hsz => ⟨⟨⟨?_, ?_⟩, ?_, ?_⟩, ?_, ?_, ?_, ?_, ?_, ?_,
    ?_, ?_⟩⟩
  · unfold BaseMatrix.block
    rw [Cfg.add_ok cfg (show tl.1 + d.1 < W from lt_of_le_of_lt hf.1 hdimW.1),
      Cfg.add_ok cfg (show tl.2 + d.2 < W from lt_of_le_of_lt hf.2 hdimW.2)]
    simp only [Out.bind_ok]
    rw [Out.assert_pos (show _ ∧ _ from hf)]
    simp only [Out.bind_ok]
    rw [convert_2d_raw_ok cfg hfirst (hS.raw_lt hfirst) hm.triFits]
    simp only [Out.bind_ok, BaseMatrix.get_pointer, Container.get_pointer, Ptr.add, Nat.zero_add]
    rw [if_pos (show raw b.layout tl.1 tl.2 ≤ b.data.len by omega)]
    simp only [Out.bind_ok, stride_tight hm, strideLayout_eq hm]
    exact hfp
  · have := hS.container.window
    simp only
    omega
  · have := hS.container.small
    simp only
    omega
  · intro i j hij
    have := raw_lt_extent (blockLayout_major b.layout d) hij.1 hij.2.1
    rwa [blockLayout_steps, blockLayout_dim] at this
  · simp only
    rw [(blockLayout_major b.layout d).count, blockLayout_dim]
    exact hcount
  · exact h.store
  · exact (h.place _ _ hfirst).symm
  · simp only [AMat.part]
    rw [h.place _ _ hfirst, h.place _ _ hlast]
    omega
  · simp only [AMat.part]; rw [blockLayout_kind hm, h.kind]
  · exact hsz.symm
  · exact blockLayout_dim _ _
  · exact blockLayout_not_base _ _
  · intro i j hij
    have hij' : i < d.1 ∧ j < d.2 := by
      have h1 := hij.1
      have h2 := hij.2.1
      rw [blockLayout_dim] at h1 h2
      exact ⟨h1, h2⟩
    have hs : Stored b.layout (tl.1 + i) (tl.2 + j) :=
      (stored_of_notTri hm.notTri).2 ⟨by have := hf.1; omega, by have := hf.2; omega⟩
    simp only [AMat.part]
    rw [h.place _ _ hs, raw_steps (blockLayout_major _ _), blockLayout_steps, tight_claimed hm,
      honest_step ho hs.1 hs.2.1]
    omega

end Householder.Spec
