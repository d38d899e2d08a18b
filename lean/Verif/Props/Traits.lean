import Verif.Lemmas.Traits
import Verif.Props.Access
import Verif.Props.Histories

/-!
# Implementations of the open traits (C74)

The traits for layouts, containers and matrices are public and safe to implement. The full
statement, that safe code stays defined with any implementation, is false in four ways. It holds
for implementations that keep the contract of `Spec/Traits.lean`; the implementations of the
crate do.
-/

namespace Householder.Props

open Spec

variable {α V D X κ : Type}

/-! ## The statement, and why it is false -/

/-- The full statement of C74: with any implementation of `LayoutType` whose functions return or
panic, over the containers of the crate, safe access to expressions of accepted matrices with
the same index layout is defined, and so is their evaluation. -/
def C74_statement [Target] : Prop :=
  ∀ (V κ : Type) (L : LayoutImpl V) (kind : V → κ) (cfg : Cfg) (mem : Mem Int) (d d' : Container)
    (l l' : V) (b b' : AnyBase V Container) (r c i : Nat),
    SafeLayout L → ContainerOK d mem → ContainerOK d' mem → kind l = kind l' →
    let I : Impls Int V Container Empty := ⟨L, crateContainers Int, ⟨nofun, nofun, nofun⟩⟩
    AnyBase.new I d l = .ok b → AnyBase.new I d' l' = .ok b' →
    (AnyMat.base b).get I mem r c ≠ .ub ∧ (AnyMat.base b).get1d I mem i ≠ .ub ∧
    (AnyMat.base b).eval I cfg mem ≠ .ub ∧
    ∀ m, AnyMat.addition_new I (.base b) (.base b') = .ok m → m.get1d I mem i ≠ .ub

/-- A layout given by a table: `(dim, elements, conversion, elements of the index layout)`. -/
def tableLayout : LayoutImpl ((Nat × Nat) × Nat × (Nat → Nat) × Nat) where
  stride _ := .panic
  dim l := .ok l.1
  number_of_elements l := .ok l.2.1
  convert_1d_2d _ _ := .panic
  convert_2d_1d _ _ _ := .panic
  convert_1d_raw l i := .ok (l.2.2.1 i)
  convert_2d_raw l r c := .ok (l.2.2.1 (r * l.1.2 + c))
  index_layout l := .ok (l.1, l.2.2.2, id, l.2.2.2)
  from_dimension l d := .ok (d, l.2.2.2, id, l.2.2.2)

theorem tableLayout_safe : SafeLayout tableLayout := by
  constructor <;> intros <;> simp [tableLayout]

/-- The crate's containers with that layout. -/
def tableImpls : Impls Int ((Nat × Nat) × Nat × (Nat → Nat) × Nat) Container Empty :=
  ⟨tableLayout, crateContainers Int, ⟨nofun, nofun, nofun⟩⟩

/-- Three elements. -/
def threeMem : Mem Int := ⟨[[7, 8, 9]]⟩

/-- **C74 is false of the code**: `LayoutType` is a safe trait, but the unsafe accesses rely on
it. A 1 × 1 layout that converts its only position to 100 is accepted over three elements, and
the safe `get(0, 0)` reads element 100. -/
theorem C74_false [Target] : ¬ C74_statement := by
  intro h
  refine (h _ Unit tableLayout (fun _ => ()) dbg threeMem ⟨0, 0, 3⟩ ⟨0, 0, 3⟩
    ((1, 1), 1, fun _ => 100, 1) ((1, 1), 1, fun _ => 100, 1) ⟨⟨0, 0, 3⟩, _⟩ ⟨⟨0, 0, 3⟩, _⟩ 0 0 0
    tableLayout_safe ⟨by decide_width, by decide_width⟩ ⟨by decide_width, by decide_width⟩ rfl rfl rfl).1 rfl

/-- **C74**, second way: even when each operand stays inside its container. Two layouts with the
same index layout and dimension, of 3 and 1 elements: `Addition::new` compares the dimensions
only, and the safe `get1d(2)` of the sum reads element 2 of a container of 1. -/
theorem C74_false_sum :
    let a : AnyBase _ Container := ⟨⟨0, 0, 3⟩, ((1, 1), 3, id, 3)⟩
    let b : AnyBase _ Container := ⟨⟨0, 0, 1⟩, ((1, 1), 1, id, 3)⟩
    Addresses tableLayout a.layout 3 ∧ Addresses tableLayout b.layout 1 ∧
    AnyBase.new tableImpls a.data a.layout = .ok a ∧
    AnyBase.new tableImpls b.data b.layout = .ok b ∧
    ∃ m, AnyMat.addition_new tableImpls (.base a) (.base b) = .ok m ∧
      m.get1d tableImpls threeMem 2 = .ub := by
  refine ⟨⟨.inr ⟨_, rfl, fun r c hr hc => .inr ⟨_, rfl, ?_⟩⟩, .inr ⟨_, rfl, fun i hi => .inr ⟨_, rfl, hi⟩⟩⟩,
    ⟨.inr ⟨_, rfl, fun r c hr hc => .inr ⟨_, rfl, ?_⟩⟩, .inr ⟨_, rfl, fun i hi => .inr ⟨_, rfl, hi⟩⟩⟩,
    rfl, rfl, _, rfl, rfl⟩ <;> (simp only at hr hc ⊢; simp only [id]; omega)

/-- **C74**, third way: a layout of 3 elements that stays inside its container, but whose index
layout of the same dimension has 1. `eval` makes room for 1 element and writes 3. -/
theorem C74_false_eval [Target] :
    let a : AnyBase _ Container := ⟨⟨0, 0, 3⟩, ((1, 1), 3, id, 1)⟩
    Addresses tableLayout a.layout 3 ∧ AnyBase.new tableImpls a.data a.layout = .ok a ∧
    (AnyMat.base a).eval tableImpls dbg threeMem = .ub := by
  refine ⟨⟨.inr ⟨_, rfl, fun r c hr hc => .inr ⟨_, rfl, ?_⟩⟩,
    .inr ⟨_, rfl, fun i hi => .inr ⟨_, rfl, hi⟩⟩⟩, rfl, by rfl_width⟩
  simp only at hr hc ⊢; simp only [id]; omega

/-- A container of one element that says it has ten. -/
def boastful : DataImpl Int Unit where
  get_unchecked _ mem _ := mem.read ⟨0, 0⟩
  get_unchecked_mut _ _ := .ok ⟨0, 0⟩
  get_pointer _ := .ok ⟨⟨0, 0, 1⟩, 0⟩
  get_pointer_mut _ := .ok ⟨⟨0, 0, 1⟩, 0⟩
  number_of_elements _ := .ok 10

/-- **C74**, fourth way: `DataContainer` is a safe trait too. With a container whose own functions
are all defined, for every index, the provided safe `get_slice` is not. -/
theorem C74_false_slice :
    (∀ k, boastful.get_unchecked () threeMem k = .ok 7) ∧
    boastful.get_slice () 0 10 = .ub ∧ boastful.get_slice_mut () 0 10 = .ub :=
  ⟨fun _ => rfl, rfl, rfl⟩

/-! ## Under the contract -/

/-- **C74, partial**: access. Safe reads of any expression over implementations that keep their
contract are defined. Missing: implementations that break it (`C74_false`). -/
theorem C74_reads_partial [Add α] [Mul α] (I : Impls α V D X) (kind : V → κ)
    (hL : Logical I.lay kind) (mem : Mem α) (m : AnyMat α V D X) (h : Built I kind mem m)
    (r c i : Nat) : m.get I mem r c ≠ .ub ∧ m.get1d I mem i ≠ .ub := by
  have ho := built_offers hL h
  constructor
  · exact gives_ne_ub (gives_bind (P := fun _ => True) ho.dim fun d e =>
      gives_dimension fun hr hc => gives_iff.2 (ho.positions d e r c hr hc))
  · exact gives_ne_ub (gives_bind (P := fun _ => True) ho.number fun k e =>
      gives_assert fun hi => gives_iff.2 (ho.indices k e i hi).1)

/-- **C74, partial**: mutable access to a base matrix gives places that exist, `for_each` is
defined and keeps the extent of memory, and slices are defined. -/
theorem C74_writes_partial {σ : Type} (I : Impls α V D X) (mem : Mem α) (b : AnyBase V D) (n : Nat)
    (hl : Addresses I.lay b.layout n) (hd : Holds I.dat b.data mem n) :
    (∀ r c, Gives (b.get_mut I r c) fun p => (mem.get? p).isSome) ∧
    (∀ i, Gives (b.get1d_mut I i) fun p => (mem.get? p).isSome) ∧
    (∀ (f : σ → α → σ × α) (s : σ), Gives (b.for_each I f s mem) fun x =>
      ∀ q, x.2.size q = mem.size q) ∧
    (∀ first last, Gives (I.dat.get_slice b.data first last) (·.len = last - first)) ∧
    (∀ first last, Gives (I.dat.get_slice_mut b.data first last) (·.len = last - first)) := by
  refine ⟨fun r c => ?_, fun i => ?_, fun f s => ?_, fun first last => ?_, fun first last => ?_⟩
  · refine gives_bind (gives_ne_ub hl.positions) fun d e => gives_dimension fun hr hc => ?_
    have hk := hl.positions.of_ok e r c hr hc
    exact gives_bind (gives_ne_ub hk) fun k e => hd.place k (hk.of_ok e)
  · refine gives_bind (gives_ne_ub hl.indices) fun k e => gives_assert fun hi => ?_
    have hk := hl.indices.of_ok e i hi
    exact gives_bind (gives_ne_ub hk) fun k e => hd.place k (hk.of_ok e)
  · refine gives_bind (gives_ne_ub hl.indices) fun k e => ?_
    refine forRange_gives (fun _ (x : σ × Mem α) => ∀ q, x.2.size q = mem.size q) (fun _ => rfl) ?_
    rintro i ⟨s1, mem1⟩ hi hm
    have hk := hl.indices.of_ok e i hi
    have hp : Gives (b.get1d_unchecked_mut I i) fun p => (mem.get? p).isSome :=
      gives_bind (gives_ne_ub hk) fun k e => hd.place k (hk.of_ok e)
    refine gives_bind (gives_ne_ub hp) fun p ep => ?_
    have hlt : p.idx < mem1.size p.buf := by
      rw [hm]; exact Mem.get?_isSome_iff.1 (Option.isSome_iff_exists.1 (hp.of_ok ep))
    obtain ⟨v, hv, -⟩ := Mem.read_ok hlt
    obtain ⟨mem2, hw, hu⟩ := Mem.write_upd (v := (f s1 v).2) hlt
    refine .inr ⟨((f s1 v).1, mem2), by simp [hv, hw], fun q => ?_⟩
    rw [← hm q]; exact hu.size q
  · refine gives_assert fun h1 => gives_bind (gives_ne_ub hd.number) fun k e => gives_assert fun h2 =>
      gives_bind (gives_ne_ub hd.pointer) fun p ep => ?_
    have := hd.number.of_ok e
    have := hd.pointer.of_ok ep
    exact .inr ⟨⟨p.prov.buf, p.prov.off + (p.off + first), last - first⟩, by
      simp [Ptr.add, Ptr.from_raw_parts, show p.off + first ≤ p.prov.len by omega,
        show p.off + first + (last - first) ≤ p.prov.len by omega], rfl⟩
  · refine gives_assert fun h1 => gives_bind (gives_ne_ub hd.number) fun k e => gives_assert fun h0 =>
      gives_assert fun h2 => gives_bind (gives_ne_ub hd.pointer_mut) fun p ep => ?_
    have := hd.number.of_ok e
    have := hd.pointer_mut.of_ok ep
    exact .inr ⟨⟨p.prov.buf, p.prov.off + (p.off + first), last - first⟩, by
      simp [Ptr.add, Ptr.from_raw_parts, show p.off + first ≤ p.prov.len by omega,
        show p.off + first + (last - first) ≤ p.prov.len by omega], rfl⟩

/-- **C74, partial**: evaluation. Over implementations that keep their contract `eval` is defined.
When it returns, the result lies in new storage, has the dimension of the expression, and holds
at each index the value of the expression there; nothing else in memory has changed. -/
theorem C74_eval_partial [Target] [Zero α] [Add α] [Mul α] (I : Impls α V D X) (kind : V → κ)
    (hS : SafeLayout I.lay) (hL : Logical I.lay kind) (cfg : Cfg) (mem : Mem α)
    (m : AnyMat α V D X) (h : Built I kind mem m) :
    Gives (m.eval I cfg mem) fun x =>
      Extends mem x.2 ∧ x.1.data.buf = mem.bufs.length ∧
      I.lay.dim x.1.layout = I.lay.dim (m.layout I) ∧
      ∃ n, I.lay.number_of_elements (m.layout I) = .ok n ∧
        I.lay.number_of_elements x.1.layout = .ok n ∧ x.1.data.len = n ∧
        ∀ i, i < n → ∃ v k, m.get1d_unchecked I mem i = .ok v ∧
          I.lay.convert_1d_raw x.1.layout i = .ok k ∧ x.1.data.get_unchecked x.2 k = .ok v := by
  have ho := built_offers hL h
  refine gives_bind ho.dim fun d ed => gives_bind (hS.from_dimension _ _) fun l el => ?_
  obtain ⟨hk, hd⟩ := hL.new _ _ _ ed el
  have hn : I.lay.number_of_elements l = I.lay.number_of_elements (m.layout I) :=
    hL.number _ _ hk (by rw [hd, ed])
  refine gives_bind (hS.number_of_elements _) fun n en => ?_
  obtain ⟨hp1, hp2⟩ := hL.packed _ _ _ _ el en
  by_cases hsz : n * cfg.item.size ≤ isizeMax
  swap
  · exact .inl (by simp [Container.newVector, hsz])
  simp only [Container.newVector, if_pos hsz, Out.bind_ok, el, en, ← hn, Mem.alloc_fst,
    Container.number_of_elements]
  set mem0 := (mem.alloc (List.replicate n (0 : α))).2 with hmem0
  have hlen0 : mem0.bufs.length = mem.bufs.length + 1 := by simp [hmem0, Mem.alloc]
  have hloop := forRange_gives (n := n) (s := mem0)
    (body := fun index mem1 => do
      let v ← m.get1d_unchecked I mem1 index
      let j ← I.lay.convert_1d_raw l index
      let p ← (⟨mem.bufs.length, 0, n⟩ : Container).get_unchecked_mut j
      mem1.write p v)
    (fun i mem1 => Extends mem mem1 ∧ mem1.size mem.bufs.length = n ∧
      ∀ j, j < i → ∃ v k, m.get1d_unchecked I mem j = .ok v ∧
        I.lay.convert_1d_raw l j = .ok k ∧ mem1.get? ⟨mem.bufs.length, k⟩ = some v)
    ⟨⟨by omega, fun q hq => Mem.alloc_get_old _ _ hq⟩, by
      rw [hmem0, Mem.alloc_size_new]; simp, fun j hj => by omega⟩ ?_
  · refine gives_assert fun _ => ?_
    refine gives_bind (gives_ne_ub hloop) fun mem' e => ?_
    obtain ⟨h1, h2, h3⟩ := hloop.of_ok e
    refine .inr ⟨_, rfl, h1, rfl, by simp only; rw [hd, ed], n, rfl, en, rfl, ?_⟩
    intro i hi
    obtain ⟨v, k, v1, v2, v3⟩ := h3 i hi
    refine ⟨v, k, v1, v2, ?_⟩
    simp only [Container.get_unchecked, if_pos ((hp1 i hi).of_ok v2), Nat.zero_add]
    exact Mem.read_ok_iff.2 v3
  · rintro i mem1 hi ⟨h1, h2, h3⟩
    obtain ⟨g1, g2⟩ := ho.indices n (by rw [← hn]; exact en) i hi
    rw [g2 mem1 h1]
    refine gives_bind g1 fun v ev => gives_bind (hS.convert_1d_raw _ _) fun k ek => ?_
    have hk := (hp1 i hi).of_ok ek
    simp only [Container.get_unchecked_mut, if_pos hk, Out.bind_ok, Nat.zero_add]
    obtain ⟨mem2, hw, hu⟩ := Mem.write_upd (mem := mem1) (p := ⟨mem.bufs.length, k⟩) (v := v)
      (by simpa [h2] using hk)
    refine .inr ⟨mem2, hw, ⟨?_, ?_⟩, by rw [hu.size]; exact h2, ?_⟩
    · rw [hu.nbufs]; exact h1.1
    · intro q hq
      rw [hu.get, if_neg (by intro e; rw [e] at hq; simp at hq)]
      exact h1.2 q hq
    · intro j hj
      by_cases hji : j = i
      · subst hji; exact ⟨v, k, ev, ek, by rw [hu.get, if_pos rfl]⟩
      · obtain ⟨w, k', w1, w2, w3⟩ := h3 j (by omega)
        refine ⟨w, k', w1, w2, ?_⟩
        rw [hu.get, if_neg ?_]; · exact w3
        intro e
        simp only [Loc.mk.injEq, true_and] at e
        subst e
        exact hji (hp2 j i k' (by omega) hi w2 ek)

/-! ## The implementations of the crate keep the contract -/

theorem udiv_ne_ub (a b : Nat) : udiv a b ≠ .ub := by unfold udiv; split <;> simp

theorem umod_ne_ub (a b : Nat) : umod a b ≠ .ub := by unfold umod; split <;> simp

theorem convert_1d_2d_ne_ub [Target] (cfg : Cfg) (l : Layout) (i : Nat) : l.convert_1d_2d cfg i ≠ .ub := by
  intro h
  cases l <;>
  simp [Layout.convert_1d_2d, RowMajor.convert_1d_2d, ColumnMajor.convert_1d_2d,
    RowVector.convert_1d_2d, ColumnVector.convert_1d_2d, ArbitraryStrideRowMajor.convert_1d_2d,
    ArbitraryStrideColumnMajor.convert_1d_2d, ArbitraryStrideRowVector.convert_1d_2d,
    ArbitraryStrideColumnVector.convert_1d_2d, UpperTriangular.convert_1d_2d, Out.bind_eq_ub,
    udiv_ne_ub, umod_ne_ub, Cfg.add_ne_ub, Cfg.sub_ne_ub, Cfg.mul_ne_ub] at h

theorem convert_2d_1d_ne_ub [Target] (cfg : Cfg) (l : Layout) (r c : Nat) :
    l.convert_2d_1d cfg r c ≠ .ub := by
  intro h
  cases l <;>
  simp [Layout.convert_2d_1d, RowMajor.convert_2d_1d, ColumnMajor.convert_2d_1d,
    RowVector.convert_2d_1d, ColumnVector.convert_2d_1d, ArbitraryStrideRowMajor.convert_2d_1d,
    ArbitraryStrideColumnMajor.convert_2d_1d, ArbitraryStrideRowVector.convert_2d_1d,
    ArbitraryStrideColumnVector.convert_2d_1d, UpperTriangular.convert_2d_1d, Out.bind_eq_ub,
    udiv_ne_ub, Cfg.add_ne_ub, Cfg.sub_ne_ub, Cfg.mul_ne_ub] at h

theorem convert_1d_raw_ne_ub [Target] (cfg : Cfg) (l : Layout) (i : Nat) : l.convert_1d_raw cfg i ≠ .ub := by
  intro h
  cases l <;>
  simp [Layout.convert_1d_raw, RowMajor.convert_1d_raw, ColumnMajor.convert_1d_raw,
    RowVector.convert_1d_raw, ColumnVector.convert_1d_raw, ArbitraryStrideRowMajor.convert_1d_raw,
    ArbitraryStrideColumnMajor.convert_1d_raw, ArbitraryStrideRowVector.convert_1d_raw,
    ArbitraryStrideColumnVector.convert_1d_raw, UpperTriangular.convert_1d_raw,
    ArbitraryStrideRowMajor.convert_1d_2d, ArbitraryStrideColumnMajor.convert_1d_2d,
    ArbitraryStrideRowMajor.convert_2d_raw, ArbitraryStrideColumnMajor.convert_2d_raw,
    Out.bind_eq_ub, udiv_ne_ub, umod_ne_ub, Cfg.add_ne_ub, Cfg.mul_ne_ub] at h

theorem stride_ne_ub (l : Layout) : l.stride ≠ .ub := by
  cases l <;> intro h <;> exact absurd h (by
    simp [Layout.stride, RowMajor.stride, ColumnMajor.stride, RowVector.stride, ColumnVector.stride,
      ArbitraryStrideRowMajor.stride_fn, ArbitraryStrideColumnMajor.stride_fn,
      ArbitraryStrideRowVector.stride_fn, ArbitraryStrideColumnVector.stride_fn,
      UpperTriangular.stride])

theorem contiguous_raw [Target] (cfg : Cfg) {l : Layout} (h : Contiguous l) (i : Nat) :
    l.convert_1d_raw cfg i = .ok i := by
  cases l <;> first | rfl | exact absurd h (by simp [Contiguous])

theorem from_dimension_dim {l l' : Layout} (h : l.indexKind.from_dimension l.dim = .ok l') :
    l'.indexKind = l.indexKind ∧ l'.dim = l.dim := by
  cases l <;>
  simp [Layout.indexKind, Layout.dim, BaseKind.from_dimension, RowMajor.from_dimension,
    ColumnMajor.from_dimension, RowVector.from_dimension, ColumnVector.from_dimension,
    UpperTriangular.from_dimension, Out.bind_eq_ok] at h
  all_goals (first | subst h | (obtain ⟨h0, h⟩ := h; subst h)); simp_all [Layout.indexKind, Layout.dim]

/-- **C74**: the nine layouts are safe and agree on how elements are numbered, in both build
modes and for all dimensions. -/
theorem C74_crate_layouts [Target] (cfg : Cfg) :
    SafeLayout (crateLayouts cfg) ∧ Logical (crateLayouts cfg) Layout.indexKind := by
  refine ⟨⟨stride_ne_ub, fun _ => by simp [crateLayouts], number_of_elements_ne_ub cfg,
    convert_1d_2d_ne_ub cfg, convert_2d_1d_ne_ub cfg, convert_1d_raw_ne_ub cfg,
    convert_2d_raw_ne_ub cfg, fun _ => by simp [crateLayouts],
    fun _ => from_dimension_ne_ub _⟩, ⟨?_, ?_, ?_, ?_⟩⟩
  · intro l l' hk hd
    have hd : l.dim = l'.dim := by simpa [crateLayouts] using hd
    change l.number_of_elements cfg = l'.number_of_elements cfg
    cases l <;> cases l' <;> simp only [Layout.indexKind, reduceCtorEq] at hk <;>
      simp only [Layout.dim, Prod.mk.injEq, true_and, and_true, and_self] at hd <;>
      simp only [Layout.number_of_elements, RowMajor.number_of_elements,
        ColumnMajor.number_of_elements, RowVector.number_of_elements,
        ColumnVector.number_of_elements, ArbitraryStrideRowMajor.number_of_elements,
        ArbitraryStrideColumnMajor.number_of_elements, ArbitraryStrideRowVector.number_of_elements,
        ArbitraryStrideColumnVector.number_of_elements, UpperTriangular.number_of_elements, hd]
  · intro l l' h
    obtain rfl : l.index_layout = l' := by simpa [crateLayouts] using h
    exact ⟨index_layout_kind l, congrArg Out.ok (index_layout_dim l)⟩
  · intro l d l' hd h
    obtain rfl : l.dim = d := by simpa [crateLayouts] using hd
    obtain ⟨h1, h2⟩ := from_dimension_dim h
    exact ⟨h1, congrArg Out.ok h2⟩
  · intro l d l' n h _
    have hc := from_dimension_contiguous h
    refine ⟨fun i hi => .inr ⟨i, contiguous_raw cfg hc i, hi⟩, fun i j k _ _ h1 h2 => ?_⟩
    have h1 : l'.convert_1d_raw cfg i = .ok k := h1
    have h2 : l'.convert_1d_raw cfg j = .ok k := h2
    rw [contiguous_raw cfg hc] at h1 h2
    cases h1; cases h2; rfl

/-- **C74**: a sound matrix of the crate addresses only what its container holds. -/
theorem C74_crate_matrices [Target] (cfg : Cfg) (mem : Mem α) (b : BaseMatrix) (h : Sound b mem) :
    Addresses (crateLayouts cfg) b.layout b.data.len ∧
    Holds (crateContainers α) b.data mem b.data.len := by
  constructor
  · constructor
    · refine .inr ⟨_, rfl, fun r c hr hc => ?_⟩
      by_cases hs : Stored b.layout r c
      · exact .inr ⟨_, convert_2d_raw_ok cfg hs (h.raw_lt hs) h.triFits, h.inside r c hs⟩
      · left
        obtain ⟨d, l, rs, cs⟩ := b
        cases l <;> simp only [Stored] at hs
        case upperTriangular u =>
          refine (tri_convert_panic cfg u ?_).2
          by_contra hcr
          exact hs ⟨hr, hc, fun _ _ => by omega⟩
        all_goals exact absurd ⟨hr, hc, by simp⟩ hs
    · refine .inr ⟨_, h.number_of_elements cfg, fun i hi => ?_⟩
      obtain ⟨r, c, hs, rfl⟩ := exists_index hi
      have hp := h.get1d_unchecked_mut cfg hs
      simp only [BaseMatrix.get1d_unchecked_mut, Out.bind_eq_ok, Container.get_unchecked_mut] at hp
      obtain ⟨k, hk, hp⟩ := hp
      split at hp
      · exact .inr ⟨k, hk, by assumption⟩
      · simp at hp
  · have hw := h.container.window
    refine ⟨.inr ⟨_, rfl, rfl⟩, fun k hk => ?_, fun mem' hx k hk => ?_, fun k hk => ?_,
      .inr ⟨_, rfl, by simp [Container.get_pointer]⟩, .inr ⟨_, rfl, by simp [Container.get_pointer]⟩⟩
    · obtain ⟨v, hv, -⟩ := Container.get_unchecked_ok hw hk
      simp [crateContainers, hv]
    · obtain ⟨v, -, hv⟩ := Container.get_unchecked_ok hw hk
      simp only [crateContainers, Container.get_unchecked, if_pos hk, Mem.read]
      rw [hx.2 _ (Mem.buf_lt_of_get hv)]
    · refine .inr ⟨_, Container.get_unchecked_mut_ok hk, ?_⟩
      obtain ⟨v, -, hv⟩ := Container.get_unchecked_ok hw hk
      simp [hv]

theorem toAny_layout [Target] (cfg : Cfg) (m : Mat α) : m.toAny.layout (crateImpls cfg α) = m.layout := by
  induction m with
  | base b => rfl
  | ref m ih => exact ih
  | addition a b l => rfl
  | scalarMult m s ih => exact ih

theorem toAny_get_unchecked [Target] [Add α] [Mul α] (cfg : Cfg) (mem : Mem α) (r c : Nat) (m : Mat α) :
    m.toAny.get_unchecked (crateImpls cfg α) mem r c = m.get_unchecked cfg mem r c := by
  induction m with
  | base b => rfl
  | ref m ih => exact ih
  | addition a b l iha ihb => simp only [Mat.toAny, AnyMat.get_unchecked, Mat.get_unchecked, iha, ihb]
  | scalarMult m s ih => simp only [Mat.toAny, AnyMat.get_unchecked, Mat.get_unchecked, ih]

theorem toAny_get1d_unchecked [Target] [Add α] [Mul α] (cfg : Cfg) (mem : Mem α) (i : Nat) (m : Mat α) :
    m.toAny.get1d_unchecked (crateImpls cfg α) mem i = m.get1d_unchecked cfg mem i := by
  induction m with
  | base b => rfl
  | ref m ih => exact ih
  | addition a b l iha ihb =>
    simp only [Mat.toAny, AnyMat.get1d_unchecked, Mat.get1d_unchecked, iha, ihb]
  | scalarMult m s ih => simp only [Mat.toAny, AnyMat.get1d_unchecked, Mat.get1d_unchecked, ih]

/-- **C74**: over the implementations of the crate the generic functions are the ones modelled
for the crate. -/
theorem C74_agreement [Target] [Zero α] [Add α] [Mul α] (cfg : Cfg) (mem : Mem α) (m : Mat α) (r c i : Nat) :
    m.toAny.layout (crateImpls cfg α) = m.layout ∧
    m.toAny.get (crateImpls cfg α) mem r c = m.get cfg mem r c ∧
    m.toAny.get1d (crateImpls cfg α) mem i = m.get1d cfg mem i ∧
    m.toAny.eval (crateImpls cfg α) cfg mem =
      (m.eval cfg mem >>= fun x => .ok (⟨x.1.data, x.1.layout⟩, x.2)) := by
  have hl := toAny_layout cfg m
  refine ⟨hl, ?_, ?_, ?_⟩
  · simp only [AnyMat.get, Mat.get, hl, toAny_get_unchecked]; rfl
  · simp only [AnyMat.get1d, Mat.get1d, hl, toAny_get1d_unchecked]; rfl
  · have e1 : (crateImpls cfg α).lay.dim = fun l => .ok l.dim := rfl
    have e2 : (crateImpls cfg α).lay.number_of_elements = fun l => l.number_of_elements cfg := rfl
    have e3 : (crateImpls cfg α).lay.from_dimension = fun l => l.indexKind.from_dimension := rfl
    have e4 : (crateImpls cfg α).lay.convert_1d_raw = fun l => l.convert_1d_raw cfg := rfl
    simp only [AnyMat.eval, Mat.eval, zeros_from_dim, from_data, BaseMatrix.new, hl,
      toAny_get1d_unchecked, e1, e2, e3, e4, Out.bind_ok, Out.bind_assoc', Out.pure_eq,
      BaseMatrix.get1d_unchecked_mut]

/-- **C74**: with any implementation, `Matrix::from_data` accepts a container that has at least as
many elements as the layout says and panics for every other; over the crate's own it is the
`from_data` modelled for the crate. -/
theorem C74_construction [Target] (I : Impls α V D X) (d : D) (l : V) (n k : Nat)
    (hn : I.lay.number_of_elements l = .ok n) (hk : I.dat.number_of_elements d = .ok k) :
    (n ≤ k → AnyBase.new I d l = .ok ⟨d, l⟩) ∧ (k < n → AnyBase.new I d l = .panic) ∧
    ∀ (cfg : Cfg) (rs cs : SizeId) (d : Container) (l : Layout),
      AnyBase.new (crateImpls cfg α) d l =
        (from_data cfg rs cs d l >>= fun b => .ok ⟨b.data, b.layout⟩) := by
  refine ⟨fun h => ?_, fun h => ?_, fun cfg rs cs d l => ?_⟩
  · simp only [AnyBase.new, hn, hk, Out.bind_ok, Out.assert_pos h, Out.pure_eq]
  · simp only [AnyBase.new, hn, hk, Out.bind_ok, Out.assert_neg (show ¬ n ≤ k by omega)]
    rfl
  · have e : (crateImpls cfg α).lay.number_of_elements = fun l => l.number_of_elements cfg := rfl
    have e' : (crateImpls cfg α).dat.number_of_elements = fun d => .ok d.number_of_elements := rfl
    simp only [AnyBase.new, from_data, BaseMatrix.new, e, e', Out.bind_ok, Out.bind_assoc', Out.pure_eq]

/-- Three elements do for three and not for four. -/
example : AnyBase.new tableImpls ⟨0, 0, 3⟩ ((1, 3), 3, id, 3) = .ok ⟨⟨0, 0, 3⟩, ((1, 3), 3, id, 3)⟩ ∧
    AnyBase.new tableImpls ⟨0, 0, 3⟩ ((1, 4), 4, id, 4) = .panic :=
  ⟨(C74_construction tableImpls _ _ 3 3 rfl rfl).1 (by decide),
    (C74_construction tableImpls _ _ 4 3 rfl rfl).2.1 (by decide)⟩

/-- **C74**: a matrix of the crate whose operands fit together is an expression of the kind the
contract theorems are about, so these apply to it. -/
theorem C74_crate_expressions [Target] (cfg : Cfg) (mem : Mem α) (m : Mat α) (h : MatOK mem m) :
    Built (crateImpls cfg α) Layout.indexKind mem m.toAny := by
  induction m with
  | base b =>
    obtain ⟨h1, h2⟩ := C74_crate_matrices cfg mem b h
    exact .base h1 h2
  | ref m ih => exact .ref (ih h)
  | addition a b l iha ihb =>
    obtain ⟨ha, hb, hd, hk, rfl⟩ := h
    refine .sum (iha ha) (ihb hb) (by rw [toAny_layout, toAny_layout]; exact hk) ?_
    have e1 : (crateImpls cfg α).lay.dim = fun l => .ok l.dim := rfl
    have e2 : (crateImpls cfg α).lay.index_layout = fun l => .ok l.index_layout := rfl
    simp only [AnyMat.addition_new, toAny_layout, e1, e2, Out.bind_ok, Out.assert_pos hd, Mat.toAny,
      Out.pure_eq]
  | scalarMult m s ih => exact .scaled (ih h) s

/-! ## A program with a layout and a matrix type of its own -/

/-- Diagonal matrices of dimension `n`: only the diagonal is stored. -/
def diagonal : LayoutImpl Nat where
  stride _ := .panic
  dim n := .ok (n, n)
  number_of_elements n := .ok n
  convert_1d_2d _ i := .ok (i, i)
  convert_2d_1d _ r c := if r = c then .ok r else .panic
  convert_1d_raw _ i := .ok i
  convert_2d_raw _ r c := if r = c then .ok r else .panic
  index_layout n := .ok n
  from_dimension _ d := if d.1 = d.2 then .ok d.1 else .panic

/-- Diagonal matrices, and multiples of the identity that store nothing. -/
def diagonalImpls : Impls Int Nat Container (Nat × Int) where
  lay := diagonal
  dat := crateContainers Int
  mat := ⟨Prod.fst, fun x _ r c => .ok (if r = c then x.2 else 0), fun x _ _ => .ok x.2⟩

theorem diagonal_safe : SafeLayout diagonal := by
  constructor <;> intros <;> simp only [diagonal] <;> (try split) <;> simp

theorem diagonal_logical : Logical diagonal (fun _ => ()) := by
  refine ⟨fun l l' _ h => ?_, fun l l' h => ?_, fun l d l' hd h => ?_, fun l d l' n _ hn => ?_⟩
  · simp only [diagonal, Out.ok.injEq, Prod.mk.injEq] at h ⊢; exact h.1
  · cases h; exact ⟨rfl, rfl⟩
  · cases hd
    simp only [diagonal, if_true, Out.ok.injEq] at h
    subst h; exact ⟨rfl, rfl⟩
  · refine ⟨fun i hi => .inr ⟨i, rfl, hi⟩, fun i j k _ _ h1 h2 => ?_⟩
    cases h1; cases h2; rfl

/-- `2 * (diag(7, 8, 9) + 5 * identity)`, with the layout and the matrix type above -/
def diagonalSum : AnyMat Int Nat Container (Nat × Int) :=
  .scalarMult (.addition (.base ⟨⟨0, 0, 3⟩, 3⟩) (.user (3, 5)) 3) 2

theorem diagonalSum_built : Built diagonalImpls (fun _ => ()) threeMem diagonalSum := by
  refine .scaled (.sum (a := .base ⟨⟨0, 0, 3⟩, 3⟩) (b := .user (3, 5)) (.base (n := 3) ⟨?_, ?_⟩ ?_)
    (.user ⟨?_, ?_⟩) rfl rfl) 2
  · refine .inr ⟨_, rfl, fun r c hr hc => ?_⟩
    simp only [diagonalImpls, diagonal]
    split
    · exact .inr ⟨_, rfl, hr⟩
    · exact .inl rfl
  · exact .inr ⟨_, rfl, fun i hi => .inr ⟨_, rfl, hi⟩⟩
  · exact (C74_crate_matrices dbg threeMem ⟨⟨0, 0, 3⟩, .rowVector ⟨3⟩, .dynamic, .dynamic⟩
      (sound_of_contiguous trivial ⟨by decide, by decide⟩ (by decide))).2
  · exact .inr ⟨_, rfl, fun r c _ _ => by simp [diagonalImpls]⟩
  · exact .inr ⟨_, rfl, fun i _ => ⟨by simp [diagonalImpls], fun _ _ => rfl⟩⟩

example : (∀ r c i, diagonalSum.get diagonalImpls threeMem r c ≠ .ub ∧
      diagonalSum.get1d diagonalImpls threeMem i ≠ .ub) ∧
    diagonalSum.get diagonalImpls threeMem 1 1 = .ok 26 ∧
    diagonalSum.get diagonalImpls threeMem 0 1 = .panic ∧
    diagonalSum.get1d diagonalImpls threeMem 2 = .ok 28 ∧
    diagonalSum.get1d diagonalImpls threeMem 3 = .panic :=
  ⟨C74_reads_partial _ _ diagonal_logical _ _ diagonalSum_built, rfl, rfl, rfl, rfl⟩

example : diagonalSum.eval diagonalImpls dbg threeMem =
    .ok (⟨⟨1, 0, 3⟩, 3⟩, ⟨[[7, 8, 9], [24, 26, 28]]⟩) ∧ SafeLayout diagonal ∧
    Logical diagonal (fun _ => ()) := ⟨rfl, diagonal_safe, diagonal_logical⟩

example : Addresses diagonal 3 3 ∧
    (⟨⟨0, 0, 3⟩, 3⟩ : AnyBase Nat Container).for_each diagonalImpls (fun s v => (s + v, v * 10)) 0
      threeMem = .ok ((24 : Int), ⟨[[70, 80, 90]]⟩) ∧
    diagonalImpls.dat.get_slice ⟨0, 0, 3⟩ 1 3 = .ok ⟨0, 1, 2⟩ := by
  refine ⟨⟨.inr ⟨_, rfl, fun r c hr hc => ?_⟩, .inr ⟨_, rfl, fun i hi => .inr ⟨_, rfl, hi⟩⟩⟩, rfl, rfl⟩
  simp only [diagonal]
  split
  · exact .inr ⟨_, rfl, hr⟩
  · exact .inl rfl

example : MatOK exMem (Mat.addition (.base exRow) (.ref (.base exRow)) exRow.layout.index_layout) :=
  have h : Sound exRow exMem := sound_of_contiguous trivial ⟨by decide, by decide⟩ (by decide)
  ⟨h, h, rfl, rfl, rfl⟩

end Householder.Props
