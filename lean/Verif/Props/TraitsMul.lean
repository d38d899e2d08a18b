import Verif.Spec.TraitsMul
import Verif.Props.Traits
import Verif.Props.MatMul
import Verif.Lemmas.Views

/-!
# Products and views over other implementations of the open traits (C75)
-/

namespace Householder.Props

open Spec

variable {α V D X V₁ D₁ X₁ V₂ D₂ X₂ V₃ D₃ X₃ : Type}

theorem leads_addr [Target] {p : Ptr} {s d : Nat × Nat} {place : Nat → Nat → Loc} (h : Leads p s d place)
    {i j : Nat} (hi : i < d.1) (hj : j < d.2) :
    gemmValid p (asIsize s.1) (asIsize s.2) i j ∧
    gemmLoc p (asIsize s.1) (asIsize s.2) i j = place i j := by
  obtain ⟨k, e, hk, hp⟩ := h i j hi hj
  have ha : gemmAddr p (asIsize s.1) (asIsize s.2) i j = (k : Int) := e.symm
  refine ⟨?_, ?_⟩
  · unfold gemmValid
    rw [ha]
    exact ⟨Int.natCast_nonneg _, by exact_mod_cast hk⟩
  · unfold gemmLoc
    rw [ha, hp]
    rfl

theorem exposes_get [Target] [Add α] [Mul α] {I : Impls α V D X} {ptr : D → Out Ptr} {b : AnyBase V D}
    {mem : Mem α} {d : Nat × Nat} {place : Nat → Nat → Loc} (h : Exposes I ptr b mem d place)
    {i j : Nat} (hi : i < d.1) (hj : j < d.2) {mem1 : Mem α} {v : α}
    (hg : (AnyMat.base b : AnyMat α V D X).get I mem1 i j = .ok v) :
    mem1.get? (place i j) = some v ∧ ∀ (mem' : Mem α) (w : α), mem'.get? (place i j) = some w →
      (AnyMat.base b : AnyMat α V D X).get I mem' i j = .ok w := by
  simp only [AnyMat.get, AnyMat.layout, AnyMat.get_unchecked, AnyBase.get_unchecked,
    Out.bind_eq_ok] at hg ⊢
  obtain ⟨d', ed, u, eu, k, ek, hr⟩ := hg
  have ha := (h.access i j hi hj).of_ok ek
  refine ⟨?_, fun mem' w hw => ⟨d', ed, u, eu, k, ek, ?_⟩⟩
  · rw [ha] at hr; exact Mem.read_ok_iff.1 hr
  · rw [ha]; exact Mem.read_ok_iff.2 hw

/-- **C75, partial**: products. For operands that expose their elements, with the elements of `c`
at different places and apart from those of `a` and `b`, `matmul` is defined. If it returns, the
dimensions were compatible, every element of `c` is what the kernel computes from the elements
that `get` gives for `a`, `b` and `c`, and nothing else in memory has changed. Missing:
implementations whose strides or pointers lead elsewhere (`C75_false_product`). -/
theorem C75_product_partial [Target] [Add α] [Mul α] (I₁ : Impls α V₁ D₁ X₁) (I₂ : Impls α V₂ D₂ X₂)
    (I₃ : Impls α V₃ D₃ X₃) (kern : Kern α) (alpha beta : α) (a : AnyBase V₁ D₁) (b : AnyBase V₂ D₂)
    (c : AnyBase V₃ D₃) (mem : Mem α) (da db dc : Nat × Nat) (pa pb pc : Nat → Nat → Loc)
    (ha : Exposes I₁ I₁.dat.get_pointer a mem da pa)
    (hb : Exposes I₂ I₂.dat.get_pointer b mem db pb)
    (hc : Exposes I₃ I₃.dat.get_pointer_mut c mem dc pc)
    (hd : Distinct dc pc) (hca : Apart dc pc da pa) (hcb : Apart dc pc db pb) :
    Gives (AnyBase.matmul I₁ I₂ I₃ kern alpha a b beta c mem) fun mem' =>
      (da.2 = db.1 ∧ dc.1 = da.1 ∧ dc.2 = db.2) ∧
      (∀ q, mem'.size q = mem.size q) ∧ mem'.bufs.length = mem.bufs.length ∧
      (∀ q, (∀ i j, i < dc.1 → j < dc.2 → q ≠ pc i j) → mem'.get? q = mem.get? q) ∧
      ∀ A B C : Nat → Nat → α,
        (∀ i l, i < da.1 → l < da.2 →
          (AnyMat.base a : AnyMat α V₁ D₁ X₁).get I₁ mem i l = .ok (A i l)) →
        (∀ l j, l < db.1 → j < db.2 →
          (AnyMat.base b : AnyMat α V₂ D₂ X₂).get I₂ mem l j = .ok (B l j)) →
        (∀ i j, i < dc.1 → j < dc.2 →
          (AnyMat.base c : AnyMat α V₃ D₃ X₃).get I₃ mem i j = .ok (C i j)) →
        ∀ i j, i < dc.1 → j < dc.2 → (AnyMat.base c : AnyMat α V₃ D₃ X₃).get I₃ mem' i j =
          .ok (kern ⟨dc.1, dc.2, i, j⟩ alpha ((List.range da.2).map fun l => (A i l, B l j)) beta (C i j)) := by
  refine gives_bind (gives_ne_ub ha.dim) fun x ex => gives_bind (gives_ne_ub hb.dim) fun y ey =>
    gives_bind (gives_ne_ub hc.dim) fun z ez => ?_
  obtain rfl : x = da := ha.dim.of_ok ex
  obtain rfl : y = db := hb.dim.of_ok ey
  obtain rfl : z = dc := hc.dim.of_ok ez
  refine gives_assert fun hcomp => ?_
  refine gives_bind (gives_ne_ub ha.strides) fun sa esa => ?_
  refine gives_bind (gives_ne_ub ha.strides) fun sa' esa' => ?_
  refine gives_bind (gives_ne_ub hb.strides) fun sb esb => ?_
  refine gives_bind (gives_ne_ub hb.strides) fun sb' esb' => ?_
  refine gives_bind (gives_ne_ub hc.strides) fun sc esc => ?_
  refine gives_bind (gives_ne_ub hc.strides) fun sc' esc' => ?_
  obtain rfl : sa = sa' := by rw [esa] at esa'; simpa using esa'
  obtain rfl : sb = sb' := by rw [esb] at esb'; simpa using esb'
  obtain rfl : sc = sc' := by rw [esc] at esc'; simpa using esc'
  have hpa := ha.strides.of_ok esa
  have hpb := hb.strides.of_ok esb
  have hpc := hc.strides.of_ok esc
  refine gives_bind (gives_ne_ub hpa) fun p ep => gives_bind (gives_ne_ub hpb) fun q eq =>
    gives_bind (gives_ne_ub hpc) fun r er => ?_
  have la := hpa.of_ok ep
  have lb := hpb.of_ok eq
  have lc := hpc.of_ok er
  obtain ⟨k1, k2, k3⟩ := hcomp
  have hpre : gemmPre x.1 x.2 y.2 p (asIsize sa.1) (asIsize sa.2) q (asIsize sb.1) (asIsize sb.2)
      r (asIsize sc.1) (asIsize sc.2) := by
    refine ⟨fun i hi j hj => (leads_addr la hi hj).1,
      fun i hi j hj => (leads_addr lb (by omega) hj).1,
      fun i hi j hj => (leads_addr lc (by omega) (by omega)).1, ?_, ?_, ?_⟩
    · intro i hi j hj i' hi' j' hj' e
      rw [(leads_addr lc (by omega) (by omega)).2, (leads_addr lc (by omega) (by omega)).2] at e
      exact hd i j i' j' (by omega) (by omega) (by omega) (by omega) e
    · intro i hi j hj i' hi' j' hj' e
      rw [(leads_addr lc (by omega) (by omega)).2, (leads_addr la hi' hj').2] at e
      exact hca i j i' j' (by omega) (by omega) hi' hj' e
    · intro i hi j hj i' hi' j' hj' e
      rw [(leads_addr lc (by omega) (by omega)).2, (leads_addr lb (by omega) hj').2] at e
      exact hcb i j i' j' (by omega) (by omega) (by omega) hj' e
  have val : ∀ (pl : Nat → Nat → Loc) (d : Nat × Nat),
      (∀ i j, i < d.1 → j < d.2 → (mem.get? (pl i j)).isSome) →
      ∀ i j, i < d.1 → j < d.2 → mem.get? (pl i j) = some ((mem.get? (pl i j)).getD alpha) := by
    intro pl d h i j hi hj
    obtain ⟨v, hv⟩ := Option.isSome_iff_exists.1 (h i j hi hj)
    rw [hv]; rfl
  obtain ⟨mem', e, h1, h2, h3, h4⟩ := gemm_ok (kern := kern) (alpha := alpha) (beta := beta)
    (mem := mem) hpre (A := fun i l => (mem.get? (pa i l)).getD alpha)
    (B := fun l j => (mem.get? (pb l j)).getD alpha) (C := fun i j => (mem.get? (pc i j)).getD alpha)
    (fun i l hi hl => by rw [(leads_addr la hi hl).2]; exact val pa x ha.exist i l hi hl)
    (fun l j hl hj => by
      rw [(leads_addr lb (by omega) hj).2]; exact val pb y hb.exist l j (by omega) hj)
    (fun i j hi hj => by
      rw [(leads_addr lc (by omega) (by omega)).2]
      exact val pc z hc.exist i j (by omega) (by omega))
  refine .inr ⟨mem', e, ⟨k1, k2, k3⟩, h1, h2, fun w hw => h4 w fun i j hi hj => ?_, ?_⟩
  · rw [(leads_addr lc (by omega) (by omega)).2]; exact hw i j (by omega) (by omega)
  · intro A B C hA hB hC i j hi hj
    have hv := h3 i j (by omega) (by omega)
    rw [(leads_addr lc hi hj).2] at hv
    obtain ⟨hC1, hC2⟩ := exposes_get hc hi hj (hC i j hi hj)
    refine hC2 mem' _ ?_
    rw [hv, hC1]
    have hl : ((List.range x.2).map fun l => ((mem.get? (pa i l)).getD alpha,
        (mem.get? (pb l j)).getD alpha)) = (List.range x.2).map fun l => (A i l, B l j) := by
      refine List.map_congr_left fun l hl => ?_
      have hl := List.mem_range.1 hl
      rw [(exposes_get ha (by omega) hl (hA i l (by omega) hl)).1,
        (exposes_get hb (by omega) (by omega) (hB l j (by omega) (by omega))).1]
      rfl
    rw [hl, k2, k3]; rfl

/-! ## Why the contract is needed -/

/-- A layout given by a table: `(dim, stride)`; its conversions stay below 1. -/
def steppedLayout : LayoutImpl ((Nat × Nat) × (Nat × Nat)) where
  stride l := .ok l.2
  dim l := .ok l.1
  number_of_elements _ := .ok 1
  convert_1d_2d _ _ := .ok (0, 0)
  convert_2d_1d _ _ _ := .ok 0
  convert_1d_raw _ _ := .ok 0
  convert_2d_raw _ _ _ := .ok 0
  index_layout l := .ok l
  from_dimension l d := .ok (d, l.2)

/-- The crate's containers with that layout. -/
def steppedImpls : Impls Int ((Nat × Nat) × (Nat × Nat)) Container Empty :=
  ⟨steppedLayout, crateContainers Int, ⟨nofun, nofun, nofun⟩⟩

/-- Three buffers. -/
def productMem : Mem Int := ⟨[[1, 2], [3, 4], [5, 6]]⟩

/-- The full statement of C75 for products: with any implementation of `StridedLayoutType` whose
functions return or panic and whose every element access stays inside its container, over three
containers of the crate in different buffers, `matmul` is defined. -/
def C75_statement [Target] : Prop :=
  ∀ (V : Type) (L : LayoutImpl V) (mem : Mem Int) (a b c : AnyBase V Container),
    let I : Impls Int V Container Empty := ⟨L, crateContainers Int, ⟨nofun, nofun, nofun⟩⟩
    SafeLayout L →
    (∀ x ∈ [a, b, c], Addresses L x.layout x.data.len ∧ ContainerOK x.data mem ∧
      AnyBase.new I x.data x.layout = .ok x) →
    a.data.buf ≠ c.data.buf → b.data.buf ≠ c.data.buf →
    AnyBase.matmul I I I exactKern 1 a b 0 c mem ≠ .ub

theorem steppedLayout_safe : SafeLayout steppedLayout := by
  constructor <;> intros <;> simp [steppedLayout]

theorem stepped_addresses (l : (Nat × Nat) × (Nat × Nat)) {n : Nat} (hn : 0 < n) :
    Addresses steppedLayout l n :=
  ⟨.inr ⟨_, rfl, fun _ _ _ _ => .inr ⟨0, rfl, hn⟩⟩, .inr ⟨_, rfl, fun _ _ => .inr ⟨0, rfl, hn⟩⟩⟩

/-- **C75 is false of the code**: strides of a safe implementation need not be where its elements
are, and `matmul` relies on them. -/
theorem C75_false [Target] : ¬ C75_statement := by
  intro h
  refine h _ steppedLayout productMem ⟨⟨0, 0, 2⟩, ((1, 2), (0, 100))⟩ ⟨⟨1, 0, 2⟩, ((2, 1), (1, 1))⟩
    ⟨⟨2, 0, 2⟩, ((1, 1), (1, 1))⟩ steppedLayout_safe ?_ (by decide_width) (by decide_width) (by decide_width_kernel)
  intro x hx
  simp only [List.mem_cons, List.not_mem_nil, or_false] at hx
  rcases hx with rfl | rfl | rfl <;>
    exact ⟨stepped_addresses _ (by decide_width), ⟨by decide_width, by decide_width⟩, rfl⟩

/-- **C75**, in detail: `StridedLayoutType` is a safe trait without functions. Here is a layout
whose functions are safe and whose every access is inside its container, so that the contract for
element access is kept; but its strides are not where its elements are. The safe `matmul` then
reads outside the container of `a`. -/
theorem C75_false_product [Target] :
    let a : AnyBase _ Container := ⟨⟨0, 0, 2⟩, ((1, 2), (0, 100))⟩
    let b : AnyBase _ Container := ⟨⟨1, 0, 2⟩, ((2, 1), (1, 1))⟩
    let c : AnyBase _ Container := ⟨⟨2, 0, 2⟩, ((1, 1), (1, 1))⟩
    SafeLayout steppedLayout ∧ Logical steppedLayout (fun _ => ()) ∧
    Addresses steppedLayout a.layout 1 ∧ Addresses steppedLayout b.layout 1 ∧
    Addresses steppedLayout c.layout 1 ∧
    AnyBase.new steppedImpls a.data a.layout = .ok a ∧
    AnyBase.new steppedImpls b.data b.layout = .ok b ∧
    AnyBase.new steppedImpls c.data c.layout = .ok c ∧
    AnyBase.matmul steppedImpls steppedImpls steppedImpls exactKern 1 a b 0 c productMem = .ub ∧
    AnyBase.dot steppedImpls steppedImpls dbg exactKern .matMat a b productMem = .ub := by
  have hA : ∀ l, Addresses steppedLayout l 1 := fun l => stepped_addresses l (by decide_width)
  refine ⟨steppedLayout_safe, ⟨fun _ _ _ _ => rfl, ?_, ?_, ?_⟩,
    hA _, hA _, hA _, rfl, rfl, rfl, by decide_width_kernel, by decide_width_kernel⟩
  · intro l l' h; cases h; exact ⟨rfl, rfl⟩
  · intro l d l' _ h; cases h; exact ⟨rfl, rfl⟩
  · intro l d l' n _ hn
    cases hn
    exact ⟨fun i _ => .inr ⟨0, rfl, by decide_width⟩, fun i j k hi hj _ _ => by omega⟩

/-- **C75**, second way: the container that says it has ten elements (`boastful`), under a layout
of the crate. Each of its own functions is defined, for every index; blocks and splits are not. -/
theorem C75_false_views [Target] :
    let m : AnyBase Layout Unit := ⟨(), .rowMajor ⟨(2, 5)⟩⟩
    AnyBase.new ⟨crateLayouts dbg, boastful, (⟨nofun, nofun, nofun⟩ : MatrixImpl Int Layout Empty)⟩
      () m.layout = .ok m ∧
    AnyBase.block boastful dbg m (0, 0) (2, 2) = .ub ∧
    AnyBase.block_mut boastful dbg m (0, 0) (2, 2) = .ub ∧
    AnyBase.split_in_four_mut boastful dbg m (1, 1) = .ub := by
  refine ⟨by rfl_width, by decide_width_kernel, by decide_width_kernel, by decide_width_kernel⟩

/-! ## Products of the crate's own matrices -/

/-- **C75**: over the implementations of the crate the generic products are the ones modelled for
the crate. -/
theorem C75_product_agreement [Target] [Zero α] [One α] (cfg : Cfg) (kern : Kern α) (alpha beta : α)
    (i : DotImpl) (a b c : BaseMatrix) (mem : Mem α) :
    AnyBase.matmul (crateImpls cfg α) (crateImpls cfg α) (crateImpls cfg α) kern alpha
      ⟨a.data, a.layout⟩ ⟨b.data, b.layout⟩ beta ⟨c.data, c.layout⟩ mem =
      matmul kern alpha a b beta c mem ∧
    AnyBase.dot (crateImpls cfg α) (crateImpls cfg α) cfg kern i ⟨a.data, a.layout⟩
      ⟨b.data, b.layout⟩ mem = dot cfg kern i a b mem := by
  have h : ∀ (alpha beta : α) (a b c : BaseMatrix) (mem : Mem α),
      AnyBase.matmul (crateImpls cfg α) (crateImpls cfg α) (crateImpls cfg α) kern alpha
      ⟨a.data, a.layout⟩ ⟨b.data, b.layout⟩ beta ⟨c.data, c.layout⟩ mem =
      matmul kern alpha a b beta c mem := fun _ _ _ _ _ _ => rfl
  refine ⟨h alpha beta a b c mem, ?_⟩
  have e1 : (crateImpls cfg α).lay.dim = fun l => .ok l.dim := rfl
  simp only [AnyBase.dot, e1, Out.bind_ok]
  cases i <;> simp only [dot, dot_mm, dot_vm, dot_mv, h]

/-- **C75**: a sound matrix of the crate that reports the strides it has exposes its elements, as
`C75_product_partial` asks for. -/
theorem C75_crate_products [Target] (cfg : Cfg) (mem : Mem α) (b : BaseMatrix) (h : Sound b mem)
    (ho : Honest b.layout) :
    Exposes (crateImpls cfg α) (crateImpls cfg α).dat.get_pointer ⟨b.data, b.layout⟩ mem
      b.layout.dim (cell b) ∧
    Exposes (crateImpls cfg α) (crateImpls cfg α).dat.get_pointer_mut ⟨b.data, b.layout⟩ mem
      b.layout.dim (cell b) := by
  have hs := h.seenIn ho
  have st : ∀ {i j}, i < b.layout.dim.1 → j < b.layout.dim.2 → Stored b.layout i j :=
    fun hi hj => (stored_of_notTri ho.notTri).2 ⟨hi, hj⟩
  have lead : Leads b.data.get_pointer (claimed b.layout) b.layout.dim (cell b) := by
    intro i j hi hj
    refine ⟨raw b.layout i j, ?_, h.inside i j (st hi hj), by simp [cell, Container.get_pointer]⟩
    have := hs.addr hi hj
    rw [ho.raw hi hj] at this
    rw [← this]; rfl
  have ex : ∀ i j, i < b.layout.dim.1 → j < b.layout.dim.2 → (mem.get? (cell b i j)).isSome := by
    intro i j hi hj
    exact Option.isSome_iff_exists.2 (Mem.get?_isSome_iff.2 (h.cell_lt (st hi hj)))
  have acc : ∀ i j, i < b.layout.dim.1 → j < b.layout.dim.2 →
      Gives (b.layout.convert_2d_raw cfg i j) fun k =>
        ∀ mem' : Mem α, b.data.get_unchecked mem' k = mem'.read (cell b i j) := by
    intro i j hi hj
    refine .inr ⟨_, convert_2d_raw_ok cfg (st hi hj) (h.raw_lt (st hi hj)) h.triFits, fun mem' => ?_⟩
    simp only [Container.get_unchecked, if_pos (h.inside i j (st hi hj))]; rfl
  have str : b.layout.stride = .ok (claimed b.layout) := stride_claimed ho.notTri
  exact ⟨⟨.inr ⟨_, rfl, rfl⟩, .inr ⟨_, str, .inr ⟨_, rfl, lead⟩⟩, ex, acc⟩,
    ⟨.inr ⟨_, rfl, rfl⟩, .inr ⟨_, str, .inr ⟨_, rfl, lead⟩⟩, ex, acc⟩⟩

theorem dotZeros_sized [Target] [Zero α] (cfg : Cfg) (i : DotImpl) (R C : Nat) (mem : Mem α)
    (hc : cfg.overflowChecks = true ∨ R * C < W) :
    Gives (dotZeros cfg i R C mem) fun x => x.1.layout = productLayout i R C ∧
      x.1.layout.dim = (R, C) ∧ ZeroMatrix x.1 mem x.2 := by
  let a : BaseMatrix := ⟨⟨0, 0, 0⟩, .rowMajor ⟨(R, 0)⟩, .dynamic, .dynamic⟩
  let b : BaseMatrix := ⟨⟨0, 0, 0⟩, .rowMajor ⟨(0, C)⟩, .dynamic, .dynamic⟩
  by_cases hv : VectorShape i a b
  swap
  · left
    cases i with
    | matMat => exact absurd trivial hv
    | rowMat => simp only [dotZeros, row_zeros_from_dim_eq]; exact if_neg hv
    | matCol => simp only [dotZeros, col_zeros_from_dim_eq]; exact if_neg hv
  by_cases hsz : R * C * cfg.item.size ≤ isizeMax
  · obtain ⟨m, mem', e, h1, h2⟩ := dotZeros_ok cfg i hv hsz mem
    exact .inr ⟨(m, mem'), e, h1, by rw [h1]; exact productLayout_dim hv, h2⟩
  · left
    cases i with
    | matMat =>
      have hfd : BaseKind.rowMajor.from_dimension (R, C) = .ok (.rowMajor ⟨(R, C)⟩) := rfl
      simp only [dotZeros, zeros_from_dim, hfd, Out.bind_ok]
      cases hn : (Layout.rowMajor ⟨(R, C)⟩).number_of_elements cfg with
      | ub => exact absurd hn (number_of_elements_ne_ub cfg _)
      | panic => rfl
      | ok n =>
        obtain rfl : n = R * C := by
          rcases hc with hc | hc
          · exact (number_of_elements_exact hc hn).1
          · have := number_of_elements_ok cfg (l := .rowMajor ⟨(R, C)⟩) hc trivial
            rw [hn] at this
            simpa [count] using this
        simp [Container.newVector, hsz]
    | rowMat =>
      have hv : R = 1 := hv
      rw [hv, one_mul] at hsz
      simp only [dotZeros, row_zeros_from_dim_eq, if_pos hv, RowVectorD.zeros_from_length,
        Container.newVector, if_neg hsz, Out.bind_panic]
    | matCol =>
      have hv : C = 1 := hv
      rw [hv, mul_one] at hsz
      simp only [dotZeros, col_zeros_from_dim_eq, if_pos hv, ColumnVectorD.zeros_from_length,
        Container.newVector, if_neg hsz, Out.bind_panic]

theorem any_dot_eq [Target] [Zero α] [One α] (I₁ : Impls α V₁ D₁ X₁) (I₂ : Impls α V₂ D₂ X₂) (cfg : Cfg)
    (kern : Kern α) (i : DotImpl) (a : AnyBase V₁ D₁) (b : AnyBase V₂ D₂) (mem : Mem α) :
    AnyBase.dot I₁ I₂ cfg kern i a b mem = do
      let d1 ← I₁.lay.dim a.layout
      let d2 ← I₂.lay.dim b.layout
      let x ← dotZeros cfg i d1.1 d2.2 mem
      let mem2 ← AnyBase.matmul I₁ I₂ (crateImpls cfg α) kern 1 a b 0 ⟨x.1.data, x.1.layout⟩ x.2
      return (x.1, mem2) := by
  cases i <;> rfl

theorem exposes_extends [Target] {I : Impls α V D X} {ptr : D → Out Ptr} {b : AnyBase V D}
    {mem mem' : Mem α} {d : Nat × Nat} {place : Nat → Nat → Loc} (h : Exposes I ptr b mem d place)
    (hx : Extends mem mem') : Exposes I ptr b mem' d place ∧
      ∀ i j, i < d.1 → j < d.2 → (place i j).buf < mem.bufs.length := by
  have lt : ∀ i j, i < d.1 → j < d.2 → (place i j).buf < mem.bufs.length := by
    intro i j hi hj
    obtain ⟨v, hv⟩ := Option.isSome_iff_exists.1 (h.exist i j hi hj)
    exact Mem.buf_lt_of_get hv
  exact ⟨⟨h.dim, h.strides, fun i j hi hj => by
    rw [hx.2 _ (lt i j hi hj)]; exact h.exist i j hi hj, h.access⟩, lt⟩

/-- **C75, partial**: `dot` of operands that expose their elements is defined, with overflow checks
or when the size of the result is a `usize`. If it returns, the result is a new matrix of the crate
with the right dimension, each element is what the kernel computes from the operands' elements,
and memory that existed before is unchanged. Missing: operands that do not expose their elements
(`C75_false_product`), and in release builds sizes that wrap (`C75_dot_wraps`). -/
theorem C75_dot_partial [Target] [Zero α] [One α] [Add α] [Mul α] (I₁ : Impls α V₁ D₁ X₁)
    (I₂ : Impls α V₂ D₂ X₂) (cfg : Cfg) (kern : Kern α) (i : DotImpl) (a : AnyBase V₁ D₁)
    (b : AnyBase V₂ D₂) (mem : Mem α) (da db : Nat × Nat) (pa pb : Nat → Nat → Loc)
    (ha : Exposes I₁ I₁.dat.get_pointer a mem da pa)
    (hb : Exposes I₂ I₂.dat.get_pointer b mem db pb)
    (hcfg : cfg.overflowChecks = true ∨ da.1 * db.2 < W) :
    Gives (AnyBase.dot I₁ I₂ cfg kern i a b mem) fun x =>
      da.2 = db.1 ∧ x.1.layout.dim = (da.1, db.2) ∧ Sound x.1 x.2 ∧ Fresh x.1 mem ∧
      Extends mem x.2 ∧
      ∀ A B : Nat → Nat → α,
        (∀ r l, r < da.1 → l < da.2 →
          (AnyMat.base a : AnyMat α V₁ D₁ X₁).get I₁ mem r l = .ok (A r l)) →
        (∀ l c, l < db.1 → c < db.2 →
          (AnyMat.base b : AnyMat α V₂ D₂ X₂).get I₂ mem l c = .ok (B l c)) →
        ∀ r c, r < da.1 → c < db.2 →
          x.1.get cfg x.2 r c = .ok (kern ⟨da.1, db.2, r, c⟩ 1
            ((List.range da.2).map fun l => (A r l, B l c)) 0 0) := by
  rw [any_dot_eq]
  refine gives_bind (gives_ne_ub ha.dim) fun d1 e1 => gives_bind (gives_ne_ub hb.dim) fun d2 e2 => ?_
  obtain rfl : d1 = da := ha.dim.of_ok e1
  obtain rfl : d2 = db := hb.dim.of_ok e2
  have hz := dotZeros_sized cfg i d1.1 d2.2 mem hcfg
  refine gives_bind (gives_ne_ub hz) fun x ex => ?_
  obtain ⟨m, mem1⟩ := x
  obtain ⟨hl, hdim, hz⟩ := hz.of_ok ex
  simp only at hl hdim hz ⊢
  obtain ⟨p1, p2, p3⟩ := productLayout_props i d1.1 d2.2
  rw [← hl] at p1 p2 p3
  obtain ⟨ha', la⟩ := exposes_extends ha hz.ext
  obtain ⟨hb', lb⟩ := exposes_extends hb hz.ext
  have hc' := (C75_crate_products cfg mem1 m hz.sound p3).2
  have hfr : mem.bufs.length ≤ m.data.buf := hz.fresh
  have hno := contiguous_nonOverlapping p1
  have st : ∀ {i j}, i < m.layout.dim.1 → j < m.layout.dim.2 → Stored m.layout i j :=
    fun hi hj => (stored_of_notTri p2).2 ⟨hi, hj⟩
  have hp := C75_product_partial I₁ I₂ (crateImpls cfg α) kern 1 0 a b ⟨m.data, m.layout⟩ mem1
    d1 d2 m.layout.dim pa pb (cell m) ha' hb' hc'
    (fun i j i' j' hi hj hi' hj' e => cell_inj hno (st hi hj) (st hi' hj') e)
    (fun i j i' j' hi hj hi' hj' e => by
      have h1 := la i' j' hi' hj'
      have h2 : m.data.buf = (pa i' j').buf := congrArg Loc.buf e
      omega)
    (fun i j i' j' hi hj hi' hj' e => by
      have h1 := lb i' j' hi' hj'
      have h2 : m.data.buf = (pb i' j').buf := congrArg Loc.buf e
      omega)
  refine gives_bind (gives_ne_ub hp) fun mem2 e2 => ?_
  obtain ⟨⟨k1, k2, k3⟩, s1, s2, s3, s4⟩ := hp.of_ok e2
  have hext : Extends mem mem2 := by
    refine ⟨by rw [s2]; exact hz.ext.1, fun q hq => ?_⟩
    rw [s3 q fun i j _ _ e => ?_, hz.ext.2 q hq]
    rw [e] at hq
    have : (cell m i j).buf = m.data.buf := rfl
    omega
  refine .inr ⟨(m, mem2), rfl, k1, hdim, hz.sound.mono (by rw [s1]), hz.fresh, hext, ?_⟩
  intro A B hA hB r c hr hc
  have same : ∀ {V D X : Type} (I : Impls α V D X) (ptr : D → Out Ptr) (x : AnyBase V D)
      (d : Nat × Nat) (pl : Nat → Nat → Loc), Exposes I ptr x mem d pl →
      (∀ i j, i < d.1 → j < d.2 → (pl i j).buf < mem.bufs.length) →
      ∀ i j, i < d.1 → j < d.2 → ∀ v, (AnyMat.base x : AnyMat α V D X).get I mem i j = .ok v →
      (AnyMat.base x : AnyMat α V D X).get I mem1 i j = .ok v := by
    intro V D X I ptr x d pl h lt i j hi hj v hv
    obtain ⟨g1, g2⟩ := exposes_get h hi hj hv
    exact g2 mem1 v (by rw [hz.ext.2 _ (lt i j hi hj)]; exact g1)
  have hres := s4 A B (fun _ _ => 0)
    (fun i l hi hl => same I₁ _ a d1 pa ha la i l hi hl _ (hA i l hi hl))
    (fun l j hl hj => same I₂ _ b d2 pb hb lb l j hl hj _ (hB l j hl hj))
    (fun i j hi hj => hz.sound.get cfg (st hi hj) (hz.zero i j (st hi hj)))
    r c (by rw [hdim]; exact hr) (by rw [hdim]; exact hc)
  rw [hdim] at hres
  exact hres

/-! ## Views -/

theorem raw_parts_window {p : Ptr} (h : p.off ≤ p.prov.len) (k n : Nat) :
    (⟨p.prov, p.off + k⟩ : Ptr).from_raw_parts n = (⟨window p, k⟩ : Ptr).from_raw_parts n := by
  unfold Ptr.from_raw_parts
  by_cases hk : p.off + k + n ≤ p.prov.len
  · rw [if_pos hk, if_pos (by simp only [window]; omega)]
    simp only [window, Nat.add_assoc]
  · rw [if_neg hk, if_neg (by simp only [window]; omega)]

theorem from_pointer_window [Target] {p : Ptr} (h : p.off ≤ p.prov.len) (cfg : Cfg) (k : Nat)
    (d : Nat × Nat) (l : Layout) :
    from_pointer_strided cfg ⟨p.prov, p.off + k⟩ d l = from_pointer_strided cfg ⟨window p, k⟩ d l := by
  simp only [from_pointer_strided, raw_parts_window h]

theorem add_window {β : Type} {p : Ptr} (h : p.off ≤ p.prov.len) (k : Nat) (f g : Ptr → Out β)
    (hfg : f ⟨p.prov, p.off + k⟩ = g ⟨window p, k⟩) :
    (p.add k >>= f) = ((window p).get_pointer.add k >>= g) := by
  simp only [Ptr.add, Container.get_pointer, Nat.zero_add]
  by_cases hk : p.off + k ≤ p.prov.len
  · rw [if_pos hk, if_pos (by simp only [window]; omega)]; exact hfg
  · rw [if_neg hk, if_neg (by simp only [window]; omega)]; rfl

theorem offset_window [Target] {β : Type} {p : Ptr} (h : p.off ≤ p.prov.len) {k : Nat}
    (hk : (asIsize k : Int) = k) (f g : Ptr → Out β) (hfg : f ⟨p.prov, p.off + k⟩ = g ⟨window p, k⟩) :
    (p.offset (asIsize k) >>= f) = ((window p).get_pointer.offset (asIsize k) >>= g) := by
  simp only [Ptr.offset, Container.get_pointer, hk]
  by_cases hl : p.off + k ≤ p.prov.len
  · rw [if_pos ⟨by omega, by exact_mod_cast hl⟩, if_pos ⟨by omega, by simp only [window]; omega⟩]
    have e1 : ((p.off : Int) + k).toNat = p.off + k := by omega
    have e2 : (((0 : Nat) : Int) + k).toNat = k := by omega
    rw [e1, e2]; exact hfg
  · rw [if_neg (by omega), if_neg (by simp only [window]; omega)]; rfl

/-- **C75**: what `block`, `block_mut` and `split_in_four_mut` do over any container is what they do
over a slice container of the memory that the container's pointer may access: everything proved
about them for the crate's containers (C26 to C33) applies. For the split, when the matrix fits in
that memory and is split inside. -/
theorem C75_views_agreement [Target] (I : DataImpl α D) (cfg : Cfg) (m : AnyBase Layout D) (p : Ptr)
    (h : p.off ≤ p.prov.len) (tl d : Nat × Nat) :
    let w : BaseMatrix := ⟨window p, m.layout, .dynamic, .dynamic⟩
    (I.get_pointer m.data = .ok p → AnyBase.block I cfg m tl d = w.block cfg tl d) ∧
    (I.get_pointer_mut m.data = .ok p → AnyBase.block_mut I cfg m tl d = w.block cfg tl d) ∧
    (I.get_pointer_mut m.data = .ok p → ∀ R C, m.layout = .rowMajor ⟨(R, C)⟩ →
      R * C ≤ (window p).len → (window p).len * 4 ≤ isizeMax → ∀ s : Nat × Nat, s.1 < R → s.2 < C →
      AnyBase.split_in_four_mut I cfg m s = w.split_in_four_mut cfg s) := by
  have key : ∀ ptr : D → Out Ptr, ptr m.data = .ok p →
      AnyBase.blockWith ptr cfg m tl d =
        (⟨window p, m.layout, .dynamic, .dynamic⟩ : BaseMatrix).block cfg tl d := by
    intro ptr hp
    unfold AnyBase.blockWith BaseMatrix.block
    refine congrArg _ (funext fun _ => congrArg _ (funext fun _ => congrArg _ (funext fun _ =>
      congrArg _ (funext fun k => ?_))))
    rw [hp, Out.bind_ok]
    refine add_window h k _ _ (congrArg _ (funext fun s => ?_))
    cases BaseMatrix.strideLayout m.layout d s with
    | none => rfl
    | some l => exact from_pointer_window h cfg k d l
  refine ⟨key _, key _, fun hp R C hl hn hsm s h1 h2 => ?_⟩
  obtain ⟨data, layout⟩ := m
  obtain rfl : layout = .rowMajor ⟨(R, C)⟩ := hl
  have hW := small_W hsm
  have conv : ∀ r c, r < R → c < C → r * C + c ≤ isizeMax ∧
      (Layout.rowMajor ⟨(R, C)⟩).convert_2d_raw cfg r c = .ok (raw (.rowMajor ⟨(R, C)⟩) r c) ∧
      raw (.rowMajor ⟨(R, C)⟩) r c ≤ isizeMax := by
    intro r c hr hc
    have e1 : (r + 1) * C ≤ R * C := Nat.mul_le_mul_right _ hr
    rw [Nat.add_mul, Nat.one_mul] at e1
    have e2 : raw (.rowMajor ⟨(R, C)⟩) r c = r * C + c := by simp [raw, Nat.mul_comm]
    refine ⟨by omega, convert_2d_raw_ok cfg ((stored_of_notTri (fun u h => by simp at h)).2 ⟨hr, hc⟩)
      (by rw [e2]; omega) trivial, by rw [e2]; omega⟩
  have hR : 0 < R := by omega
  have hC : 0 < C := by omega
  obtain ⟨-, c0, b0⟩ := conv 0 0 hR hC
  obtain ⟨-, c1, b1⟩ := conv 0 s.2 hR h2
  obtain ⟨-, c2, b2⟩ := conv s.1 0 h1 hC
  obtain ⟨-, c3, b3⟩ := conv s.1 s.2 h1 h2
  unfold AnyBase.split_in_four_mut BaseMatrix.split_in_four_mut
  have hp : I.get_pointer_mut data = .ok p := hp
  simp only [hp, c0, c1, c2, c3, Out.bind_ok]
  refine congrArg _ (funext fun st => congrArg _ (funext fun d1 => congrArg _ (funext fun d2 =>
    congrArg _ (funext fun d31 => congrArg _ (funext fun d32 => ?_)))))
  refine offset_window h (asIsize_of_le b0) _ _ ?_
  rw [from_pointer_window h]
  refine congrArg _ (funext fun x0 => ?_)
  refine offset_window h (asIsize_of_le b1) _ _ ?_
  rw [from_pointer_window h]
  refine congrArg _ (funext fun x1 => ?_)
  refine offset_window h (asIsize_of_le b2) _ _ ?_
  rw [from_pointer_window h]
  refine congrArg _ (funext fun x2 => ?_)
  refine offset_window h (asIsize_of_le b3) _ _ ?_
  rw [from_pointer_window h]

theorem blockWith_shows [Target] (I : DataImpl α D) (J : MatrixImpl α Layout X) [Add α] [Mul α]
    (ptr : D → Out Ptr) (cfg : Cfg)
    (m : AnyBase Layout D) (mem : Mem α) (n : Nat) (hs : Shows I ptr m.data mem n)
    (hm : IsMajor m.layout) (hc : Contiguous m.layout) (hn : count m.layout ≤ n) (tl d : Nat × Nat)
    (hf : Fits m.layout tl d) (h1 : 1 ≤ d.1) (h2 : 1 ≤ d.2)
    (hb : ∀ p, p.off ≤ p.prov.len → ptr m.data = .ok p → AnyBase.blockWith ptr cfg m tl d =
      (⟨window p, m.layout, .dynamic, .dynamic⟩ : BaseMatrix).block cfg tl d) :
    Gives (AnyBase.blockWith ptr cfg m tl d) fun b => Sound b mem ∧ b.layout.dim = d ∧
      ∀ (mem' : Mem α) (i j : Nat), i < d.1 → j < d.2 → b.get cfg mem' i j =
        (AnyMat.base m : AnyMat α Layout D X).get ⟨crateLayouts cfg, I, J⟩ mem' (tl.1 + i)
          (tl.2 + j) := by
  rcases hs.pointer with hp | ⟨p, hp, hoff, hok, hlen, hread⟩
  · left
    have nub : AnyBase.blockWith ptr cfg m tl d ≠ .ub := by
      intro e
      simp [AnyBase.blockWith, hp, Out.bind_eq_ub, Cfg.add_ne_ub, convert_2d_raw_ne_ub,
        Out.assert_eq_ok] at e
    have nok : ∀ b, AnyBase.blockWith ptr cfg m tl d ≠ .ok b := by
      intro b e
      simp [AnyBase.blockWith, hp, Out.bind_eq_ok] at e
    cases e : AnyBase.blockWith ptr cfg m tl d with
    | ok b => exact absurd e (nok b)
    | panic => rfl
    | ub => exact absurd e nub
  · let w : BaseMatrix := ⟨window p, m.layout, .dynamic, .dynamic⟩
    have hw : Sound w mem := sound_of_contiguous hc hok (by show count m.layout ≤ (window p).len; omega)
    have hv : View w mem := view_of_contiguous hw hm hc
    obtain ⟨b, e, hvb, -, hl, hd, -, -⟩ := hv.block cfg hf h1 h2
    have hdim : b.layout.dim = d := by rw [hl]; exact blockLayout_dim _ _
    have hshow : ShowsAt b w tl.1 tl.2 :=
      block_shows (m := w) hm (contiguous_tight hm hc) hl (by rw [hd]) (by rw [hd])
    refine .inr ⟨b, by rw [hb p hoff hp]; exact e, hvb.sound, hdim, fun mem' i j hi hj => ?_⟩
    have sb : Stored b.layout i j :=
      (stored_of_notTri hvb.major.notTri).2 ⟨by rw [hdim]; exact hi, by rw [hdim]; exact hj⟩
    have sw : Stored m.layout (tl.1 + i) (tl.2 + j) :=
      (stored_of_notTri hm.notTri).2 ⟨by have := hf.1; omega, by have := hf.2; omega⟩
    have eb : b.get cfg mem' i j = mem'.read (cell b i j) := by
      simp only [BaseMatrix.get, BaseMatrix.get_unchecked, assert_dimension,
        Out.assert_pos sb.1, Out.assert_pos sb.2.1, Out.bind_ok,
        convert_2d_raw_ok cfg sb (hvb.sound.raw_lt sb) hvb.sound.triFits, Container.get_unchecked,
        if_pos (hvb.sound.inside i j sb)]
      rfl
    have hraw : raw m.layout (tl.1 + i) (tl.2 + j) < n :=
      lt_of_lt_of_le (by rw [raw_eq_index hc]; exact index_lt sw) hn
    have ed : (crateLayouts cfg).dim = fun l => .ok l.dim := rfl
    have ec : (crateLayouts cfg).convert_2d_raw = fun l => l.convert_2d_raw cfg := rfl
    rw [eb, hshow i j sb.1 sb.2.1]
    simp only [AnyMat.get, AnyMat.layout, AnyMat.get_unchecked, AnyBase.get_unchecked, ed, ec,
      Out.bind_ok, assert_dimension, Out.assert_pos sw.1, Out.assert_pos sw.2.1,
      convert_2d_raw_ok cfg sw (hw.raw_lt sw) hw.triFits, hread _ hraw]
    rfl

/-- **C75, partial**: blocks over other containers. If the pointer of the container shows its
elements, a nonempty block that fits in a contiguous matrix over it is defined, in both build
modes, and has as element `(i, j)`, whatever the contents of memory, what `get` gives for the
matrix at `(tl.1 + i, tl.2 + j)`; so writing through one is seen through the other. Missing:
containers whose pointer leads elsewhere (`C75_false_views`). -/
theorem C75_views_partial [Target] [Add α] [Mul α] (I : DataImpl α D) (J : MatrixImpl α Layout X) (cfg : Cfg)
    (m : AnyBase Layout D) (mem : Mem α) (n : Nat)
    (hm : IsMajor m.layout) (hc : Contiguous m.layout) (hn : count m.layout ≤ n) (tl d : Nat × Nat)
    (hf : Fits m.layout tl d) (h1 : 1 ≤ d.1) (h2 : 1 ≤ d.2) :
    (Shows I I.get_pointer m.data mem n → Gives (AnyBase.block I cfg m tl d) fun b =>
      Sound b mem ∧ b.layout.dim = d ∧
      ∀ (mem' : Mem α) (i j : Nat), i < d.1 → j < d.2 → b.get cfg mem' i j =
        (AnyMat.base m : AnyMat α Layout D X).get ⟨crateLayouts cfg, I, J⟩ mem' (tl.1 + i)
          (tl.2 + j)) ∧
    (Shows I I.get_pointer_mut m.data mem n → Gives (AnyBase.block_mut I cfg m tl d) fun b =>
      Sound b mem ∧ b.layout.dim = d ∧
      ∀ (mem' : Mem α) (i j : Nat), i < d.1 → j < d.2 → b.get cfg mem' i j =
        (AnyMat.base m : AnyMat α Layout D X).get ⟨crateLayouts cfg, I, J⟩ mem' (tl.1 + i)
          (tl.2 + j)) :=
  ⟨fun hs => blockWith_shows I J _ cfg m mem n hs hm hc hn tl d hf h1 h2
      fun p hp e => (C75_views_agreement I cfg m p hp tl d).1 e,
    fun hs => blockWith_shows I J _ cfg m mem n hs hm hc hn tl d hf h1 h2
      fun p hp e => (C75_views_agreement I cfg m p hp tl d).2.1 e⟩

/-! ## A program with a layout and a container of its own -/

/-- Vectors of length `n` stored backwards, as `1 × n` matrices. The stride `-1` is the `usize`
that `as isize` turns into `-1`. -/
def reversed [Target] : LayoutImpl Nat where
  stride _ := .ok (0, W - 1)
  dim n := .ok (1, n)
  number_of_elements n := .ok n
  convert_1d_2d _ i := .ok (0, i)
  convert_2d_1d _ _ c := .ok c
  convert_1d_raw n i := .ok (n - 1 - i)
  convert_2d_raw n _ c := .ok (n - 1 - c)
  index_layout n := .ok n
  from_dimension _ d := .ok d.2

/-- A container behind a header of one cell, whose pointer is to its last element. -/
def lastOf : DataImpl Int Container where
  get_unchecked d mem k := d.get_unchecked mem (k + 1)
  get_unchecked_mut d k := d.get_unchecked_mut (k + 1)
  get_pointer d := .ok ⟨d, d.len - 1⟩
  get_pointer_mut d := .ok ⟨d, d.len - 1⟩
  number_of_elements d := .ok (d.len - 1)

/-- The two together. -/
def reversedImpls [Target] : Impls Int Nat Container Empty := ⟨reversed, lastOf, ⟨nofun, nofun, nofun⟩⟩

/-- A header and three elements; a 3 × 1 matrix; a 1 × 1 matrix -/
def reversedMem : Mem Int := ⟨[[-1, 30, 20, 10], [1, 2, 3], [100]]⟩

theorem reversed_exposes [Target] : Exposes reversedImpls reversedImpls.dat.get_pointer ⟨⟨0, 0, 4⟩, 3⟩
    reversedMem (1, 3) (fun _ c => ⟨0, 3 - c⟩) := by
  have hW : asIsize (W - 1) = -1 := by decide_width
  refine ⟨.inr ⟨_, rfl, rfl⟩, .inr ⟨_, rfl, .inr ⟨_, rfl, ?_⟩⟩, ?_, ?_⟩
  · intro i j hi hj
    simp only at hi hj
    have h0 : asIsize 0 = 0 := by decide_width
    refine ⟨3 - j, ?_, by simp only; omega, by simp⟩
    simp only [hW, h0]
    omega
  · intro i j hi hj
    simp only at hi hj
    obtain rfl | rfl | rfl : j = 0 ∨ j = 1 ∨ j = 2 := by omega
    all_goals decide
  · intro i j hi hj
    simp only at hi hj
    refine .inr ⟨3 - 1 - j, rfl, fun mem' => ?_⟩
    show (⟨0, 0, 4⟩ : Container).get_unchecked mem' (3 - 1 - j + 1) = _
    simp only [Container.get_unchecked]
    rw [if_pos (by omega)]
    congr 2
    omega

/-- A product with negative strides: `10 * 1 + 20 * 2 + 30 * 3`, added to 100. -/
example : AnyBase.matmul reversedImpls (crateImpls dbg Int) (crateImpls dbg Int) exactKern 1
      ⟨⟨0, 0, 4⟩, 3⟩ ⟨⟨1, 0, 3⟩, .rowMajor ⟨(3, 1)⟩⟩ 1 ⟨⟨2, 0, 1⟩, .rowMajor ⟨(1, 1)⟩⟩ reversedMem =
      .ok ⟨[[-1, 30, 20, 10], [1, 2, 3], [10 * 1 + 20 * 2 + 30 * 3 + 100]]⟩ ∧
    (AnyMat.base ⟨⟨0, 0, 4⟩, 3⟩ : AnyMat Int Nat Container Empty).get reversedImpls reversedMem 0 1
      = .ok 20 ∧
    AnyBase.dot reversedImpls (crateImpls dbg Int) dbg exactKern .matMat ⟨⟨0, 0, 4⟩, 3⟩
      ⟨⟨1, 0, 3⟩, .rowMajor ⟨(3, 1)⟩⟩ reversedMem =
      .ok (⟨⟨3, 0, 1⟩, .rowMajor ⟨(1, 1)⟩, .dynamic, .dynamic⟩,
        ⟨[[-1, 30, 20, 10], [1, 2, 3], [100], [140]]⟩) := by
  refine ⟨by decide +kernel, by decide +kernel, by decide +kernel⟩

/-- The hypotheses of `C75_product_partial` for that product. -/
example : ∃ pb pc, Exposes (crateImpls dbg Int) (crateImpls dbg Int).dat.get_pointer
      ⟨⟨1, 0, 3⟩, .rowMajor ⟨(3, 1)⟩⟩ reversedMem (3, 1) pb ∧
    Exposes (crateImpls dbg Int) (crateImpls dbg Int).dat.get_pointer_mut
      ⟨⟨2, 0, 1⟩, .rowMajor ⟨(1, 1)⟩⟩ reversedMem (1, 1) pc ∧
    Distinct (1, 1) pc ∧ Apart (1, 1) pc (1, 3) (fun _ c => ⟨0, 3 - c⟩) ∧ Apart (1, 1) pc (3, 1) pb :=
  ⟨_, _, (C75_crate_products dbg reversedMem ⟨⟨1, 0, 3⟩, .rowMajor ⟨(3, 1)⟩, .dynamic, .dynamic⟩
      (sound_of_contiguous trivial ⟨by decide, by decide⟩ (by decide)) trivial).1,
    (C75_crate_products dbg reversedMem ⟨⟨2, 0, 1⟩, .rowMajor ⟨(1, 1)⟩, .dynamic, .dynamic⟩
      (sound_of_contiguous trivial ⟨by decide, by decide⟩ (by decide)) trivial).2,
    fun i j i' j' hi hj hi' hj' _ => by simp only at hi hj hi' hj'; omega,
    fun i j i' j' _ _ _ _ e => by simp [cell] at e,
    fun i j i' j' _ _ _ _ e => by simp [cell] at e⟩

/-- A container behind a header of one cell. -/
def behindHeader : DataImpl Int Container where
  get_unchecked d mem k := d.get_unchecked mem (k + 1)
  get_unchecked_mut d k := d.get_unchecked_mut (k + 1)
  get_pointer d := .ok ⟨d, 1⟩
  get_pointer_mut d := .ok ⟨d, 1⟩
  number_of_elements d := .ok (d.len - 1)

/-- A header and a 2 × 3 matrix -/
def headerMem : Mem Int := ⟨[[-1, 1, 2, 3, 4, 5, 6]]⟩

example : Shows behindHeader behindHeader.get_pointer ⟨0, 0, 7⟩ headerMem 6 ∧
    AnyBase.block behindHeader dbg ⟨⟨0, 0, 7⟩, .rowMajor ⟨(2, 3)⟩⟩ (0, 1) (2, 2) =
      .ok ⟨⟨0, 2, 5⟩, .asRowMajor ⟨(2, 2), (3, 1)⟩, .dynamic, .dynamic⟩ ∧
    (⟨⟨0, 2, 5⟩, .asRowMajor ⟨(2, 2), (3, 1)⟩, .dynamic, .dynamic⟩ : BaseMatrix).get dbg headerMem
      1 1 = .ok 6 ∧
    (AnyBase.split_in_four_mut behindHeader dbg ⟨⟨0, 0, 7⟩, .rowMajor ⟨(2, 3)⟩⟩ (1, 1)) =
      (⟨⟨0, 1, 6⟩, .rowMajor ⟨(2, 3)⟩, .dynamic, .dynamic⟩ : BaseMatrix).split_in_four_mut dbg
        (1, 1) := by
  refine ⟨⟨.inr ⟨_, rfl, rfl⟩, .inr ⟨_, rfl, by decide, ⟨by decide, by decide⟩, by decide, ?_⟩⟩,
    by decide +kernel, by decide +kernel, by decide +kernel⟩
  intro k hk mem'
  show (⟨0, 0, 7⟩ : Container).get_unchecked mem' (k + 1) = _
  simp only [Container.get_unchecked]
  rw [if_pos (by omega)]
  congr 2
  simp only [window]; omega

end Householder.Props
