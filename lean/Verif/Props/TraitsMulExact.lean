import Verif.Spec.TraitsMulExact
import Verif.Props.TraitsExact
import Verif.Props.TraitsMul

/-!
# Exactly when products and views over the open traits are undefined (C75)
-/

namespace Householder.Props

open Spec

variable {α V D X V₁ D₁ X₁ V₂ D₂ X₂ V₃ D₃ X₃ : Type}

/-- The pointer leads into memory that exists. -/
def Grounded (o : Out Ptr) (mem : Mem α) : Prop :=
  ∀ p, o = .ok p → p.prov.off + p.prov.len ≤ mem.size p.prov.buf

theorem leads_iff [Target] (p : Ptr) (s : Nat × Nat) {d : Nat × Nat} :
    (∃ P, Leads p s d P) ↔ gemmAllValid d.1 d.2 p (asIsize s.1) (asIsize s.2) := by
  constructor
  · rintro ⟨P, h⟩ i hi j hj
    exact (leads_addr h hi hj).1
  · intro h
    refine ⟨gemmLoc p (asIsize s.1) (asIsize s.2), fun i j hi hj => ?_⟩
    obtain ⟨h1, h2⟩ := h i hi j hj
    refine ⟨(gemmAddr p (asIsize s.1) (asIsize s.2) i j).toNat, ?_, by omega, rfl⟩
    rw [Int.toNat_of_nonneg h1]
    rfl

theorem leads_self [Target] {p : Ptr} {s d : Nat × Nat}
    (h : gemmAllValid d.1 d.2 p (asIsize s.1) (asIsize s.2)) :
    Leads p s d (gemmLoc p (asIsize s.1) (asIsize s.2)) := by
  intro i j hi hj
  obtain ⟨h1, h2⟩ := h i hi j hj
  refine ⟨(gemmAddr p (asIsize s.1) (asIsize s.2) i j).toNat, ?_, by omega, rfl⟩
  rw [Int.toNat_of_nonneg h1]
  rfl

theorem kernelFits_iff [Target] {da db dc : Nat × Nat} (sa sb sc : Nat × Nat) (pa pb pc : Ptr)
    (h : da.2 = db.1 ∧ dc.1 = da.1 ∧ dc.2 = db.2) :
    KernelFits da db dc sa sb sc pa pb pc ↔
    gemmPre da.1 da.2 db.2 pa (asIsize sa.1) (asIsize sa.2) pb (asIsize sb.1) (asIsize sb.2)
      pc (asIsize sc.1) (asIsize sc.2) := by
  obtain ⟨k1, k2, k3⟩ := h
  constructor
  · rintro ⟨A, B, C, la, lb, lc, hd, hca, hcb⟩
    refine ⟨fun i hi j hj => (leads_addr la hi hj).1,
      fun i hi j hj => (leads_addr lb (by omega) hj).1,
      fun i hi j hj => (leads_addr lc (by omega) (by omega)).1, ?_, ?_, ?_⟩
    · intro i hi j hj i' hi' j' hj' e
      rw [(leads_addr lc (by omega) (by omega)).2, (leads_addr lc (by omega) (by omega)).2] at e
      exact hd i j i' j' (by omega) (by omega) (by omega) (by omega) e
    · intro i hi j hj i' hi' j' hj' e
      rw [(leads_addr lc (by omega) (by omega)).2, (leads_addr la hi' hj').2] at e
      exact hca i j i' j' (by omega) (by omega) hi' hj' e
    · intro i hi j hj i' hi' j' hj' e
      rw [(leads_addr lc (by omega) (by omega)).2, (leads_addr lb (by omega) hj').2] at e
      exact hcb i j i' j' (by omega) (by omega) (by omega) hj' e
  · rintro ⟨va, vb, vc, h1, h2, h3⟩
    refine ⟨_, _, _, leads_self va, leads_self (by rw [← k1]; exact vb),
      leads_self (by rw [k2, k3]; exact vc), ?_, ?_, ?_⟩
    · intro i j i' j' hi hj hi' hj' e
      exact h1 i (by omega) j (by omega) i' (by omega) j' (by omega) e
    · intro i j i' j' hi hj hi' hj' e
      exact h2 i (by omega) j (by omega) i' (by omega) j' (by omega) e
    · intro i j i' j' hi hj hi' hj' e
      exact h3 i (by omega) j (by omega) i' (by omega) j' (by omega) e

theorem gemm_ub_iff {kern : Kern α} {m k n : Nat} {alpha beta : α} {a b c : Ptr}
    {rsa csa rsb csb rsc csc : Int} {mem : Mem α}
    (ha : a.prov.off + a.prov.len ≤ mem.size a.prov.buf)
    (hb : b.prov.off + b.prov.len ≤ mem.size b.prov.buf)
    (hc : c.prov.off + c.prov.len ≤ mem.size c.prov.buf) :
    gemm kern m k n alpha a rsa csa b rsb csb beta c rsc csc mem = .ub ↔
      ¬ gemmPre m k n a rsa csa b rsb csb c rsc csc := by
  constructor
  · intro h hp
    have val : ∀ (p : Ptr) (rs cs : Int) (i j : Nat), p.prov.off + p.prov.len ≤ mem.size p.prov.buf →
        gemmValid p rs cs i j → mem.get? (gemmLoc p rs cs i j) =
          some ((mem.get? (gemmLoc p rs cs i j)).getD alpha) := by
      intro p rs cs i j hin hv
      obtain ⟨v, hv⟩ := Mem.get?_isSome_iff (mem := mem) (p := gemmLoc p rs cs i j) |>.2 (by
        unfold gemmValid at hv
        unfold gemmLoc
        simp only
        omega)
      simp [hv]
    obtain ⟨mem', e, -⟩ := gemm_ok (kern := kern) (alpha := alpha) (beta := beta) (mem := mem) hp
      (A := fun i j => (mem.get? (gemmLoc a rsa csa i j)).getD alpha)
      (B := fun i j => (mem.get? (gemmLoc b rsb csb i j)).getD alpha)
      (C := fun i j => (mem.get? (gemmLoc c rsc csc i j)).getD alpha)
      (fun i l hi hl => val a _ _ i l ha (hp.1 i hi l hl))
      (fun i l hi hl => val b _ _ i l hb (hp.2.1 i hi l hl))
      (fun i l hi hl => val c _ _ i l hc (hp.2.2.1 i hi l hl))
    rw [h] at e
    cases e
  · intro h
    unfold gemm
    rw [if_neg h]

/-- **C75, exactly**: products of matrices with any implementations whose pointers lead into memory.
`matmul` is undefined exactly if what they answer makes it so: an answer is undefined, or all are
given, the dimensions are compatible, and the strides lead from the pointers outside what these may
access, or to the same place twice, or from the result to an operand. -/
theorem C75_exact_product [Target] (I₁ : Impls α V₁ D₁ X₁) (I₂ : Impls α V₂ D₂ X₂)
    (I₃ : Impls α V₃ D₃ X₃) (kern : Kern α) (alpha beta : α) (a : AnyBase V₁ D₁) (b : AnyBase V₂ D₂)
    (c : AnyBase V₃ D₃) (mem : Mem α) (ha : Grounded (I₁.dat.get_pointer a.data) mem)
    (hb : Grounded (I₂.dat.get_pointer b.data) mem)
    (hc : Grounded (I₃.dat.get_pointer_mut c.data) mem) :
    AnyBase.matmul I₁ I₂ I₃ kern alpha a b beta c mem = .ub ↔
      ProductFaulty (I₁.lay.dim a.layout) (I₂.lay.dim b.layout) (I₃.lay.dim c.layout)
        (I₁.lay.stride a.layout) (I₂.lay.stride b.layout) (I₃.lay.stride c.layout)
        (I₁.dat.get_pointer a.data) (I₂.dat.get_pointer b.data) (I₃.dat.get_pointer_mut c.data) := by
  unfold AnyBase.matmul ProductFaulty
  generalize I₁.dat.get_pointer a.data = pa at *
  generalize I₂.dat.get_pointer b.data = pb at *
  generalize I₃.dat.get_pointer_mut c.data = pc at *
  generalize I₁.lay.stride a.layout = sa
  generalize I₂.lay.stride b.layout = sb
  generalize I₃.lay.stride c.layout = sc
  cases I₁.lay.dim a.layout with
  | ub => simp [faulty_cons, said]
  | panic => simp [faulty_cons, said]
  | ok x =>
  cases I₂.lay.dim b.layout with
  | ub => simp [faulty_cons, said]
  | panic => simp [faulty_cons, said]
  | ok y =>
  cases I₃.lay.dim c.layout with
  | ub => simp [faulty_cons, said]
  | panic => simp [faulty_cons, said]
  | ok z =>
  simp only [Out.bind_ok, Out.ok.injEq, exists_and_left, exists_eq_left', said, faulty_cons, faulty_nil,
    reduceCtorEq, and_false, or_false, false_or]
  by_cases hd : x.2 = y.1 ∧ z.1 = x.1 ∧ z.2 = y.2
  swap
  · rw [Out.assert_neg hd]; simp [hd]
  rw [Out.assert_pos hd, Out.bind_ok]
  cases sa with
  | ub => simp [hd]
  | panic => simp
  | ok u =>
  cases sb with
  | ub => simp [hd]
  | panic => simp
  | ok v =>
  cases sc with
  | ub => simp [hd]
  | panic => simp
  | ok w =>
  cases pa with
  | ub => simp [hd]
  | panic => simp
  | ok p =>
  cases pb with
  | ub => simp [hd]
  | panic => simp
  | ok q =>
  cases pc with
  | ub => simp [hd]
  | panic => simp
  | ok r =>
  simp only [Out.bind_ok]
  rw [gemm_ub_iff (ha p rfl) (hb q rfl) (hc r rfl), ← kernelFits_iff u v w p q r hd]
  simp [hd]

theorem Grounded.append {o : Out Ptr} {mem : Mem α} (h : Grounded o mem) (ys : List α) :
    Grounded o (⟨mem.bufs ++ [ys]⟩ : Mem α) :=
  fun p hp => Backed.append (d := p.prov) (h p hp) ys

theorem dot_made [Target] [Zero α] (cfg : Cfg) (i : DotImpl) (x y : Nat × Nat) (mem : Mem α) :
    (match i with
      | .matMat => zeros_from_dim cfg .rowMajor x.1 y.2 mem
      | .rowMat => RowVectorD.zeros_from_dim cfg x.1 y.2 mem
      | .matCol => ColumnVectorD.zeros_from_dim cfg x.1 y.2 mem) =
    match dotMade cfg i x y mem.bufs.length with
    | some m => .ok (m, ⟨mem.bufs ++ [List.replicate m.data.len 0]⟩)
    | none => .panic := by
  cases i with
  | matMat =>
    exact new_eq (cfg := cfg) (l := .rowMajor ⟨(x.1, y.2)⟩) (rs := .dynamic) (cs := .dynamic)
      (mem := mem)
  | rowMat =>
    unfold dotMade RowVectorD.zeros_from_dim
    by_cases h : x.1 = 1
    · simp only [Out.assert_pos h, if_pos h, Out.bind_ok]
      exact new_eq (cfg := cfg) (l := .rowVector ⟨y.2⟩) (rs := .fixed1) (cs := .dynamic) (mem := mem)
    · simp only [Out.assert_neg h, if_neg h]; rfl
  | matCol =>
    unfold dotMade ColumnVectorD.zeros_from_dim
    by_cases h : y.2 = 1
    · simp only [Out.assert_pos h, if_pos h, Out.bind_ok]
      exact new_eq (cfg := cfg) (l := .columnVector ⟨x.1⟩) (rs := .dynamic) (cs := .fixed1) (mem := mem)
    · simp only [Out.assert_neg h, if_neg h]; rfl

theorem dotMade_some [Target] {cfg : Cfg} {i : DotImpl} {x y : Nat × Nat} {n : Nat} {R : BaseMatrix}
    (h : dotMade cfg i x y n = some R) :
    R.data = ⟨n, 0, R.data.len⟩ ∧ R.layout.stride = .ok (claimed R.layout) := by
  have key : ∀ {l : Layout} {s : SizeId × SizeId}, brandNew cfg n l s = some R →
      l.stride = .ok (claimed l) →
      R.data = ⟨n, 0, R.data.len⟩ ∧ R.layout.stride = .ok (claimed R.layout) := by
    intro l s hb hl
    have e := (brandNew_some hb).2
    refine ⟨congrArg BaseMatrix.data e, ?_⟩
    rw [show R.layout = l from congrArg BaseMatrix.layout e]
    exact hl
  unfold dotMade at h
  cases i with
  | matMat => exact key h rfl
  | rowMat =>
    simp only at h
    split at h
    · exact key h rfl
    · cases h
  | matCol =>
    simp only at h
    split at h
    · exact key h rfl
    · cases h

/-- **C75, exactly**: `dot`. It is undefined exactly if an answer about the dimensions is, or the
result is made (there is room for it, and it is a vector if it has to be) and the product into it is
undefined. -/
theorem C75_exact_dot [Target] [Zero α] [One α] (I₁ : Impls α V₁ D₁ X₁) (I₂ : Impls α V₂ D₂ X₂)
    (cfg : Cfg) (kern : Kern α) (i : DotImpl) (a : AnyBase V₁ D₁) (b : AnyBase V₂ D₂) (mem : Mem α)
    (ha : Grounded (I₁.dat.get_pointer a.data) mem) (hb : Grounded (I₂.dat.get_pointer b.data) mem) :
    AnyBase.dot I₁ I₂ cfg kern i a b mem = .ub ↔
      Faulty [said (I₁.lay.dim a.layout), said (I₂.lay.dim b.layout)] ∨
      ∃ x y R, I₁.lay.dim a.layout = .ok x ∧ I₂.lay.dim b.layout = .ok y ∧
        dotMade cfg i x y mem.bufs.length = some R ∧
        ProductFaulty (.ok x) (.ok y) (.ok R.layout.dim) (I₁.lay.stride a.layout)
          (I₂.lay.stride b.layout) (.ok (claimed R.layout)) (I₁.dat.get_pointer a.data)
          (I₂.dat.get_pointer b.data) (.ok ⟨R.data, 0⟩) := by
  cases hx : I₁.lay.dim a.layout with
  | ub => simp [AnyBase.dot, hx, faulty_cons, said]
  | panic => simp [AnyBase.dot, hx, faulty_cons, said]
  | ok x =>
  cases hy : I₂.lay.dim b.layout with
  | ub => simp [AnyBase.dot, hx, hy, faulty_cons, said]
  | panic => simp [AnyBase.dot, hx, hy, faulty_cons, said]
  | ok y =>
  have e : AnyBase.dot I₁ I₂ cfg kern i a b mem = (match i with
      | .matMat => zeros_from_dim cfg .rowMajor x.1 y.2 mem
      | .rowMat => RowVectorD.zeros_from_dim cfg x.1 y.2 mem
      | .matCol => ColumnVectorD.zeros_from_dim cfg x.1 y.2 mem) >>= fun z =>
        AnyBase.matmul I₁ I₂ (crateImpls cfg α) kern 1 a b 0 ⟨z.1.data, z.1.layout⟩ z.2 >>=
          fun mem2 => .ok (z.1, mem2) := by
    unfold AnyBase.dot
    rw [hx, hy]
    cases i <;> rfl
  rw [e, dot_made]
  cases hR : dotMade cfg i x y mem.bufs.length with
  | none => simp [faulty_cons, faulty_nil, said, hR]
  | some R =>
    obtain ⟨h1, h2⟩ := dotMade_some hR
    have hg : Grounded ((crateImpls cfg α).dat.get_pointer_mut R.data)
        (⟨mem.bufs ++ [List.replicate R.data.len 0]⟩ : Mem α) := by
      intro p hp
      obtain rfl : (⟨R.data, 0⟩ : Ptr) = p := by
        simpa [crateImpls, crateContainers, Container.get_pointer] using hp
      rw [show (⟨R.data, 0⟩ : Ptr).prov = ⟨mem.bufs.length, 0, R.data.len⟩ from h1]
      simp [Mem.size]
    have hm := C75_exact_product I₁ I₂ (crateImpls cfg α) kern 1 0 a b ⟨R.data, R.layout⟩ _
      (ha.append (List.replicate R.data.len 0)) (hb.append _) hg
    rw [hx, hy] at hm
    simp only [Out.bind_eq_ub, faulty_cons, faulty_nil, said, Out.bind_ok]
    rw [hm]
    simp only [crateImpls, crateLayouts, crateContainers, Container.get_pointer, h2]
    simp [hR]

theorem ptr_add (p : Ptr) (k : Nat) : p.add k =
    if 0 ≤ (p.off + k : Int) ∧ (p.off + k : Int) ≤ p.prov.len
      then .ok ⟨p.prov, (p.off + k : Int).toNat⟩ else .ub := by
  unfold Ptr.add
  by_cases h : p.off + k ≤ p.prov.len
  · rw [if_pos h, if_pos (by omega)]
    congr 2
  · rw [if_neg h, if_neg (by omega)]

/-- **C75, exactly**: blocks and mutable blocks of a matrix with a row-major or column-major layout of
the crate, over any container. They are undefined exactly if the corner is inside the dimensions and
the pointer that the container hands out is undefined or does not lead to all cells of the block. -/
theorem C75_exact_block [Target] (I : DataImpl α D) (cfg : Cfg) (m : AnyBase Layout D)
    (tl dim : Nat × Nat) (hm : IsMajor m.layout) :
    (AnyBase.block I cfg m tl dim = .ub ↔
      BlockFaulty cfg m.layout (I.get_pointer m.data) tl dim) ∧
    (AnyBase.block_mut I cfg m tl dim = .ub ↔
      BlockFaulty cfg m.layout (I.get_pointer_mut m.data) tl dim) := by
  obtain ⟨l', h1, h2, h3⟩ : ∃ l', layoutOfBlock m.layout dim = some l' ∧
      m.layout.stride = .ok (claimed m.layout) ∧
      BaseMatrix.strideLayout m.layout dim (claimed m.layout) = some l' := by
    generalize m.layout = l at hm
    cases l <;> first | exact ⟨_, rfl, rfl, rfl⟩ | exact hm.elim
  have key : ∀ g : D → Out Ptr,
      (AnyBase.blockWith g cfg m tl dim = .ub ↔ BlockFaulty cfg m.layout (g m.data) tl dim) := by
    intro g
    unfold AnyBase.blockWith BlockFaulty
    simp only [h1, h2, Option.some.injEq]
    cases ha : cfg.add tl.1 dim.1 with
    | ub => exact absurd ha (Cfg.add_ne_ub _ _ _)
    | panic => simp
    | ok x =>
    cases hb : cfg.add tl.2 dim.2 with
    | ub => exact absurd hb (Cfg.add_ne_ub _ _ _)
    | panic => simp
    | ok y =>
    simp only [Out.bind_ok]
    by_cases hc : x ≤ m.layout.dim.1 ∧ y ≤ m.layout.dim.2
    swap
    · rw [Out.assert_neg hc]
      simp only [Out.bind_panic, reduceCtorEq, false_iff]
      rintro ⟨a, b, k, l, e1, e2, e3, e4, -⟩
      cases e1; cases e2
      exact hc ⟨e3, e4⟩
    rw [Out.assert_pos hc, Out.bind_ok]
    cases hk : m.layout.convert_2d_raw cfg tl.1 tl.2 with
    | ub => exact absurd hk (convert_2d_raw_ne_ub cfg _ _ _)
    | panic => simp
    | ok k =>
    simp only [Out.bind_ok, h3]
    cases hg : g m.data with
    | ub => simp [hc]
    | panic => simp
    | ok p =>
    simp only [Out.bind_ok]
    rw [(tracks_view (ptr_add p k)).ub]
    simp [hc]
  exact ⟨key _, key _⟩

/-- **C75, exactly**: splitting a row-major matrix of the crate over any container. -/
theorem C75_exact_split [Target] (I : DataImpl α D) (cfg : Cfg) (m : AnyBase Layout D) (s : Nat × Nat)
    (l : RowMajor) (hl : m.layout = .rowMajor l) :
    AnyBase.split_in_four_mut I cfg m s = .ub ↔
      I.get_pointer_mut m.data = .ub ∨ ∃ p, I.get_pointer_mut m.data = .ok p ∧
        LeavesContainer (splitReach cfg m.layout p s) := by
  have hst : m.layout.stride = .ok (claimed m.layout) := by rw [hl]; rfl
  cases hp : I.get_pointer_mut m.data with
  | ub => simp [AnyBase.split_in_four_mut, hl, hp, Layout.stride, RowMajor.stride]
  | panic => simp [AnyBase.split_in_four_mut, hl, hp, Layout.stride, RowMajor.stride]
  | ok p =>
  have hoff : ∀ i : Nat, p.offset (asIsize i) = if 0 ≤ p.off + asIsize i ∧
      p.off + asIsize i ≤ p.prov.len then .ok ⟨p.prov, (p.off + asIsize i).toNat⟩ else .ub :=
    fun i => rfl
  simp only [reduceCtorEq, Out.ok.injEq, exists_eq_left', false_or]
  change UbIf _ _
  unfold AnyBase.split_in_four_mut splitReach
  rw [hst]
  simp only [hl, Out.bind_ok, hp]
  simp only [← hl]
  cases h1 : cfg.sub m.layout.dim.2 s.2 with
  | ub => exact absurd h1 (Cfg.sub_ne_ub _ _ _)
  | panic => exact .panic
  | ok right =>
  cases h2 : cfg.sub m.layout.dim.1 s.1 with
  | ub => exact absurd h2 (Cfg.sub_ne_ub _ _ _)
  | panic => exact .panic
  | ok below =>
  simp only [Out.bind_ok]
  cases h3 : m.layout.convert_2d_raw cfg 0 0 with
  | ub => exact absurd h3 (convert_2d_raw_ne_ub cfg _ _ _)
  | panic => exact .panic
  | ok s0 =>
  cases h4 : m.layout.convert_2d_raw cfg 0 s.2 with
  | ub => exact absurd h4 (convert_2d_raw_ne_ub cfg _ _ _)
  | panic => exact .panic
  | ok s1 =>
  cases h5 : m.layout.convert_2d_raw cfg s.1 0 with
  | ub => exact absurd h5 (convert_2d_raw_ne_ub cfg _ _ _)
  | panic => exact .panic
  | ok s2 =>
  cases h6 : m.layout.convert_2d_raw cfg s.1 s.2 with
  | ub => exact absurd h6 (convert_2d_raw_ne_ub cfg _ _ _)
  | panic => exact .panic
  | ok s3 =>
  simp only [Out.bind_ok, Out.pure_eq, whenOk, List.map_cons, List.map_nil]
  have t := (tracks_view (cfg := cfg) (dim := s) (l := .asRowMajor ⟨s, claimed m.layout⟩)
    (hoff s0)).bind (f := fun b0 => (p.offset (asIsize s1) >>= fun q =>
      from_pointer_strided cfg q (s.1, right) (.asRowMajor ⟨(s.1, right), claimed m.layout⟩)) >>=
      fun b1 => (p.offset (asIsize s2) >>= fun q =>
      from_pointer_strided cfg q (below, s.2) (.asRowMajor ⟨(below, s.2), claimed m.layout⟩)) >>=
      fun b2 => (p.offset (asIsize s3) >>= fun q =>
      from_pointer_strided cfg q (below, right) (.asRowMajor ⟨(below, right), claimed m.layout⟩)) >>=
      fun b3 => .ok (b0, b1, b2, b3)) fun _ _ => (tracks_view (hoff s1)).bind fun _ _ =>
      (tracks_view (hoff s2)).bind fun _ _ => (tracks_view (hoff s3)).then_ok fun _ _ => ⟨_, rfl⟩
  simp only [Out.bind_assoc'] at t
  exact t.ub

/-! ## Examples -/

/-- The layout with strides (0, 100) and the product of `C75_false_product`: the strides of `a` lead
outside its container. With strides (0, 1) instead, the kernel gets what it asks for. -/
example [Target] : let a : AnyBase _ Container := ⟨⟨0, 0, 2⟩, ((1, 2), (0, 100))⟩
    let a' : AnyBase _ Container := ⟨⟨0, 0, 2⟩, ((1, 2), (0, 1))⟩
    let b : AnyBase _ Container := ⟨⟨1, 0, 2⟩, ((2, 1), (1, 1))⟩
    let c : AnyBase _ Container := ⟨⟨2, 0, 2⟩, ((1, 1), (1, 1))⟩
    ¬ KernelFits a.layout.1 b.layout.1 c.layout.1 a.layout.2 b.layout.2 c.layout.2
      ⟨a.data, 0⟩ ⟨b.data, 0⟩ ⟨c.data, 0⟩ ∧
    KernelFits a'.layout.1 b.layout.1 c.layout.1 a'.layout.2 b.layout.2 c.layout.2
      ⟨a'.data, 0⟩ ⟨b.data, 0⟩ ⟨c.data, 0⟩ ∧
    AnyBase.matmul steppedImpls steppedImpls steppedImpls exactKern 1 a' b 0 c productMem ≠ .ub := by
  have hd : ((1, 2) : Nat × Nat).2 = ((2, 1) : Nat × Nat).1 ∧ ((1, 1) : Nat × Nat).1 = 1 ∧
      ((1, 1) : Nat × Nat).2 = 1 := by decide
  have hg : ∀ d : Container, d.off + d.len ≤ productMem.size d.buf →
      Grounded (.ok ⟨d, 0⟩) productMem := by
    intro d hd p hp
    obtain rfl : (⟨d, 0⟩ : Ptr) = p := by simpa using hp
    exact hd
  refine ⟨?_, ?_, ?_⟩
  · rw [kernelFits_iff _ _ _ _ _ _ hd]
    decide_width_kernel
  · rw [kernelFits_iff _ _ _ _ _ _ hd]
    decide_width_kernel
  · rw [Ne, C75_exact_product steppedImpls steppedImpls steppedImpls exactKern 1 0
      ⟨⟨0, 0, 2⟩, ((1, 2), (0, 1))⟩ ⟨⟨1, 0, 2⟩, ((2, 1), (1, 1))⟩ ⟨⟨2, 0, 2⟩, ((1, 1), (1, 1))⟩ productMem
      (hg ⟨0, 0, 2⟩ (by decide)) (hg ⟨1, 0, 2⟩ (by decide)) (hg ⟨2, 0, 2⟩ (by decide))]
    rintro (h | ⟨x, y, z, e1, e2, e3, -, h | ⟨u, v, w, p, q, r, f1, f2, f3, f4, f5, f6, h⟩⟩)
    · simp [faulty_cons, faulty_nil, said, steppedImpls, steppedLayout] at h
    · simp [faulty_cons, faulty_nil, said, steppedImpls, steppedLayout, crateContainers] at h
    · cases e1; cases e2; cases e3; cases f1; cases f2; cases f3; cases f4; cases f5; cases f6
      refine h ?_
      rw [kernelFits_iff _ _ _ _ _ _ hd]
      decide_width_kernel

/-- `dot` of the same operands makes a 1 × 1 result and is undefined. -/
example [Target] : let a : AnyBase _ Container := ⟨⟨0, 0, 2⟩, ((1, 2), (0, 100))⟩
    let b : AnyBase _ Container := ⟨⟨1, 0, 2⟩, ((2, 1), (1, 1))⟩
    AnyBase.dot steppedImpls steppedImpls dbg exactKern .matMat a b productMem = .ub := by
  have hg : ∀ d : Container, d.off + d.len ≤ productMem.size d.buf →
      Grounded (.ok ⟨d, 0⟩) productMem := by
    intro d hd p hp
    obtain rfl : (⟨d, 0⟩ : Ptr) = p := by simpa using hp
    exact hd
  refine (C75_exact_dot steppedImpls steppedImpls dbg exactKern .matMat
    ⟨⟨0, 0, 2⟩, ((1, 2), (0, 100))⟩ ⟨⟨1, 0, 2⟩, ((2, 1), (1, 1))⟩ productMem
    (hg ⟨0, 0, 2⟩ (by decide)) (hg ⟨1, 0, 2⟩ (by decide))).2 (.inr ⟨(1, 2), (2, 1),
      ⟨⟨3, 0, 1⟩, .rowMajor ⟨(1, 1)⟩, .dynamic, .dynamic⟩, rfl, rfl, by rfl_width, .inr ⟨(1, 2), (2, 1),
      (1, 1), rfl, rfl, rfl, by decide, .inr ⟨(0, 100), (1, 1), (1, 1), ⟨⟨0, 0, 2⟩, 0⟩, ⟨⟨1, 0, 2⟩, 0⟩,
      ⟨⟨3, 0, 1⟩, 0⟩, rfl, rfl, rfl, rfl, rfl, rfl, ?_⟩⟩⟩)
  rw [kernelFits_iff _ _ _ _ _ _ (by decide)]
  decide_width_kernel

/-- Blocks and splits of the container that says it has ten elements: a 1 × 1 block in the corner is
defined, a 2 × 2 block is not, and neither is a split. -/
example [Target] : let m : AnyBase Layout Unit := ⟨(), .rowMajor ⟨(2, 5)⟩⟩
    ¬ BlockFaulty dbg m.layout (boastful.get_pointer ()) (0, 0) (1, 1) ∧
    BlockFaulty dbg m.layout (boastful.get_pointer ()) (0, 0) (2, 2) ∧
    ∃ p, boastful.get_pointer_mut () = .ok p ∧ LeavesContainer (splitReach dbg m.layout p (1, 1)) := by
  intro m
  refine ⟨?_, ?_, ?_⟩
  · rw [← (C75_exact_block boastful dbg m (0, 0) (1, 1) trivial).1]
    decide_width_kernel
  · rw [← (C75_exact_block boastful dbg m (0, 0) (2, 2) trivial).1]
    decide_width_kernel
  · rcases (C75_exact_split boastful dbg m (1, 1) _ rfl).1 (by decide_width_kernel) with h | h
    · cases h
    · exact h

end Householder.Props
