import Verif.Props.Stateful

/-!
# Property C86: `dot` and `split_in_four_mut` over implementations that change
-/

namespace Householder.Props

open Spec

variable {S α V D X V₁ D₁ X₁ V₂ D₂ X₂ : Type}

/-- A sound matrix of the crate that reports the strides it has exposes its elements at every
moment. -/
theorem crate_exposes_always [Target] (cfg : Cfg) (Inv : S → Prop) {mem : Mem α} {b : BaseMatrix}
    (h : Sound b mem) (ho : Honest b.layout) :
    ExposesAlways ((crateImpls cfg α).still S) Inv ((crateImpls cfg α).still S).dat.get_pointer_mut
      ⟨b.data, b.layout⟩ mem b.layout.dim (claimed b.layout) (cell b) := by
  have h' := (C75_crate_products cfg mem b h ho).2
  have str : b.layout.stride = .ok (claimed b.layout) := stride_claimed ho.notTri
  refine ⟨always_act (.inr ⟨_, rfl, rfl⟩), always_act (.inr ⟨_, str, rfl⟩), always_act ?_, h'.exist⟩
  have hs : Gives b.layout.stride fun st => Gives (Out.ok b.data.get_pointer) fun p =>
    Leads p st b.layout.dim (cell b) := h'.strides
  rw [str] at hs
  exact hs.of_ok rfl

theorem exposesAlways_extends [Target] {A : Acts S α V D X} {Inv : S → Prop} {ptr : D → Act S Ptr}
    {b : AnyBase V D} {mem mem' : Mem α} {d st : Nat × Nat} {place : Nat → Nat → Loc}
    (h : ExposesAlways A Inv ptr b mem d st place) (hx : Extends mem mem') :
    ExposesAlways A Inv ptr b mem' d st place ∧
      ∀ i j, i < d.1 → j < d.2 → (place i j).buf < mem.bufs.length := by
  have lt : ∀ i j, i < d.1 → j < d.2 → (place i j).buf < mem.bufs.length := by
    intro i j hi hj
    obtain ⟨v, hv⟩ := Option.isSome_iff_exists.1 (h.exist i j hi hj)
    exact Mem.buf_lt_of_get hv
  exact ⟨⟨h.dim, h.strides, h.pointer, fun i j hi hj => by
    rw [hx.2 _ (lt i j hi hj)]; exact h.exist i j hi hj⟩, lt⟩

/-- **C86, partial**: `dot` of operands that change but expose their elements at every moment is
defined, with overflow checks or when the size of the result is a `usize`; the result is new and has
the right dimension and elements, and memory that existed before is unchanged. Missing: operands
that do not expose their elements at every moment, and sizes that wrap (as in `C75_dot_wraps`). -/
theorem C86_dot_partial [Target] [Zero α] [One α] (A₁ : Acts S α V₁ D₁ X₁) (A₂ : Acts S α V₂ D₂ X₂)
    (Inv : S → Prop) (cfg : Cfg) (kern : Kern α) (i : DotImpl) (a : AnyBase V₁ D₁)
    (b : AnyBase V₂ D₂) (mem : Mem α) (da db sa sb : Nat × Nat) (pa pb : Nat → Nat → Loc)
    (ha : ExposesAlways A₁ Inv A₁.dat.get_pointer a mem da sa pa)
    (hb : ExposesAlways A₂ Inv A₂.dat.get_pointer b mem db sb pb)
    (hcfg : cfg.overflowChecks = true ∨ da.1 * db.2 < W) :
    Always Inv (A₁.dot A₂ cfg kern i a b mem) fun x =>
      da.2 = db.1 ∧ x.1.layout.dim = (da.1, db.2) ∧ Sound x.1 x.2 ∧ Fresh x.1 mem ∧
      Extends mem x.2 ∧
      ∀ A B : Nat → Nat → α,
        (∀ r l, r < da.1 → l < da.2 → mem.get? (pa r l) = some (A r l)) →
        (∀ l c, l < db.1 → c < db.2 → mem.get? (pb l c) = some (B l c)) →
        ∀ r c, r < da.1 → c < db.2 →
          x.1.get cfg x.2 r c = .ok (kern ⟨da.1, db.2, r, c⟩ 1
            ((List.range da.2).map fun l => (A r l, B l c)) 0 0) := by
  refine always_bind ha.dim fun d1 e1 => always_bind hb.dim fun d2 e2 => ?_
  subst e1 e2
  have hz := dotZeros_sized cfg i d1.1 d2.2 mem hcfg
  have hz' : Gives (match i with
    | .matMat => zeros_from_dim cfg .rowMajor d1.1 d2.2 mem
    | .rowMat => RowVectorD.zeros_from_dim cfg d1.1 d2.2 mem
    | .matCol => ColumnVectorD.zeros_from_dim cfg d1.1 d2.2 mem) fun x =>
      x.1.layout = productLayout i d1.1 d2.2 ∧ x.1.layout.dim = (d1.1, d2.2) ∧
        ZeroMatrix x.1 mem x.2 := by
    cases i <;> exact hz
  refine always_bind (always_act hz') fun x hx => ?_
  obtain ⟨m, mem1⟩ := x
  obtain ⟨hl, hdim, hz⟩ := hx
  simp only at hl hdim hz ⊢
  obtain ⟨p1, p2, p3⟩ := productLayout_props i d1.1 d2.2
  rw [← hl] at p1 p2 p3
  obtain ⟨ha', la⟩ := exposesAlways_extends ha hz.ext
  obtain ⟨hb', lb⟩ := exposesAlways_extends hb hz.ext
  have hc' := crate_exposes_always cfg Inv hz.sound p3
  have hfr : mem.bufs.length ≤ m.data.buf := hz.fresh
  have hno := contiguous_nonOverlapping p1
  have st : ∀ {i j}, i < m.layout.dim.1 → j < m.layout.dim.2 → Stored m.layout i j :=
    fun hi hj => (stored_of_notTri p2).2 ⟨hi, hj⟩
  refine always_bind (C86_product_partial A₁ A₂ ((crateImpls cfg α).still S) Inv kern 1 0 a b
    ⟨m.data, m.layout⟩ mem1 d1 d2 m.layout.dim sa sb _ pa pb (cell m) ha' hb' hc'
    (fun i j i' j' hi hj hi' hj' e => cell_inj hno (st hi hj) (st hi' hj') e)
    (fun i j i' j' hi hj hi' hj' e => by
      have h1 := la i' j' hi' hj'
      have h2 : m.data.buf = (pa i' j').buf := congrArg Loc.buf e
      omega)
    (fun i j i' j' hi hj hi' hj' e => by
      have h1 := lb i' j' hi' hj'
      have h2 : m.data.buf = (pb i' j').buf := congrArg Loc.buf e
      omega)) fun mem2 h2 => ?_
  obtain ⟨⟨k1, k2, k3⟩, s1, s2, s3, s4⟩ := h2
  have hext : Extends mem mem2 := by
    refine ⟨by rw [s2]; exact hz.ext.1, fun q hq => ?_⟩
    rw [s3 q fun i j _ _ e => ?_, hz.ext.2 q hq]
    rw [e] at hq
    have : (cell m i j).buf = m.data.buf := rfl
    omega
  have hs2 : Sound m mem2 := hz.sound.mono (by rw [s1])
  refine always_pure ⟨k1, hdim, hs2, hz.fresh, hext, ?_⟩
  intro A B hA hB r c hr hc
  have hres := s4 A B (fun _ _ => 0)
    (fun i l hi hl => by rw [hz.ext.2 _ (la i l hi hl)]; exact hA i l hi hl)
    (fun l j hl hj => by rw [hz.ext.2 _ (lb l j hl hj)]; exact hB l j hl hj)
    (fun i j hi hj => hz.zero i j (st hi hj))
    r c (by rw [hdim]; exact hr) (by rw [hdim]; exact hc)
  rw [hdim] at hres
  exact hs2.get cfg (st (by rw [hdim]; exact hr) (by rw [hdim]; exact hc)) hres

/-- **C86**: `split_in_four_mut` asks the container once, for the pointer, as `C86_blocks`. -/
theorem C86_split [Target] (get_pointer_mut : D → Act S Ptr) (I : DataImpl α D) (s : S)
    (hI : ∀ x, I.get_pointer_mut x = (get_pointer_mut x s >>= fun r => .ok r.1)) (cfg : Cfg)
    (m : AnyBase Layout D) (at_ : Nat × Nat) :
    (Acts.splitWith get_pointer_mut cfg m at_ s >>= fun r => .ok r.1) =
      AnyBase.split_in_four_mut I cfg m at_ := by
  have run : ∀ {β γ : Type} (x : Out β) (f : β → Act S γ) (s : S),
      (act x >>= f) s = (x >>= fun b => f b s) := by
    intro β γ x f s
    rw [bind_run]
    cases x <;> rfl
  unfold Acts.splitWith AnyBase.split_in_four_mut
  cases m.layout <;> try rfl
  simp only [run, Out.bind_assoc', hI]
  refine congrArg _ (funext fun st => ?_)
  rw [bind_run, Out.bind_assoc']
  refine congrArg _ (funext fun r => ?_)
  simp only [run, Out.bind_assoc', Out.bind_ok, pure_run]
  rfl

/-- **C86**: for implementations that do not change the model of `dot` is that of C75 (for
`split_in_four_mut` this is a case of `C86_split`). -/
theorem C86_agreement_dot [Target] [Zero α] [One α] (I₁ : Impls α V₁ D₁ X₁) (I₂ : Impls α V₂ D₂ X₂)
    (cfg : Cfg) (kern : Kern α) (i : DotImpl) (a : AnyBase V₁ D₁) (b : AnyBase V₂ D₂) (mem : Mem α) :
    (I₁.still S).dot (I₂.still S) cfg kern i a b mem =
      act (AnyBase.dot I₁ I₂ cfg kern i a b mem) := by
  have hm : ∀ (c : AnyBase Layout Container) (mem : Mem α),
      (I₁.still S).matmul (I₂.still S) ((crateImpls cfg α).still S) kern 1 a b 0 c mem =
      act (AnyBase.matmul I₁ I₂ (crateImpls cfg α) kern 1 a b 0 c mem) := fun c mem =>
    (C86_agreement_base (S := S) (σ := Unit) I₁ I₂ (crateImpls cfg α) kern 1 0 mem a b c 0 0 0
      (fun s v => (s, v)) () a.data a.layout 0 0).2.2.2.2.2.2
  rw [any_dot_eq]
  simp only [act_bind, Acts.dot, hm]
  cases i <;> rfl

/-- The operands of the product of columns above, and their `dot`. -/
example : turningActs.dot turningActs dbg exactKern .matMat ⟨⟨0, 0, 3⟩, 3⟩ ⟨⟨1, 0, 1⟩, 1⟩ turningMem 0 =
      .ok ((⟨⟨3, 0, 3⟩, .rowMajor ⟨(3, 1)⟩, .dynamic, .dynamic⟩,
        ⟨[[7, 8, 9], [2], [1, 1, 1], [14, 16, 18]]⟩), 8) ∧
    Always (fun _ => True) (turningActs.dot turningActs dbg exactKern .matMat ⟨⟨0, 0, 3⟩, 3⟩
      ⟨⟨1, 0, 1⟩, 1⟩ turningMem) (fun x => x.1.layout.dim = (3, 1)) :=
  ⟨by rfl, always_mono (C86_dot_partial turningActs turningActs (fun _ => True) dbg exactKern .matMat _ _
    turningMem (3, 1) (1, 1) (1, 1) (1, 1) _ _
    (turning_exposes 0 3 _ (fun _ _ => rfl) (by decide))
    (turning_exposes 1 1 _ (fun _ _ => rfl) (by decide)) (.inl rfl)) fun _ h => h.2.1⟩

/-- A container that moves to the next buffer each time it is asked: the four parts are all in the
buffer of the one answer. -/
example : Acts.splitWith (fun (_ : Unit) (s : Nat) => .ok (⟨⟨s, 0, 6⟩, 0⟩, s + 1)) dbg
      ⟨(), .rowMajor ⟨(2, 3)⟩⟩ (1, 1) 4 =
    .ok ((⟨⟨4, 0, 1⟩, .asRowMajor ⟨(1, 1), (3, 1)⟩, .dynamic, .dynamic⟩,
      ⟨⟨4, 1, 2⟩, .asRowMajor ⟨(1, 2), (3, 1)⟩, .dynamic, .dynamic⟩,
      ⟨⟨4, 3, 1⟩, .asRowMajor ⟨(1, 1), (3, 1)⟩, .dynamic, .dynamic⟩,
      ⟨⟨4, 4, 2⟩, .asRowMajor ⟨(1, 2), (3, 1)⟩, .dynamic, .dynamic⟩), 5) := by rfl

end Householder.Props
