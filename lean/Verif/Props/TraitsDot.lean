import Verif.Props.TraitsMul
import Verif.Props.Release

/-!
# `dot` over other implementations when the size of the result wraps (C75)

Without overflow checks the number of elements of the result of `dot` may wrap around.
-/

namespace Householder.Props

open Spec

variable {α V₁ V₂ D₁ D₂ X₁ X₂ : Type}

/-- **C75**, what `C75_dot_partial` leaves out: without overflow checks, whatever the implementations of
the operands answer, `dot` into a result whose number of elements is not a `usize` never returns. If the
inner dimensions agree, it is undefined exactly if there is memory for the number of elements as it wraps
around, and panics otherwise; if they do not agree, it panics. -/
theorem C75_dot_wraps [Target] [Zero α] [One α] (I₁ : Impls α V₁ D₁ X₁) (I₂ : Impls α V₂ D₂ X₂)
    (cfg : Cfg) (kern : Kern α) (a : AnyBase V₁ D₁) (b : AnyBase V₂ D₂) (mem : Mem α)
    (da db sa sb : Nat × Nat) (pa pb : Ptr) (hda : I₁.lay.dim a.layout = .ok da)
    (hdb : I₂.lay.dim b.layout = .ok db) (hsa : I₁.lay.stride a.layout = .ok sa)
    (hsb : I₂.lay.stride b.layout = .ok sb) (hpa : I₁.dat.get_pointer a.data = .ok pa)
    (hpb : I₂.dat.get_pointer b.data = .ok pb) (hcfg : cfg.overflowChecks = false)
    (hW : W ≤ da.1 * db.2) :
    AnyBase.dot I₁ I₂ cfg kern .matMat a b mem =
      if da.2 = db.1 ∧ da.1 * db.2 % W * cfg.item.size ≤ isizeMax then .ub else .panic := by
  have hn : Layout.number_of_elements cfg (.rowMajor ⟨(da.1, db.2)⟩) = .ok (da.1 * db.2 % W) := by
    simp [Layout.number_of_elements, RowMajor.number_of_elements, Cfg.mul, Cfg.wrap, hcfg,
      show ¬ da.1 * db.2 < W by omega]
  have hf : ∀ d : Container, d.len = da.1 * db.2 % W →
      from_data cfg .dynamic .dynamic d (.rowMajor ⟨(da.1, db.2)⟩) =
        .ok ⟨d, .rowMajor ⟨(da.1, db.2)⟩, .dynamic, .dynamic⟩ := by
    intro d hd
    simp [from_data, BaseMatrix.new, hn, Container.number_of_elements, hd, Out.assert]
  rw [any_dot_eq, hda, hdb, Out.bind_ok, Out.bind_ok]
  have hz : dotZeros cfg .matMat da.1 db.2 mem =
      (Container.newVector cfg mem (da.1 * db.2 % W) >>= fun x =>
        from_data cfg .dynamic .dynamic x.1 (.rowMajor ⟨(da.1, db.2)⟩) >>= fun m => .ok (m, x.2)) := by
    simp only [dotZeros, zeros_from_dim, BaseKind.from_dimension, RowMajor.from_dimension, Out.pure_eq,
      Out.bind_ok, hn]
  rw [hz]
  by_cases hsz : da.1 * db.2 % W * cfg.item.size ≤ isizeMax
  swap
  · simp [Container.newVector, hsz]
  have hf := hf ⟨mem.bufs.length, 0, da.1 * db.2 % W⟩ rfl
  simp only [Container.newVector, if_pos hsz, Mem.alloc_fst, Out.bind_ok, hf]
  have e1 : ∀ l, (crateImpls cfg α).lay.dim l = .ok l.dim := fun _ => rfl
  simp only [AnyBase.matmul, hda, hdb, e1, Out.bind_ok, Layout.dim]
  by_cases hk : da.2 = db.1
  swap
  · simp [hk, Out.assert]
  have e2 : (crateImpls cfg α).lay.stride (.rowMajor ⟨(da.1, db.2)⟩) = .ok (db.2, 1) := rfl
  have e3 : ∀ d : Container, (crateImpls cfg α).dat.get_pointer_mut d = .ok ⟨d, 0⟩ := fun _ => rfl
  have hpos := W_pos
  have hlen : da.1 * db.2 % W * 4 ≤ isizeMax := four_mul_le hsz
  have hbad : ¬ gemmPre da.1 da.2 db.2 pa (asIsize sa.1) (asIsize sa.2) pb (asIsize sb.1)
      (asIsize sb.2) ⟨⟨mem.bufs.length, 0, da.1 * db.2 % W⟩, 0⟩ (asIsize db.2) (asIsize 1) := by
    intro h
    have hin := (C46_exact cfg .dynamic .dynamic ⟨mem.bufs.length, 0, da.1 * db.2 % W⟩
      (.rowMajor ⟨(da.1, db.2)⟩) _ (db.2, 1) (.inl trivial) hlen hf rfl).1 (fun i j hi hj => by
        have := h.2.2.1 i hi j hj
        simpa [gemmValid, gemmAddr, kernelAddress] using this)
    have : count (.rowMajor ⟨(da.1, db.2)⟩) = da.1 * db.2 := rfl
    have := Nat.mod_lt (da.1 * db.2) hpos
    simp only at hin
    omega
  simp only [hk, Out.assert, and_self, if_true, hsa, hsb, e2, hpa, hpb, e3, Out.bind_ok, gemm, true_and, if_pos hsz]
  rw [← hk, if_neg hbad]
  rfl

/-! ## A layout that repeats one element -/

/-- Every position of a matrix of this layout is the first element of the container. -/
def repeating : LayoutImpl (Nat × Nat) where
  stride _ := .ok (0, 0)
  dim l := .ok l
  number_of_elements _ := .ok 1
  convert_1d_2d _ _ := .ok (0, 0)
  convert_2d_1d _ _ _ := .ok 0
  convert_1d_raw _ _ := .ok 0
  convert_2d_raw _ _ _ := .ok 0
  index_layout l := .ok l
  from_dimension _ d := .ok d

/-- The layout over the crate's containers. -/
def repeatingImpls : Impls Int (Nat × Nat) Container Empty :=
  ⟨repeating, crateContainers Int, ⟨nofun, nofun, nofun⟩⟩

/-- One element in memory is enough for all three outcomes. -/
example : AnyBase.dot repeatingImpls repeatingImpls rel exactKern .matMat ⟨⟨0, 0, 1⟩, (2 ^ 40, 3)⟩
      ⟨⟨0, 0, 1⟩, (3, 2 ^ 40)⟩ ⟨[[5]]⟩ = .ub ∧
    AnyBase.dot repeatingImpls repeatingImpls rel exactKern .matMat ⟨⟨0, 0, 1⟩, (2 ^ 63, 3)⟩
      ⟨⟨0, 0, 1⟩, (3, 3)⟩ ⟨[[5]]⟩ = .panic ∧
    AnyBase.dot repeatingImpls repeatingImpls rel exactKern .matMat ⟨⟨0, 0, 1⟩, (2, 3)⟩
      ⟨⟨0, 0, 1⟩, (3, 1)⟩ ⟨[[5]]⟩ = .ok (⟨⟨1, 0, 2⟩, .rowMajor ⟨(2, 1)⟩, .dynamic, .dynamic⟩,
        ⟨[[5], [75, 75]]⟩) := by
  refine ⟨?_, ?_, by decide +kernel⟩
  · rw [C75_dot_wraps _ _ _ _ _ _ _ (2 ^ 40, 3) (3, 2 ^ 40) (0, 0) (0, 0) ⟨⟨0, 0, 1⟩, 0⟩ ⟨⟨0, 0, 1⟩, 0⟩
      rfl rfl rfl rfl rfl rfl rfl (by decide), if_pos (by decide)]
  · rw [C75_dot_wraps _ _ _ _ _ _ _ (2 ^ 63, 3) (3, 3) (0, 0) (0, 0) ⟨⟨0, 0, 1⟩, 0⟩ ⟨⟨0, 0, 1⟩, 0⟩
      rfl rfl rfl rfl rfl rfl rfl (by decide), if_neg (by decide)]

end Householder.Props
