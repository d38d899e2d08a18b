import Verif.Model.Scalar

/-!
# C83: `atan2` is the angle of a point
-/

namespace Householder.Props

/-- `θ` is the angle of the point `(x, y)`: turned by it, the positive x-axis goes through the point. -/
def IsAngle (x y θ : ℝ) : Prop :=
  -Real.pi < θ ∧ θ ≤ Real.pi ∧ ∃ r : ℝ, 0 ≤ r ∧ x = r * Real.cos θ ∧ y = r * Real.sin θ

/-- **C83** as one would expect it of a method of `HScalar`: it returns, for every scalar type. -/
def C83_statement : Prop :=
  ∀ (t : ItemTy) (y x : Scalar t), ∃ v, HScalar.atan2 t y x = .ok v

/-- **C83 is false**: the method panics on complex numbers, on all of them. -/
theorem C83_false : ¬ C83_statement ∧ ∀ t y x, t = .c32 ∨ t = .c64 → HScalar.atan2 t y x = .panic := by
  have h : ∀ t y x, t = .c32 ∨ t = .c64 → HScalar.atan2 t y x = .panic := by
    rintro t y x (rfl | rfl) <;> rfl
  refine ⟨fun hs => ?_, h⟩
  obtain ⟨v, hv⟩ := hs .c64 ((0, 0) : ℝ × ℝ) ((1, 0) : ℝ × ℝ)
  exact absurd ((h .c64 _ _ (.inr rfl)).symm.trans hv) (by simp)

/-- **C83, partial.** On `f32` and `f64`, `y.atan2(x)` returns the angle of the point `(x, y)`, which is
unique unless the point is the origin (where it is 0). Missing: complex numbers, where it is false;
rounding. -/
theorem C83_partial (y x : ℝ) :
    ∃ θ : ℝ, HScalar.atan2 .f32 y x = .ok θ ∧ HScalar.atan2 .f64 y x = .ok θ ∧
      IsAngle x y θ ∧ (¬ (x = 0 ∧ y = 0) → ∀ φ, IsAngle x y φ → φ = θ) ∧ (x = 0 ∧ y = 0 → θ = 0) := by
  refine ⟨std_atan2 y x, rfl, rfl, ?_, ?_, ?_⟩
  · refine ⟨Complex.neg_pi_lt_arg _, Complex.arg_le_pi _, ‖(⟨x, y⟩ : ℂ)‖, norm_nonneg _, ?_, ?_⟩
    · exact (Complex.norm_mul_cos_arg (⟨x, y⟩ : ℂ)).symm
    · exact (Complex.norm_mul_sin_arg (⟨x, y⟩ : ℂ)).symm
  · rintro h0 φ ⟨h1, h2, r, hr, rfl, rfl⟩
    have hr' : 0 < r := by
      rcases hr.lt_or_eq with h | h
      · exact h
      · exact absurd ⟨by rw [← h]; ring, by rw [← h]; ring⟩ h0
    have := Complex.arg_mul_cos_add_sin_mul_I hr' ⟨h1, h2⟩
    refine this.symm.trans ?_
    rw [std_atan2]
    congr 1
    apply Complex.ext <;> simp [Complex.cos_ofReal_re, Complex.sin_ofReal_re]
  · rintro ⟨rfl, rfl⟩
    exact Complex.arg_zero

example : ∃ θ : ℝ, HScalar.atan2 .f64 (1 : ℝ) (1 : ℝ) = .ok θ ∧ IsAngle 1 1 θ := by
  obtain ⟨θ, -, h1, h2, -⟩ := C83_partial 1 1
  exact ⟨θ, h1, h2⟩

/-- Not the angle of the mirrored point: the order of the arguments matters. -/
example : IsAngle 0 1 (Real.pi / 2) ∧ ¬ IsAngle 1 0 (Real.pi / 2) := by
  refine ⟨⟨by linarith [Real.pi_pos], by linarith [Real.pi_pos], 1, by norm_num, by simp, by simp⟩, ?_⟩
  rintro ⟨-, -, r, -, h, -⟩
  simp at h

end Householder.Props
