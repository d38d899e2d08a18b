import Verif.Model.Base
import Mathlib.Analysis.SpecialFunctions.Complex.Arg

/-!
# `HScalar::atan2` (src/types.rs:6-50)
-/

namespace Householder

/-- `f32::atan2` and `f64::atan2` of the standard library, in exact arithmetic: `y.atan2(x)` is the
angle of the point `(x, y)`. (Simplification: no rounding; Rust's documentation does not promise a
precision.) -/
noncomputable def std_atan2 (y x : ℝ) : ℝ := Complex.arg ⟨x, y⟩

/-- A scalar by its type: one real number, or real and imaginary part. -/
def Scalar : ItemTy → Type
  | .f32 | .f64 => ℝ
  | .c32 | .c64 => ℝ × ℝ

/-- `HScalar::atan2`: src/types.rs:24-26 and 32-34 (`self.atan2(x)`: an inherent method comes before
a trait method, so this is the method of the standard library and not a recursive call),
src/types.rs:40-42 and 47-49 (`unimplemented!`). -/
noncomputable def HScalar.atan2 : (t : ItemTy) → Scalar t → Scalar t → Out (Scalar t)
  | .f32, self, x => .ok (std_atan2 self x)
  | .f64, self, x => .ok (std_atan2 self x)
  | .c32, _, _ => .panic
  | .c64, _, _ => .panic

end Householder
