import Verif.Spec.Expr
import Verif.Spec.MatMul
import Mathlib.Data.Rat.Floor
import Mathlib.Algebra.BigOperators.Group.Finset.Basic
import Mathlib.Algebra.Order.BigOperators.Group.Finset
import Mathlib.Algebra.Order.Ring.Abs

/-!
# Floating-point scalars by the standard: `f32` and `f64`

Scalars whose sums, differences, products and fused multiply-adds are those of IEEE-754: correctly rounded, with
gradual underflow, with infinities and NaN. Nothing is assumed about the absence of overflow or
underflow. Also: trees of rounded operations, and what it means to compute an element of a product
in any order.
-/

namespace Householder.Spec

/-! ## Formats -/

/-- A binary format (IEEE-754 §3.3): values `m * 2^e` with `|m| < 2^p` and `lo ≤ e ≤ hi`. -/
structure Format where
  /-- the number of binary digits -/
  p : ℕ
  /-- the exponent of the last digit of the smallest numbers -/
  lo : ℤ
  /-- the exponent of the last digit of the largest numbers -/
  hi : ℤ
  two_le_p : 2 ≤ p
  lo_le : lo ≤ 0
  le_hi : 1 ≤ hi

/-- `f32` (binary32): 24 digits, largest exponent 127. -/
def Format.f32 : Format := ⟨24, -149, 104, by norm_num, by norm_num, by norm_num⟩

/-- `f64` (binary64): 53 digits, largest exponent 1023. -/
def Format.f64 : Format := ⟨53, -1074, 971, by norm_num, by norm_num, by norm_num⟩

namespace Format

variable (f : Format)

/-- The finite values of the format. -/
def Value (y : ℚ) : Prop :=
  ∃ m e : ℤ, |m| < 2 ^ f.p ∧ f.lo ≤ e ∧ e ≤ f.hi ∧ y = m * 2 ^ e

/-- The last digit of the significand is 0. The significand is the one with `p` digits, or, for
subnormal values, that of the smallest exponent. -/
def Even (y : ℚ) : Prop :=
  ∃ m e : ℤ, |m| < 2 ^ f.p ∧ f.lo ≤ e ∧ e ≤ f.hi ∧ (2 ^ (f.p - 1) ≤ |m| ∨ e = f.lo) ∧
    y = m * 2 ^ e ∧ _root_.Even m

/-- From this magnitude on exact results are rounded to infinity: the largest value plus half of its
last digit. -/
def limit : ℚ := (2 ^ f.p - 1 / 2) * 2 ^ f.hi

/-- The unit roundoff. -/
def u : ℚ := 2 ^ (-(f.p : ℤ))

/-- Half of the smallest positive value. -/
def eta : ℚ := 2 ^ (f.lo - 1)

/-- `y` is the value nearest to `x`, and of two nearest values the one with the even significand
(IEEE-754 §4.3.1, `roundTiesToEven`). -/
def RoundsTo (x y : ℚ) : Prop :=
  f.Value y ∧ (∀ z, f.Value z → |x - y| ≤ |x - z|) ∧
    ∀ z, f.Value z → |x - z| = |x - y| → z ≠ y → f.Even y

/-- `r` is the result of an operation whose operands are finite and whose exact result is `x`
(`some x`), or that has an operand that is not finite (`none`). Results that are not finite
(infinities, NaN) are `none`. -/
def Result (r : Option ℚ) : Option ℚ → Prop
  | some x => if |x| < f.limit then ∃ y, r = some y ∧ f.RoundsTo x y else r = none
  | none => r = none

end Format

/-- A scalar type with the arithmetic of IEEE-754 in the format `f` (§4.3, §5.4.1, §6, §7). -/
structure Ieee (f : Format) (F : Type) [Add F] [Sub F] [Mul F] where
  /-- the number a scalar stands for; none for infinities and NaN -/
  val : F → Option ℚ
  /-- the fused multiply-add `a * b + c`, rounded once -/
  fma : F → F → F → F
  format : ∀ a x, val a = some x → f.Value x
  add_result : ∀ a b, f.Result (val (a + b)) (do return (← val a) + (← val b))
  sub_result : ∀ a b, f.Result (val (a - b)) (do return (← val a) - (← val b))
  mul_result : ∀ a b, f.Result (val (a * b)) (do return (← val a) * (← val b))
  fma_result : ∀ a b c, f.Result (val (fma a b c)) (do return (← val a) * (← val b) + (← val c))

/-! ## Trees of rounded operations -/

/-- Operations on scalars in the order in which they are done. -/
inductive Fp (F : Type) where
  /-- a scalar -/
  | lit (a : F)
  /-- a sum -/
  | add (s t : Fp F)
  /-- a difference -/
  | sub (s t : Fp F)
  /-- a product -/
  | mul (s t : Fp F)
  /-- a fused multiply-add `s * t + r` -/
  | fma (s t r : Fp F)

namespace Fp

variable {F : Type} [Add F] [Sub F] [Mul F] {f : Format}

/-- Doing the operations. -/
def run (R : Ieee f F) : Fp F → F
  | lit a => a
  | add s t => s.run R + t.run R
  | sub s t => s.run R - t.run R
  | mul s t => s.run R * t.run R
  | fma s t r => R.fma (s.run R) (t.run R) (r.run R)

/-- The result without rounding. -/
def exact (R : Ieee f F) : Fp F → ℚ
  | lit a => (R.val a).getD 0
  | add s t => s.exact R + t.exact R
  | sub s t => s.exact R - t.exact R
  | mul s t => s.exact R * t.exact R
  | fma s t r => s.exact R * t.exact R + r.exact R

/-- The same with absolute values throughout. -/
def magnitude (R : Ieee f F) : Fp F → ℚ
  | lit a => |(R.val a).getD 0|
  | add s t => s.magnitude R + t.magnitude R
  | sub s t => s.magnitude R + t.magnitude R
  | mul s t => s.magnitude R * t.magnitude R
  | fma s t r => s.magnitude R * t.magnitude R + r.magnitude R

/-- The same, adding at every product what underflow may cost. -/
def reach (R : Ieee f F) : Fp F → ℚ
  | lit a => |(R.val a).getD 0|
  | add s t => s.reach R + t.reach R
  | sub s t => s.reach R + t.reach R
  | mul s t => s.reach R * t.reach R + f.eta
  | fma s t r => s.reach R * t.reach R + r.reach R + f.eta

/-- How many factors `1 + u` the result may have gathered. -/
def roundings : Fp F → ℕ
  | lit _ => 0
  | add s t => max s.roundings t.roundings + 1
  | sub s t => max s.roundings t.roundings + 1
  | mul s t => s.roundings + t.roundings + 1
  | fma s t r => max (s.roundings + t.roundings) r.roundings + 1

/-- Every scalar in the tree has the property `P`. -/
def Literals (P : F → Prop) : Fp F → Prop
  | lit a => P a
  | add s t => s.Literals P ∧ t.Literals P
  | sub s t => s.Literals P ∧ t.Literals P
  | mul s t => s.Literals P ∧ t.Literals P
  | fma s t r => s.Literals P ∧ t.Literals P ∧ r.Literals P

/-- All scalars are finite. -/
abbrev Finite (R : Ieee f F) (t : Fp F) : Prop := t.Literals fun a => (R.val a).isSome

/-- All scalars are whole numbers. -/
abbrev Whole (R : Ieee f F) (t : Fp F) : Prop := t.Literals fun a => ∃ n : ℤ, R.val a = some (n : ℚ)

/-- Every operation of the tree, with what is below it, has the property `P`. -/
def Every (P : Fp F → Prop) : Fp F → Prop
  | lit _ => True
  | add s t => P (add s t) ∧ s.Every P ∧ t.Every P
  | sub s t => P (sub s t) ∧ s.Every P ∧ t.Every P
  | mul s t => P (mul s t) ∧ s.Every P ∧ t.Every P
  | fma s t r => P (fma s t r) ∧ s.Every P ∧ t.Every P ∧ r.Every P

end Fp

/-- The rounded operations that an expression stands for, where `X b` is the element of the matrix
`b` at the position considered. -/
def Ex.operations {F : Type} (X : BaseMatrix → F) : Ex F → Fp F
  | .leaf b => .lit (X b)
  | .ref a => a.operations X
  | .add _ _ a b => .add (a.operations X) (b.operations X)
  | .scale _ _ s a => .mul (.lit s) (a.operations X)

/-! ## Products in any order -/

section

variable {F : Type} [Add F] [Sub F] [Mul F] {f : Format}

/-- The tree sums the products of the pairs: in any order, with any bracketing, each product rounded
or fused into a sum. -/
inductive SumOf (R : Ieee f F) : List (F × F) → Fp F → Prop
  | empty {z} : R.val z = some 0 → SumOf R [] (.lit z)
  | one {a b} : SumOf R [(a, b)] (.mul (.lit a) (.lit b))
  | fused {ps t a b} : SumOf R ps t → SumOf R ((a, b) :: ps) (.fma (.lit a) (.lit b) t)
  | sum {ps qs s t} : ps ≠ [] → qs ≠ [] → SumOf R ps s → SumOf R qs t → SumOf R (ps ++ qs) (.add s t)
  | order {ps qs t} : ps.Perm qs → SumOf R ps t → SumOf R qs t

/-- The tree computes `alpha * Σ a b + beta * c`: the sum in any order and in any number of blocks,
multiplied by `alpha` block by block or term by term, added or fused to what is there already. -/
inductive ProductOf (R : Ieee f F) (alpha beta c : F) : List (F × F) → Fp F → Prop
  /-- `beta * c` -/
  | scaled : ProductOf R alpha beta c [] (.mul (.lit beta) (.lit c))
  /-- `c * beta` -/
  | scaled' : ProductOf R alpha beta c [] (.mul (.lit c) (.lit beta))
  /-- nothing is read if `beta` is 0 -/
  | cleared {z} : R.val beta = some 0 → R.val z = some 0 → ProductOf R alpha beta c [] (.lit z)
  /-- nothing is multiplied if `beta` is 1 -/
  | kept : R.val beta = some 1 → ProductOf R alpha beta c [] (.lit c)
  /-- `s + alpha * Σ` -/
  | block {ps qs s t} : qs ≠ [] → ProductOf R alpha beta c ps s → SumOf R qs t →
      ProductOf R alpha beta c (ps ++ qs) (.add s (.mul (.lit alpha) t))
  /-- the same, fused -/
  | blockFused {ps qs s t} : qs ≠ [] → ProductOf R alpha beta c ps s → SumOf R qs t →
      ProductOf R alpha beta c (ps ++ qs) (.fma (.lit alpha) t s)
  /-- `s + Σ` if `alpha` is 1 -/
  | blockPlain {ps qs s t} : qs ≠ [] → R.val alpha = some 1 → ProductOf R alpha beta c ps s →
      SumOf R qs t → ProductOf R alpha beta c (ps ++ qs) (.add s t)
  /-- `s + (alpha * a) * b` -/
  | term {ps s a b} : ProductOf R alpha beta c ps s →
      ProductOf R alpha beta c (ps ++ [(a, b)]) (.add s (.mul (.mul (.lit alpha) (.lit a)) (.lit b)))
  /-- the same, fused -/
  | termFused {ps s a b} : ProductOf R alpha beta c ps s →
      ProductOf R alpha beta c (ps ++ [(a, b)]) (.fma (.mul (.lit alpha) (.lit a)) (.lit b) s)
  | order {ps qs t} : ps.Perm qs → ProductOf R alpha beta c ps t → ProductOf R alpha beta c qs t

/-- A kernel that computes every element in one of these orders, which may differ from element to
element and depend on the scalars. -/
def AnyOrder (R : Ieee f F) (kern : Kern F) : Prop :=
  ∀ site alpha ps beta c, ∃ t, ProductOf R alpha beta c ps t ∧
    R.val (kern site alpha ps beta c) = R.val (t.run R)

/-- What one element of a product should be. -/
def productAt (alpha : ℚ) (A B : Arr ℚ) (beta : ℚ) (C : Arr ℚ) (k i j : ℕ) : ℚ :=
  alpha * (∑ l ∈ Finset.range k, A i l * B l j) + beta * C i j

/-- The same with absolute values throughout. -/
def sizeAt (alpha : ℚ) (A B : Arr ℚ) (beta : ℚ) (C : Arr ℚ) (k i j : ℕ) : ℚ :=
  |alpha| * (∑ l ∈ Finset.range k, |A i l| * |B l j|) + |beta| * |C i j|

/-- How much underflow may add to one element of a product, in units of `eta`. -/
def underflowAt (alpha : ℚ) (B : Arr ℚ) (k j : ℕ) : ℚ :=
  1 + k * (1 + |alpha|) + ∑ l ∈ Finset.range k, |B l j|

/-- The error bound for one element of a product. -/
def Format.productError (f : Format) (alpha : ℚ) (A B : Arr ℚ) (beta : ℚ) (C : Arr ℚ) (k i j : ℕ) : ℚ :=
  ((1 + f.u) ^ (k + 2) - 1) * sizeAt alpha A B beta C k i j +
    (1 + f.u) ^ (k + 2) * (underflowAt alpha B k j * f.eta)

/-- No order of computing one element of a product can overflow. -/
def Format.CannotOverflow (f : Format) (alpha : ℚ) (A B : Arr ℚ) (beta : ℚ) (C : Arr ℚ) (k i j : ℕ) :
    Prop :=
  (1 + f.u) ^ (k + 2) * (∑ l ∈ Finset.range k, |A i l| * |B l j| + k * f.eta) < f.limit ∧
  (1 + f.u) ^ (k + 2) * (sizeAt alpha A B beta C k i j + underflowAt alpha B k j * f.eta) < f.limit ∧
  ∀ l < k, (1 + f.u) ^ (k + 2) * (|alpha| * |A i l| + f.eta) < f.limit

/-- The numbers met in computing one element of a product are whole and have at most `p` digits. -/
def Format.SmallWhole (f : Format) (alpha : ℚ) (A B : Arr ℚ) (beta : ℚ) (C : Arr ℚ) (k i j : ℕ) :
    Prop :=
  (∃ n : ℤ, alpha = n) ∧ (∃ n : ℤ, beta = n) ∧ (∃ n : ℤ, C i j = n) ∧
  (∀ l < k, (∃ n : ℤ, A i l = n) ∧ (∃ n : ℤ, B l j = n) ∧ |alpha| * |A i l| ≤ 2 ^ f.p) ∧
  ∑ l ∈ Finset.range k, |A i l| * |B l j| ≤ 2 ^ f.p ∧ sizeAt alpha A B beta C k i j ≤ 2 ^ f.p

/-- What may be expected of an element of a product in floating point, computed in whatever order
(`none`: infinite or NaN): within the error bound if finite; finite if overflow is impossible;
exact if the numbers are whole and small. -/
structure Format.Accurate (f : Format) (alpha : ℚ) (A B : Arr ℚ) (beta : ℚ) (C : Arr ℚ) (k i j : ℕ)
    (r : Option ℚ) : Prop where
  error : ∀ q, r = some q →
    |q - productAt alpha A B beta C k i j| ≤ f.productError alpha A B beta C k i j
  finite : f.CannotOverflow alpha A B beta C k i j → ∃ q, r = some q
  whole : f.SmallWhole alpha A B beta C k i j → r = some (productAt alpha A B beta C k i j)

end

end Householder.Spec
