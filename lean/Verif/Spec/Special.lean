import Verif.Spec.Ieee

/-!
# Infinities, NaN and the signs of zeros

`Spec/Ieee.lean` knows of a scalar only which number it is, if it is one. Here a scalar is a NaN, a
signed infinity or a signed number (with two zeros), and the operations are those of IEEE-754 on all
of them. Also: what infinities and NaN among the operands of a product mean for an element of the
result.
-/

namespace Householder.Spec

/-- What a scalar stands for (IEEE-754 §3.3). -/
inductive Datum where
  /-- not a number -/
  | nan
  /-- an infinity and its sign (`true`: negative) -/
  | inf (negative : Bool)
  /-- a number and its sign; the sign is of interest for zeros -/
  | fin (negative : Bool) (x : ℚ)
  deriving DecidableEq

namespace Datum

/-- The number, if it is one. -/
def val : Datum → Option ℚ
  | fin _ x => some x
  | _ => none

/-- The sign bit (of a NaN: of no meaning). -/
def negative : Datum → Bool
  | nan => false
  | inf s => s
  | fin s _ => s

/-- A number. -/
def IsFinite (d : Datum) : Prop := ∃ s x, d = fin s x

/-- An infinity. -/
def IsInf (d : Datum) : Prop := ∃ s, d = inf s

/-- One of the two zeros. -/
def IsZero (d : Datum) : Prop := ∃ s, d = fin s 0

/-- The opposite (§5.5.1, `negate`). -/
def opposite : Datum → Datum
  | nan => nan
  | inf s => inf !s
  | fin s x => fin (!s) (-x)

/-- Numbers are of the format and have their own sign. -/
def Proper (f : Format) : Datum → Prop
  | fin s x => f.Value x ∧ (x < 0 → s = true) ∧ (0 < x → s = false)
  | _ => True

/-- The result of an operation on numbers, whose exact result is `z`; `s` is the sign of the result if
`z` is 0 (§4.3.1, §6.3, §7.4). -/
def Rounded (f : Format) (s : Bool) (z : ℚ) (r : Datum) : Prop :=
  if |z| < f.limit then ∃ y, r = fin (if z = 0 then s else decide (z < 0)) y ∧ f.RoundsTo z y
  else r = inf (decide (z < 0))

/-- Sums (§5.4.1, §6.1–6.3, §7.2): a sum that is exactly 0 is negative only if both terms are. -/
def Sum (f : Format) : Datum → Datum → Datum → Prop
  | fin s x, fin t y, r => Rounded f (s && t) (x + y) r
  | fin _ _, inf t, r => r = inf t
  | inf s, fin _ _, r => r = inf s
  | inf s, inf t, r => r = if s = t then inf s else nan
  | _, _, r => r = nan

/-- Products (§5.4.1, §6.1–6.3, §7.2). -/
def Product (f : Format) : Datum → Datum → Datum → Prop
  | fin s x, fin t y, r => Rounded f (s != t) (x * y) r
  | fin s x, inf t, r => r = if x = 0 then nan else inf (s != t)
  | inf s, fin t y, r => r = if y = 0 then nan else inf (s != t)
  | inf s, inf t, r => r = inf (s != t)
  | _, _, r => r = nan

/-- Fused multiply-adds (§5.4.1, §6.1–6.3, §7.2). -/
def Fused (f : Format) : Datum → Datum → Datum → Datum → Prop
  | fin s x, fin t y, fin u z, r => Rounded f ((s != t) && u) (x * y + z) r
  | fin _ _, fin _ _, inf u, r => r = inf u
  | fin _ _, fin _ _, nan, r => r = nan
  | a, b, c, r => ∃ p, Product f a b p ∧ Sum f p c r

/-- A product of these is NaN, whatever the numbers: one of them is, or an infinity meets a zero. -/
def Invalid (a b : Datum) : Prop :=
  a = nan ∨ b = nan ∨ (a.IsInf ∧ b.IsZero) ∨ (a.IsZero ∧ b.IsInf)

/-- A product of these is the infinity of sign `s`, because one of them is infinite. -/
def Infinite (s : Bool) (a b : Datum) : Prop :=
  ¬ Invalid a b ∧ (a.IsInf ∨ b.IsInf) ∧ s = (a.negative != b.negative)

end Datum

/-- A scalar type with the arithmetic of IEEE-754 in the format `f`, including infinities, NaN and the
signs of zeros. -/
structure Ieee754 (f : Format) (F : Type) [Add F] [Sub F] [Mul F] where
  /-- what a scalar stands for -/
  datum : F → Datum
  /-- the fused multiply-add `a * b + c` -/
  fma : F → F → F → F
  proper : ∀ a, (datum a).Proper f
  add_datum : ∀ a b, Datum.Sum f (datum a) (datum b) (datum (a + b))
  sub_datum : ∀ a b, Datum.Sum f (datum a) (datum b).opposite (datum (a - b))
  mul_datum : ∀ a b, Datum.Product f (datum a) (datum b) (datum (a * b))
  fma_datum : ∀ a b c, Datum.Fused f (datum a) (datum b) (datum c) (datum (fma a b c))

section

variable {F : Type} [Add F] [Sub F] [Mul F] {f : Format}

/-- `R` is the same arithmetic as `S`, seen only as numbers. -/
structure Ieee754.Refines (S : Ieee754 f F) (R : Ieee f F) : Prop where
  val : ∀ a, R.val a = (S.datum a).val
  fma : R.fma = S.fma

/-- A kernel that computes every element in one of the orders of `ProductOf`, up to which NaN it
returns. -/
def Exactly (S : Ieee754 f F) (R : Ieee f F) (kern : Kern F) : Prop :=
  ∀ site alpha ps beta c, ∃ t, ProductOf R alpha beta c ps t ∧
    S.datum (kern site alpha ps beta c) = S.datum (t.run R)

end

/-- What infinities and NaN among its operands mean for the element `d = alpha * Σ a b + beta * c` of a
product of `k` terms, in whatever order it is computed. -/
structure Datum.Carries (alpha : Datum) (k : ℕ) (a b : ℕ → Datum) (beta c d : Datum) : Prop where
  /-- a NaN, or an infinity times a zero, is never lost, even among terms that vanish -/
  term_nan : ∀ l < k, Invalid (a l) (b l) → d = nan
  /-- with an infinite term the result is that infinity (times the sign of `alpha`) or NaN -/
  term_inf : ∀ l < k, ∀ s, Infinite s (a l) (b l) → d = nan ∨ d = inf (s != alpha.negative)
  /-- infinite terms of both signs give NaN -/
  term_opposite : ∀ l < k, ∀ l' < k, Infinite true (a l) (b l) → Infinite false (a l') (b l') → d = nan
  alpha_nan : 0 < k → alpha = nan → d = nan
  alpha_zero : alpha.IsZero → ∀ l < k, ∀ s, Infinite s (a l) (b l) → d = nan
  alpha_inf : 0 < k → alpha.IsInf → ¬ d.IsFinite
  /-- the old element counts, unless `beta` is 0 -/
  old_nan : ¬ beta.IsZero → Invalid beta c → d = nan
  old_inf : ¬ beta.IsZero → ∀ s, Infinite s beta c → d = nan ∨ d = inf s
  /-- an infinite term and an infinite old element of opposite signs give NaN -/
  old_opposite : ¬ beta.IsZero → ∀ s, Infinite s beta c → ∀ l < k,
    Infinite (!s != alpha.negative) (a l) (b l) → d = nan
  /-- so a finite result has used finite numbers only -/
  finite : d.IsFinite → (0 < k → alpha.IsFinite) ∧ (∀ l < k, (a l).IsFinite ∧ (b l).IsFinite) ∧
    (¬ beta.IsZero → beta.IsFinite ∧ c.IsFinite)

end Householder.Spec
