import Verif.Spec.Special
import Verif.Spec.Terms

/-!
# Complex numbers with infinities, NaN and signed zeros in their parts
-/

namespace Householder.Spec

namespace Datum

/-- The same, except perhaps for the sign of a zero. -/
def Almost (d d' : Datum) : Prop := d = d' ∨ (d.IsZero ∧ d'.IsZero)

end Datum

/-- Both parts finite. -/
def Cx.IsFinite (z : Cx Datum) : Prop := ∀ p, (z.part p).IsFinite

/-- Both parts zeros. -/
def Cx.IsZero (z : Cx Datum) : Prop := ∀ p, (z.part p).IsZero

/-- Complex numbers that the multiplication `(1 + 0i) * z` of `num_complex` returns unchanged: both parts
NaN; or both finite, a real part `-0` with an imaginary part that is not negative, an imaginary part `-0`
with a real part that is. -/
def Cx.Kept (z : Cx Datum) : Prop :=
  (z.re = .nan ∧ z.im = .nan) ∨
    (z.IsFinite ∧ (z.re = .fin true 0 → z.im.negative = false) ∧ (z.im = .fin true 0 → z.re.negative = true))

section

variable {F : Type} [Add F] [Sub F] [Mul F] {f : Format}

/-- What the two parts stand for. -/
def Ieee754.cx (S : Ieee754 f F) (z : Cx F) : Cx Datum := z.map S.datum

/-- Expressions that differ only in the order of the operands of sums, in borrows, and in scalars that stand
for the same numbers. -/
inductive Exchanged (S : Ieee754 f F) : Ex (Cx F) → Ex (Cx F) → Prop
  | refl (a) : Exchanged S a a
  | trans {a b c} : Exchanged S a b → Exchanged S b c → Exchanged S a c
  | add {g h g' h' a b a' b'} : Exchanged S a a' → Exchanged S b b' →
      Exchanged S (.add g h a b) (.add g' h' a' b')
  | scale {g h g' h' s s' a a'} : S.cx s = S.cx s' → Exchanged S a a' →
      Exchanged S (.scale g h s a) (.scale g' h' s' a')
  | ref {a} : Exchanged S (.ref a) a
  | comm {g h g' h' a b} : Exchanged S (.add g h a b) (.add g' h' b a)

/-- Everything that goes into part `p` of the value of an expression satisfies `P`, where `X b` is the
element of the matrix `b`: sums add the parts separately, a complex factor mixes them. -/
def Ex.Feeds (P : F → Prop) (X : BaseMatrix → Cx F) : Part → Ex (Cx F) → Prop
  | p, .leaf b => P ((X b).part p)
  | p, .ref a => a.Feeds P X p
  | p, .add _ _ a b => a.Feeds P X p ∧ b.Feeds P X p
  | _, .scale _ _ s a => (P s.re ∧ P s.im) ∧ a.Feeds P X .re ∧ a.Feeds P X .im

/-- The scalar `a` is among the operands of the operations. -/
def Fp.Uses (a : F) : Fp F → Prop
  | .lit b => b = a
  | .add s t => s.Uses a ∨ t.Uses a
  | .sub s t => s.Uses a ∨ t.Uses a
  | .mul s t => s.Uses a ∨ t.Uses a
  | .fma s t r => s.Uses a ∨ t.Uses a ∨ r.Uses a

/-- The operations use both parts of all numbers that an element of a product is made of; those of
`beta` and of the old element may be left out if `beta` is 0. -/
structure Fp.Thorough (S : Ieee754 f F) (alpha : Cx F) (ps : List (Cx F × Cx F)) (beta c : Cx F) (t : Fp F) :
    Prop where
  terms : ∀ p ∈ ps, ∀ q, t.Uses (p.1.part q) ∧ t.Uses (p.2.part q)
  alpha : ps ≠ [] → ∀ q, t.Uses (alpha.part q)
  old : ¬ (S.cx beta).IsZero → ∀ q, t.Uses (beta.part q) ∧ t.Uses (c.part q)

/-- A kernel that computes both parts of every element by operations that use both parts of all numbers
that the element is made of: `(a + bi)(c + di)` has all four in both parts. -/
def Thorough (S : Ieee754 f F) (R : Ieee f F) (kern : Kern (Cx F)) : Prop :=
  ∀ site alpha ps beta c, ∀ q : Part, ∃ t : Fp F, t.Thorough S alpha ps beta c ∧
    S.datum ((kern site alpha ps beta c).part q) = S.datum (t.run R)

end

/-- What infinities and NaN in the parts of its operands mean for the element
`d = alpha * Σ a b + beta * c` of a complex product of `k` terms. -/
structure Cx.Carries (alpha : Cx Datum) (k : ℕ) (a b : ℕ → Cx Datum) (beta c d : Cx Datum) : Prop where
  /-- a NaN in any part of any number makes both parts NaN -/
  term_nan : ∀ l < k, ∀ q, (a l).part q = .nan ∨ (b l).part q = .nan → d.re = .nan ∧ d.im = .nan
  alpha_nan : 0 < k → ∀ q, alpha.part q = .nan → d.re = .nan ∧ d.im = .nan
  old_nan : ¬ beta.IsZero → ∀ q, beta.part q = .nan ∨ c.part q = .nan → d.re = .nan ∧ d.im = .nan
  /-- if one part of the result is finite, then both parts of all numbers are -/
  finite : ∀ p, (d.part p).IsFinite → (0 < k → alpha.IsFinite) ∧ (∀ l < k, (a l).IsFinite ∧ (b l).IsFinite) ∧
    (¬ beta.IsZero → beta.IsFinite ∧ c.IsFinite)

end Householder.Spec
