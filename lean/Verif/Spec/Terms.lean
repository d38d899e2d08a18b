import Verif.Spec.Ieee
import Mathlib.Data.Multiset.Bind
import Mathlib.Algebra.BigOperators.Group.Multiset.Basic

/-!
# Any algorithm, and complex numbers

What a tree of rounded operations computes is described by the terms it expands to, so that any
algorithm that adds up the right terms is covered, whatever its structure. Complex numbers are pairs
with the arithmetic of `num_complex`, over any type with sums, differences and products: floating-point
numbers, exact numbers, trees and terms.
-/

namespace Householder.Spec

variable {F : Type} [Add F] [Sub F] [Mul F] {f : Format}

/-! ## Terms -/

/-- A sum of terms, in any order. -/
structure Terms where
  of : Multiset ℚ

namespace Terms

instance : Zero Terms := ⟨⟨0⟩⟩
instance : Add Terms := ⟨fun s t => ⟨s.of + t.of⟩⟩
instance : Sub Terms := ⟨fun s t => ⟨s.of + t.of.map (- ·)⟩⟩
/-- every term of one with every term of the other -/
instance : Mul Terms := ⟨fun s t => ⟨s.of.bind fun x => t.of.map (x * ·)⟩⟩

/-- One term. -/
def one (x : ℚ) : Terms := ⟨{x}⟩

/-- The terms other than 0. -/
def nonzero (s : Terms) : Multiset ℚ := s.of.filter (· ≠ 0)

/-- The sum. -/
def sum (s : Terms) : ℚ := s.of.sum

/-- The sum of the absolute values. -/
def size (s : Terms) : ℚ := (s.of.map (|·|)).sum

end Terms

namespace Fp

instance : Add (Fp F) := ⟨add⟩
instance : Sub (Fp F) := ⟨sub⟩
instance : Mul (Fp F) := ⟨mul⟩

/-- The terms that a tree adds up when products are expanded. -/
def terms (R : Ieee f F) : Fp F → Terms
  | lit a => .one ((R.val a).getD 0)
  | add s t => s.terms R + t.terms R
  | sub s t => s.terms R - t.terms R
  | mul s t => s.terms R * t.terms R
  | fma s t r => s.terms R * t.terms R + r.terms R

/-- The tree computes the sum of the terms `ts` from the numbers `xs`, their opposites, 0 and 1: it
expands to these terms (terms that are 0 do not count), the result gathers at most `n` roundings and
`U` units of underflow, and no operation goes beyond `L`. -/
structure Algorithm (R : Ieee f F) (xs : List ℚ) (ts : Terms) (n : ℕ) (U L : ℚ) (t : Fp F) : Prop where
  terms : (t.terms R).nonzero = ts.nonzero
  literals : t.Literals fun a => ∃ x ∈ 0 :: 1 :: xs, R.val a = some x ∨ R.val a = some (-x)
  roundings : t.roundings ≤ n
  underflow : t.reach R ≤ t.magnitude R + U * f.eta
  every : t.Every fun s => s.roundings ≤ n ∧ s.reach R ≤ L

end Fp

/-- The error bound for a sum of terms that add up to `size` in absolute value, with `n` roundings and
`U` units of underflow. -/
def Format.algorithmError (f : Format) (size : ℚ) (n : ℕ) (U : ℚ) : ℚ :=
  ((1 + f.u) ^ n - 1) * size + (1 + f.u) ^ n * (U * f.eta)

/-- `r` (`none`: infinite or NaN) is a good approximation of `x`, computed from the numbers `xs` with
terms that add up to `size` in absolute value, `n` roundings, `U` units of underflow, and intermediate
results up to `L`. -/
structure Format.Within (f : Format) (xs : List ℚ) (x size : ℚ) (n : ℕ) (U L : ℚ) (r : Option ℚ) :
    Prop where
  error : ∀ q, r = some q → |q - x| ≤ f.algorithmError size n U
  finite : (1 + f.u) ^ n * L < f.limit → ∃ q, r = some q
  whole : (∀ y ∈ xs, ∃ m : ℤ, y = m) → L ≤ 2 ^ f.p → r = some x

/-! ## Real products by any algorithm -/

/-- The terms of one element of a product. -/
def productTerms (alpha : ℚ) (ps : List (ℚ × ℚ)) (beta c : ℚ) : Terms :=
  (ps.map fun p => .one alpha * .one p.1 * .one p.2).foldr (· + ·) 0 + .one beta * .one c

/-- The numbers one element of a product is computed from. -/
def factors (alpha : ℚ) (ps : List (ℚ × ℚ)) (beta c : ℚ) : List ℚ :=
  alpha :: beta :: c :: ps.flatMap fun p => [p.1, p.2]

/-- The pairs of one element of a product. -/
def pairsAt (A B : Arr ℚ) (k i j : ℕ) : List (ℚ × ℚ) := (List.range k).map fun l => (A i l, B l j)

/-- A kernel that computes every element from finite scalars by some algorithm, with at most `n k`
roundings, `U` units of underflow and intermediate results up to `L`. -/
def AnyAlgorithm (R : Ieee f F) (n : ℕ → ℕ) (U L : ℚ → List (ℚ × ℚ) → ℚ → ℚ → ℚ) (kern : Kern F) : Prop :=
  ∀ (site : Site) (alpha : F) (ps : List (F × F)) (beta c : F) (al : ℚ) (qs : List (ℚ × ℚ)) (be z : ℚ),
    R.val alpha = some al → R.val beta = some be →
    R.val c = some z → List.Forall₂ (fun p q => R.val p.1 = some q.1 ∧ R.val p.2 = some q.2) ps qs →
    ∃ t : Fp F, t.Algorithm R (factors al qs be z) (productTerms al qs be z) (n ps.length) (U al qs be z)
      (L al qs be z) ∧ R.val (kern site alpha ps beta c) = R.val (t.run R)

/-- The underflow of the orders of `ProductOf`. -/
def orderUnderflow (alpha : ℚ) (ps : List (ℚ × ℚ)) : ℚ :=
  1 + ps.length * (1 + |alpha|) + (ps.map fun p => |p.2|).sum

/-- A bound of the intermediate results of these orders: of the sum of products, of the products
`alpha * a`, and of the whole. -/
def orderLargest (eta : ℚ) (alpha : ℚ) (ps : List (ℚ × ℚ)) (beta c : ℚ) : ℚ :=
  (ps.map fun p => |p.1| * |p.2| + eta).sum + (ps.map fun p => |alpha| * |p.1| + eta).sum +
    (|alpha| * (ps.map fun p => |p.1| * |p.2|).sum + |beta| * |c| + orderUnderflow alpha ps * eta)

/-! ## Complex numbers -/

/-- `num_complex::Complex` (`c32`, `c64`). -/
structure Cx (F : Type) where
  re : F
  im : F
  deriving DecidableEq, Repr

/-- The real or the imaginary part. -/
inductive Part where
  | re | im

namespace Cx

/-- One part of a complex number. -/
def part {F : Type} (z : Cx F) : Part → F
  | .re => z.re
  | .im => z.im

/-- `Complex::add` -/
instance : Add (Cx F) := ⟨fun a b => ⟨a.re + b.re, a.im + b.im⟩⟩

/-- `Complex::mul`: `(a.re * b.re - a.im * b.im, a.re * b.im + a.im * b.re)` -/
instance : Mul (Cx F) := ⟨fun a b => ⟨a.re * b.re - a.im * b.im, a.re * b.im + a.im * b.re⟩⟩

/-- `Complex::zero` -/
instance [Zero F] : Zero (Cx F) := ⟨⟨0, 0⟩⟩

/-- `Complex::one` -/
instance [Zero F] [One F] : One (Cx F) := ⟨⟨1, 0⟩⟩

/-- The same operation on both parts. -/
def map {F G : Type} (g : F → G) (z : Cx F) : Cx G := ⟨g z.re, g z.im⟩

/-- The number a complex scalar stands for. -/
def Stands (R : Ieee f F) (z : Cx F) (x : Cx ℚ) : Prop := R.val z.re = some x.re ∧ R.val z.im = some x.im

/-- The same, 0 for parts that are not finite. -/
def num (R : Ieee f F) (z : Cx F) : Cx ℚ := ⟨(R.val z.re).getD 0, (R.val z.im).getD 0⟩

/-- The product with absolute values throughout. -/
def sizeMul (a b : Cx ℚ) : Cx ℚ :=
  ⟨|a.re| * |b.re| + |a.im| * |b.im|, |a.re| * |b.im| + |a.im| * |b.re|⟩

end Cx

/-- The value of an expression at a position, where `X b` is the element of the matrix `b` and `v`
says what a scalar stands for. -/
def Ex.over {S K : Type} [Add K] [Mul K] (v : S → K) (X : BaseMatrix → S) : Ex S → K
  | .leaf b => v (X b)
  | .ref a => a.over v X
  | .add _ _ a b => a.over v X + b.over v X
  | .scale _ _ s a => v s * a.over v X

/-- `r` is what may be expected of the operations `t`, whose exact result should be `x`: within the
error bound if finite; finite if no operation can overflow; exact if the numbers are whole and small. -/
structure Fp.Rounded (R : Ieee f F) (t : Fp F) (x : ℚ) (r : Option ℚ) : Prop where
  error : ∀ q, r = some q →
    t.Finite R ∧ |q - x| ≤ (1 + f.u) ^ t.roundings * t.reach R - t.magnitude R
  finite : t.Finite R → (t.Every fun s => (1 + f.u) ^ s.roundings * s.reach R < f.limit) →
    ∃ q, r = some q
  whole : t.Whole R → (t.Every fun s => s.magnitude R ≤ 2 ^ f.p) → r = some x

/-- What one element of a complex product should be. -/
def cxProductAt (alpha : Cx ℚ) (A B : Arr (Cx ℚ)) (beta : Cx ℚ) (C : Arr (Cx ℚ)) (k i j : ℕ) : Cx ℚ :=
  alpha * ⟨∑ l ∈ Finset.range k, (A i l * B l j).re, ∑ l ∈ Finset.range k, (A i l * B l j).im⟩ +
    beta * C i j

/-- The same with absolute values throughout. -/
def cxSizeAt (alpha : Cx ℚ) (A B : Arr (Cx ℚ)) (beta : Cx ℚ) (C : Arr (Cx ℚ)) (k i j : ℕ) : Cx ℚ :=
  alpha.sizeMul ⟨∑ l ∈ Finset.range k, ((A i l).sizeMul (B l j)).re,
    ∑ l ∈ Finset.range k, ((A i l).sizeMul (B l j)).im⟩ + beta.sizeMul (C i j)

/-- The terms of the two parts of one element of a complex product. -/
def cxProductTerms (alpha : Cx ℚ) (ps : List (Cx ℚ × Cx ℚ)) (beta c : Cx ℚ) : Cx Terms :=
  (ps.map fun p => alpha.map .one * p.1.map .one * p.2.map .one).foldr (· + ·) ⟨0, 0⟩ +
    beta.map .one * c.map .one

/-- The numbers one element of a complex product is computed from. -/
def cxFactors (alpha : Cx ℚ) (ps : List (Cx ℚ × Cx ℚ)) (beta c : Cx ℚ) : List ℚ :=
  [alpha.re, alpha.im, beta.re, beta.im, c.re, c.im] ++
    ps.flatMap fun p => [p.1.re, p.1.im, p.2.re, p.2.im]

/-- The pairs of one element of a complex product. -/
def cxPairsAt (A B : Arr (Cx ℚ)) (k i j : ℕ) : List (Cx ℚ × Cx ℚ) :=
  (List.range k).map fun l => (A i l, B l j)

/-- A kernel that computes both parts of every element from finite scalars by some algorithm. -/
def AnyComplexAlgorithm (R : Ieee f F) (n : ℕ → ℕ)
    (U L : Cx ℚ → List (Cx ℚ × Cx ℚ) → Cx ℚ → Cx ℚ → ℚ) (kern : Kern (Cx F)) : Prop :=
  ∀ (site : Site) (alpha : Cx F) (ps : List (Cx F × Cx F)) (beta c : Cx F) (al : Cx ℚ)
    (qs : List (Cx ℚ × Cx ℚ)) (be z : Cx ℚ), alpha.Stands R al → beta.Stands R be → c.Stands R z →
    List.Forall₂ (fun p q => Cx.Stands R p.1 q.1 ∧ Cx.Stands R p.2 q.2) ps qs →
    ∃ s t : Fp F, s.Algorithm R (cxFactors al qs be z) (cxProductTerms al qs be z).re (n ps.length)
        (U al qs be z) (L al qs be z) ∧
      t.Algorithm R (cxFactors al qs be z) (cxProductTerms al qs be z).im (n ps.length)
        (U al qs be z) (L al qs be z) ∧
      R.val (kern site alpha ps beta c).re = R.val (s.run R) ∧
      R.val (kern site alpha ps beta c).im = R.val (t.run R)

/-- The underflow of the loop of the unit tests with complex scalars: two units for `c * beta`, and
for every term two in `alpha * a`, which `b` enlarges, and two in its product with `b`. -/
def loopUnderflow (ps : List (Cx ℚ × Cx ℚ)) : ℚ :=
  2 + (ps.map fun p => 2 * (1 + |p.2.re| + |p.2.im|)).sum

/-- A bound of the intermediate results of that loop. -/
def loopLargest (eta : ℚ) (alpha : Cx ℚ) (ps : List (Cx ℚ × Cx ℚ)) (beta c : Cx ℚ) : ℚ :=
  (ps.map fun p => (alpha.sizeMul p.1).re + (alpha.sizeMul p.1).im + 4 * eta).sum +
    ((ps.map fun p => ((alpha.sizeMul p.1).sizeMul p.2).re + ((alpha.sizeMul p.1).sizeMul p.2).im).sum +
      ((beta.sizeMul c).re + (beta.sizeMul c).im)) + loopUnderflow ps * eta

end Householder.Spec
