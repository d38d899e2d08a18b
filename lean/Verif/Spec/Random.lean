import Verif.Spec.Matrix
import Mathlib.Probability.Independence.Basic

/-!
# Random matrices

What it means that the elements of matrices are independent random numbers of a given distribution.
-/

namespace Householder.Spec

open MeasureTheory ProbabilityTheory

/-- The numbers `X i` are independent of each other (all of them together, not only in pairs), and
each has the distribution `μ`. -/
structure Iid {Ω S ι : Type} [MeasurableSpace Ω] [MeasurableSpace S] (P : Measure Ω) (μ : Measure S)
    (X : ι → Ω → S) : Prop where
  measurable : ∀ i, Measurable (X i)
  independent : iIndepFun X P
  law : ∀ i, P.map (X i) = μ

/-- An element of one of several matrices: which matrix, which row, which column. -/
abbrev Entry (ms : List BaseMatrix) : Type :=
  {q : Fin ms.length × Nat × Nat // Stored (ms.get q.1).layout q.2.1 q.2.2}

/-- Different numbers among independent numbers are independent. -/
theorem Iid.precomp {Ω S ι κ : Type} [MeasurableSpace Ω] [MeasurableSpace S] {P : Measure Ω}
    {μ : Measure S} {X : ι → Ω → S} (h : Iid P μ X) {g : κ → ι} (hg : g.Injective) :
    Iid P μ fun k => X (g k) :=
  ⟨fun k => h.measurable (g k), h.independent.precomp hg, fun k => h.law (g k)⟩

end Householder.Spec
