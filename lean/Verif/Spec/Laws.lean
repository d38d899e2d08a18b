import Verif.Spec.Special

/-!
# The laws of algebra for expressions with floating-point elements
-/

namespace Householder.Spec

section

variable {F : Type} [Add F] [Sub F] [Mul F] {f : Format}

/-- Two expressions have the same elements, down to the signs of zeros, whenever both can be built and
have the same shape and type. -/
def AlikeIn [Target] (S : Ieee754 f F) (e e' : Ex F) : Prop :=
  ∀ (cfg : Cfg) (mem : Mem F) (m m' : Mat F), e.Typed → e'.Typed → (∀ b ∈ e.leaves, Sound b mem) →
    (∀ b ∈ e'.leaves, Sound b mem) → e.build = .ok m → e'.build = .ok m' → e.dim = e'.dim →
    e.kind = e'.kind → ∀ r c, (r, c) ∈ orderOf e.kind e.dim →
    ∃ v v', m.get cfg mem r c = .ok v ∧ m'.get cfg mem r c = .ok v' ∧ S.datum v = S.datum v'

/-- The laws of a module, for expressions. -/
structure ModuleLaws [Target] (S : Ieee754 f F) : Prop where
  comm : ∀ g h g' h' a b, AlikeIn S (.add g h a b) (.add g' h' b a)
  one : ∀ g h s a, S.datum s = .fin false 1 → AlikeIn S (.scale g h s a) a
  assoc : ∀ a b c, AlikeIn S (.add true true (.add true true a b) c) (.add true true a (.add true true b c))
  mul : ∀ s t a, AlikeIn S (.scale true true s (.scale true true t a)) (.scale true true (s * t) a)
  add_scale : ∀ s a b, AlikeIn S (.scale true true s (.add true true a b))
    (.add true true (.scale true true s a) (.scale true true s b))
  scale_add : ∀ s t a, AlikeIn S (.scale true true (s + t) a)
    (.add true true (.scale true true s a) (.scale true true t a))
  zero : ∀ s a b, S.datum s = .fin false 0 → AlikeIn S (.add true true a (.scale true true s b)) a

/-- What may be done to an expression without changing any element: operands of sums exchanged, factors
1 and pairs of factors -1 dropped, `a + a` written as `2 * a`, a factor -1 moved past another factor,
matrices passed by value or by reference. All this anywhere inside the expression. -/
inductive Rearranged (S : Ieee754 f F) : Ex F → Ex F → Prop
  | refl (a) : Rearranged S a a
  | symm {a b} : Rearranged S a b → Rearranged S b a
  | trans {a b c} : Rearranged S a b → Rearranged S b c → Rearranged S a c
  | add {g h g' h' a b a' b'} : Rearranged S a a' → Rearranged S b b' →
      Rearranged S (.add g h a b) (.add g' h' a' b')
  | scale {g h g' h' s s' a a'} : S.datum s = S.datum s' → Rearranged S a a' →
      Rearranged S (.scale g h s a) (.scale g' h' s' a')
  | ref {a} : Rearranged S (.ref a) a
  | comm {g h a b} : Rearranged S (.add g h a b) (.add g h b a)
  | one {g h s a} : S.datum s = .fin false 1 → Rearranged S (.scale g h s a) a
  | negate {g h g' h' s s' a} : S.datum s = .fin true (-1) → S.datum s' = .fin true (-1) →
      Rearranged S (.scale g h s (.scale g' h' s' a)) a
  | double {g h g' h' s a} : S.datum s = .fin false 2 → Rearranged S (.scale g h s a) (.add g' h' a a)
  | past {g h g' h' s t a} : S.datum s = .fin true (-1) →
      Rearranged S (.scale g h s (.scale g' h' t a)) (.scale g' h' t (.scale g h s a))

end

end Householder.Spec
