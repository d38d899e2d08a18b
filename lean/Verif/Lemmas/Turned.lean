import Verif.Spec.Turned
import Verif.Lemmas.Monotone
import Verif.Props.Laws

/-!
# Rounded operations and changes of sign
-/

namespace Householder.Spec

open Datum Props

variable {f : Format}

theorem turn_add (s : Bool) (x y : ℚ) : turn s x + turn s y = turn s (x + y) := by
  cases s <;> simp [turn]; ring

theorem turn_mul (s t : Bool) (x y : ℚ) : turn s x * turn t y = turn (s != t) (x * y) := by
  cases s <;> cases t <;> simp [turn]

theorem turn_eq_zero (s : Bool) (x : ℚ) : turn s x = 0 ↔ x = 0 := by cases s <;> simp [turn]

namespace Datum

theorem Turned.cases {s : Bool} {a a' : Datum} (h : a.Turned s a') :
    (a = nan ∧ a' = nan) ∨ (∃ u, a = inf u ∧ a' = inf (u != s)) ∨
      ∃ u u' x, a = fin u x ∧ a' = fin u' (turn s x) := by
  cases a <;> cases a' <;> simp_all [Turned]

theorem turned_self (d : Datum) : d.Turned false d := by
  cases d <;> simp [Turned, turn]

theorem turned_zero {d : Datum} (h : d.IsZero) (s : Bool) : d.Turned s d := by
  obtain ⟨u, rfl⟩ := h
  cases s <;> simp [Turned, turn]

theorem turned_opposite (d : Datum) : d.Turned true d.opposite := by
  cases d <;> simp [Turned, turn, opposite]

theorem rounded_turned {s t t' : Bool} {z : ℚ} {r r' : Datum} (h : Rounded f t z r)
    (h' : Rounded f t' (turn s z) r') : r.Turned s r' := by
  have key : ∀ {t t' : Bool} {z : ℚ} {r r' : Datum}, Rounded f t z r → Rounded f t' z r' → r.Turned false r' := by
    intro t t' z r r' h h'
    unfold Rounded at h h'
    by_cases hl : |z| < f.limit
    · rw [if_pos hl] at h h'
      obtain ⟨y, rfl, hy⟩ := h
      obtain ⟨y', rfl, hy'⟩ := h'
      exact (Format.RoundsTo.unique f hy hy').symm
    · rw [if_neg hl] at h h'
      rw [h, h']
      exact turned_self _
  cases s
  · exact key h h'
  · have h1 := key (rounded_opposite h) h'
    rcases h1.cases with ⟨e, rfl⟩ | ⟨u, e, rfl⟩ | ⟨u, u', x, e, rfl⟩ <;> cases r <;> cases e <;>
      simp [Turned, turn]

theorem sum_turned {s : Bool} {a a' b b' r r' : Datum} (h : Datum.Sum f a b r) (h' : Datum.Sum f a' b' r')
    (ha : a.Turned s a') (hb : b.Turned s b') : r.Turned s r' := by
  rcases ha.cases with ⟨rfl, rfl⟩ | ⟨u, rfl, rfl⟩ | ⟨u, u', x, rfl, rfl⟩ <;>
    rcases hb.cases with ⟨rfl, rfl⟩ | ⟨v, rfl, rfl⟩ | ⟨v, v', y, rfl, rfl⟩
  case inr.inr.inr.inr =>
    simp only [Datum.Sum, turn_add] at h h'
    exact rounded_turned h h'
  all_goals
    simp only [Datum.Sum] at h h'
    subst h
    subst h'
  case inr.inl.inr.inl => cases s <;> cases u <;> cases v <;> simp [Turned]
  all_goals simp [Turned]

theorem proper_turn {s u u' : Bool} {x : ℚ} (h : (fin u x).Proper f) (h' : (fin u' (turn s x)).Proper f) (hx : x ≠ 0) :
    u' = (u != s) := by
  obtain ⟨-, h1, h2⟩ := h
  obtain ⟨-, h3, h4⟩ := h'
  cases s <;> simp only [turn, Bool.false_eq_true, if_false, if_true, neg_pos, neg_lt_zero] at h3 h4 <;>
    rcases lt_or_gt_of_ne hx with g | g
  · rw [h1 g, h3 g]; rfl
  · rw [h2 g, h4 g]; rfl
  · rw [h1 g, h4 g]; rfl
  · rw [h2 g, h3 g]; rfl

theorem product_turned {s t : Bool} {a a' b b' r r' : Datum} (h : Product f a b r) (h' : Product f a' b' r')
    (pa : a.Proper f) (pa' : a'.Proper f) (pb : b.Proper f) (pb' : b'.Proper f)
    (ha : a.Turned s a') (hb : b.Turned t b') : r.Turned (s != t) r' := by
  rcases ha.cases with ⟨rfl, rfl⟩ | ⟨u, rfl, rfl⟩ | ⟨u, u', x, rfl, rfl⟩ <;>
    rcases hb.cases with ⟨rfl, rfl⟩ | ⟨v, rfl, rfl⟩ | ⟨v, v', y, rfl, rfl⟩
  case inr.inr.inr.inr =>
    simp only [Product, turn_mul] at h h'
    exact rounded_turned h h'
  all_goals
    simp only [Product, turn_eq_zero] at h h'
    subst h
    subst h'
  case inr.inl.inr.inl => cases s <;> cases t <;> cases u <;> cases v <;> simp [Turned]
  case inr.inl.inr.inr =>
    by_cases hy : y = 0
    · simp [hy, Turned]
    · rw [if_neg hy, if_neg hy, proper_turn pb pb' hy]
      cases s <;> cases t <;> cases u <;> cases v <;> simp [Turned]
  case inr.inr.inr.inl =>
    by_cases hx : x = 0
    · simp [hx, Turned]
    · rw [if_neg hx, if_neg hx, proper_turn pa pa' hx]
      cases s <;> cases t <;> cases u <;> cases v <;> simp [Turned]
  all_goals simp [Turned]

theorem fused_turned {s t : Bool} {a a' b b' c c' r r' : Datum} (h : Fused f a b c r) (h' : Fused f a' b' c' r')
    (pa : a.Proper f) (pa' : a'.Proper f) (pb : b.Proper f) (pb' : b'.Proper f)
    (ha : a.Turned s a') (hb : b.Turned t b') (hc : c.Turned (s != t) c') : r.Turned (s != t) r' := by
  have slow : (∃ p, Product f a b p ∧ Datum.Sum f p c r) → (∃ p, Product f a' b' p ∧ Datum.Sum f p c' r') →
      r.Turned (s != t) r' := by
    rintro ⟨p, h1, h2⟩ ⟨p', h1', h2'⟩
    exact sum_turned h2 h2' (product_turned h1 h1' pa pa' pb pb' ha hb) hc
  rcases ha.cases with ⟨rfl, rfl⟩ | ⟨u, rfl, rfl⟩ | ⟨u, u', x, rfl, rfl⟩
  · exact slow h h'
  · exact slow h h'
  · rcases hb.cases with ⟨rfl, rfl⟩ | ⟨v, rfl, rfl⟩ | ⟨v, v', y, rfl, rfl⟩
    · exact slow h h'
    · exact slow h h'
    · rcases hc.cases with ⟨rfl, rfl⟩ | ⟨w, rfl, rfl⟩ | ⟨w, w', z, rfl, rfl⟩
      · simp only [Fused] at h h'
        subst h
        subst h'
        trivial
      · simp only [Fused] at h h'
        subst h
        subst h'
        rfl
      · simp only [Fused, turn_mul, turn_add] at h h'
        exact rounded_turned h h'

end Datum

/-- The sign that numbers of a kind get when the row gets the sign `p` and the column the sign `q`. -/
def Made.sign (p q : Bool) : Made → Bool
  | .scalar => false
  | .row => p
  | .column => q
  | .term => p != q

theorem Made.sign_times {p q : Bool} {i j k : Made} (h : i.times j = some k) :
    k.sign p q = (i.sign p q != j.sign p q) := by
  cases i <;> cases j <;> cases h <;> cases p <;> cases q <;> rfl

theorem Fp.turned {F : Type} [Add F] [Sub F] [Mul F] {S : Ieee754 f F} {R : Ieee f F} (hR : S.Refines R)
    {p q : Bool} {v v' : Operand → F}
    (hv : ∀ o k, o.Is k → (S.datum (v o)).Turned (k.sign p q) (S.datum (v' o))) (t : Fp Operand) (k : Made)
    (ht : t.Is k) : (S.datum ((t.fill v).run R)).Turned (k.sign p q) (S.datum ((t.fill v').run R)) := by
  induction t generalizing k with
  | lit o => exact hv o k ht
  | add s t ihs iht => exact sum_turned (S.add_datum _ _) (S.add_datum _ _) (ihs k ht.1) (iht k ht.2)
  | sub s t ihs iht =>
    refine sum_turned (S.sub_datum _ _) (S.sub_datum _ _) (ihs k ht.1) ?_
    have := iht k ht.2
    rcases this.cases with ⟨e, e'⟩ | ⟨u, e, e'⟩ | ⟨u, u', x, e, e'⟩ <;> rw [e, e'] <;>
      simp [opposite, Datum.Turned, turn]
    split_ifs <;> simp
  | mul s t ihs iht =>
    obtain ⟨i, j, e, h1, h2⟩ := ht
    rw [Made.sign_times e]
    exact product_turned (S.mul_datum _ _) (S.mul_datum _ _) (S.proper _) (S.proper _) (S.proper _)
      (S.proper _) (ihs i h1) (iht j h2)
  | fma s t r ihs iht ihr =>
    obtain ⟨⟨i, j, e, h1, h2⟩, h3⟩ := ht
    have h3 := ihr k h3
    simp only [Fp.fill, Fp.run, hR.fma]
    rw [Made.sign_times e] at h3 ⊢
    exact fused_turned (S.fma_datum _ _ _) (S.fma_datum _ _ _) (S.proper _) (S.proper _) (S.proper _)
      (S.proper _) (ihs i h1) (iht j h2) h3

end Householder.Spec
