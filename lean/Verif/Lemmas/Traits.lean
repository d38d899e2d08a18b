import Verif.Spec.Traits
import Verif.Lemmas.Expr

/-! # Lemmas on implementations of the open traits -/

namespace Householder.Spec

variable {α V D X β γ κ : Type}

/-! ## Outcomes -/

theorem gives_ne_ub {o : Out β} {P : β → Prop} (h : Gives o P) : o ≠ .ub := by
  rcases h with h | ⟨b, h, -⟩ <;> simp [h]

theorem Gives.of_ok {o : Out β} {P : β → Prop} (h : Gives o P) {b : β} (hb : o = .ok b) : P b := by
  rcases h with h | ⟨b', h, hp⟩
  · rw [hb] at h; simp at h
  · rw [hb] at h; cases h; exact hp

theorem gives_bind {o : Out β} {f : β → Out γ} {P : γ → Prop} (ho : o ≠ .ub)
    (h : ∀ b, o = .ok b → Gives (f b) P) : Gives (o >>= f) P := by
  cases o with
  | ok b => exact h b rfl
  | panic => exact .inl rfl
  | ub => exact absurd rfl ho

theorem gives_iff {o : Out β} : Gives o (fun _ => True) ↔ o ≠ .ub := by
  cases o <;> simp [Gives]

theorem forRange_gives {σ : Type} {n : Nat} {body : Nat → σ → Out σ} {s : σ}
    (P : Nat → σ → Prop) (h0 : P 0 s)
    (hs : ∀ i s, i < n → P i s → Gives (body i s) (P (i + 1))) :
    Gives (forRange n body s) (P n) := by
  induction n with
  | zero => exact .inr ⟨s, rfl, h0⟩
  | succ n ih =>
    have h := ih fun i s hi => hs i s (by omega)
    rw [forRange_succ]
    exact gives_bind (gives_ne_ub h) fun b hb => hs n b (by omega) (h.of_ok hb)

/-! ## Expressions -/

/-- What an expression offers at the positions and indices that its layout announces. -/
structure Offers [Add α] [Mul α] (I : Impls α V D X) (mem : Mem α) (m : AnyMat α V D X) : Prop where
  dim : I.lay.dim (m.layout I) ≠ .ub
  number : I.lay.number_of_elements (m.layout I) ≠ .ub
  positions : ∀ d, I.lay.dim (m.layout I) = .ok d → ∀ r c, r < d.1 → c < d.2 →
    m.get_unchecked I mem r c ≠ .ub
  indices : ∀ k, I.lay.number_of_elements (m.layout I) = .ok k → ∀ i, i < k →
    m.get1d_unchecked I mem i ≠ .ub ∧
    ∀ mem', Extends mem mem' → m.get1d_unchecked I mem' i = m.get1d_unchecked I mem i

theorem addition_new_ok {I : Impls α V D X} {a b m : AnyMat α V D X}
    (h : AnyMat.addition_new I a b = .ok m) :
    ∃ l, m = .addition a b l ∧ I.lay.dim (a.layout I) = I.lay.dim (b.layout I) ∧
      I.lay.index_layout (a.layout I) = .ok l := by
  simp only [AnyMat.addition_new, Out.bind_eq_ok, Out.pure_eq, Out.assert_eq_ok] at h
  obtain ⟨d1, h1, d2, h2, _, rfl, l, hl, h⟩ := h
  cases h
  exact ⟨l, rfl, by rw [h1, h2], hl⟩

theorem built_offers [Add α] [Mul α] {I : Impls α V D X} {kind : V → κ} (hL : Logical I.lay kind)
    {mem : Mem α} {m : AnyMat α V D X} (h : Built I kind mem m) : Offers I mem m := by
  induction h with
  | @base b n hl hd =>
    refine ⟨gives_ne_ub hl.positions, gives_ne_ub hl.indices, ?_, ?_⟩
    · intro d e r c hr hc
      have hk := hl.positions.of_ok e r c hr hc
      exact gives_ne_ub (gives_bind (P := fun _ => True) (gives_ne_ub hk) fun k e =>
        gives_iff.2 (hd.read k (hk.of_ok e)))
    · intro k e i hi
      have hk := hl.indices.of_ok e i hi
      refine ⟨gives_ne_ub (gives_bind (P := fun _ => True) (gives_ne_ub hk) fun k e =>
        gives_iff.2 (hd.read k (hk.of_ok e))), fun mem' hx => ?_⟩
      simp only [AnyMat.get1d_unchecked, AnyBase.get1d_unchecked]
      rcases hk with hk | ⟨k, hk, hlt⟩
      · simp [hk]
      · simp only [hk, Out.bind_ok]; exact hd.stable mem' hx k hlt
  | user h =>
    exact ⟨gives_ne_ub h.positions, gives_ne_ub h.indices, fun d e => h.positions.of_ok e,
      fun k e => h.indices.of_ok e⟩
  | ref h ih => exact ⟨ih.dim, ih.number, ih.positions, ih.indices⟩
  | @sum a b m ha hb hk h iha ihb =>
    obtain ⟨l, rfl, hd, hl⟩ := addition_new_ok h
    obtain ⟨k1, d1⟩ := hL.index _ _ hl
    have n1 : I.lay.number_of_elements l = I.lay.number_of_elements (a.layout I) :=
      hL.number _ _ k1 d1
    have n2 : I.lay.number_of_elements (b.layout I) = I.lay.number_of_elements (a.layout I) :=
      hL.number _ _ hk.symm hd.symm
    refine ⟨by simpa only [AnyMat.layout, d1] using iha.dim,
      by simpa only [AnyMat.layout, n1] using iha.number, ?_, ?_⟩
    · intro d e r c hr hc
      simp only [AnyMat.layout, d1] at e
      have ea := iha.positions d e r c hr hc
      have eb := ihb.positions d (by rw [← hd]; exact e) r c hr hc
      exact gives_ne_ub (gives_bind (P := fun _ => True) ea fun _ _ =>
        gives_bind eb fun _ _ => .inr ⟨_, rfl, trivial⟩)
    · intro k e i hi
      simp only [AnyMat.layout, n1] at e
      obtain ⟨ea, sa⟩ := iha.indices k e i hi
      obtain ⟨eb, sb⟩ := ihb.indices k (by rw [n2]; exact e) i hi
      refine ⟨gives_ne_ub (gives_bind (P := fun _ => True) ea fun _ _ =>
        gives_bind eb fun _ _ => .inr ⟨_, rfl, trivial⟩), fun mem' hx => ?_⟩
      simp only [AnyMat.get1d_unchecked, sa mem' hx, sb mem' hx]
  | @scaled m h s ih =>
    refine ⟨ih.dim, ih.number, ?_, ?_⟩
    · intro d e r c hr hc
      exact gives_ne_ub (gives_bind (P := fun _ => True) (ih.positions d e r c hr hc) fun _ _ =>
        .inr ⟨_, rfl, trivial⟩)
    · intro k e i hi
      obtain ⟨ea, sa⟩ := ih.indices k e i hi
      refine ⟨gives_ne_ub (gives_bind (P := fun _ => True) ea fun _ _ =>
        .inr ⟨_, rfl, trivial⟩), fun mem' hx => ?_⟩
      simp only [AnyMat.get1d_unchecked, sa mem' hx]

theorem gives_assert {p : Prop} [Decidable p] {f : Unit → Out γ} {P : γ → Prop}
    (h : p → Gives (f ()) P) : Gives (Out.assert p >>= f) P :=
  gives_bind (by simp) fun _ e => h ((Out.assert_eq_ok _).1 e)

theorem gives_dimension {r c : Nat} {d : Nat × Nat} {f : Unit → Out γ} {P : γ → Prop}
    (h : r < d.1 → c < d.2 → Gives (f ()) P) : Gives (assert_dimension r c d >>= f) P := by
  by_cases hd : r < d.1 ∧ c < d.2
  · rw [assert_dimension_ok hd.1 hd.2]; exact h hd.1 hd.2
  · rw [assert_dimension_panic hd]; exact .inl rfl

end Householder.Spec
