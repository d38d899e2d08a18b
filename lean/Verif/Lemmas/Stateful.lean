import Verif.Spec.Stateful
import Verif.Lemmas.Traits

/-! # Lemmas on implementations that change -/

namespace Householder.Spec

variable {S α V D X κ β γ σ : Type} {Inv : S → Prop}

theorem bind_run (x : Act S β) (f : β → Act S γ) (s : S) :
    (x >>= f) s = (x s >>= fun r => f r.1 r.2) := rfl

theorem pure_run (b : β) (s : S) : (pure b : Act S β) s = .ok (b, s) := rfl

theorem act_ok (b : β) : (act (.ok b) : Act S β) = pure b := rfl

theorem act_bind (x : Out β) (f : β → Out γ) :
    (act (x >>= f) : Act S γ) = (act x >>= fun b => act (f b)) := by
  funext s
  rw [bind_run]
  cases x <;> rfl

theorem forAct_succ (n : Nat) (body : Nat → σ → Act S σ) (x : σ) :
    forAct (n + 1) body x = (forAct n body x >>= fun y => body n y) := by
  simp only [forAct, List.range_succ, List.foldlM_append, List.foldlM_cons, List.foldlM_nil, bind_pure]

theorem forAct_act (n : Nat) (body : Nat → σ → Out σ) (x : σ) :
    (forAct n (fun i y => act (body i y)) x : Act S σ) = act (forRange n body x) := by
  induction n with
  | zero => rfl
  | succ n ih => rw [forAct_succ, forRange_succ, ih, act_bind]

theorem always_pure {b : β} {P : β → Prop} (h : P b) : Always Inv (pure b) P :=
  fun s hs => .inr ⟨(b, s), rfl, hs, h⟩

theorem always_act {x : Out β} {P : β → Prop} (h : Gives x P) : Always Inv (act x) P := by
  intro s hs
  rcases h with rfl | ⟨b, rfl, hb⟩
  · exact .inl rfl
  · exact .inr ⟨(b, s), rfl, hs, hb⟩

theorem always_bind {x : Act S β} {f : β → Act S γ} {P : β → Prop} {Q : γ → Prop}
    (hx : Always Inv x P) (hf : ∀ b, P b → Always Inv (f b) Q) : Always Inv (x >>= f) Q := by
  intro s hs
  rw [bind_run]
  have h := hx s hs
  exact gives_bind (gives_ne_ub h) fun r e => hf r.1 (h.of_ok e).2 r.2 (h.of_ok e).1

theorem always_mono {x : Act S β} {P Q : β → Prop} (hx : Always Inv x P) (h : ∀ b, P b → Q b) :
    Always Inv x Q := by
  intro s hs
  rcases hx s hs with e | ⟨r, e, h1, h2⟩
  · exact .inl e
  · exact .inr ⟨r, e, h1, h _ h2⟩

theorem always_assert {p : Prop} [Decidable p] {f : Unit → Act S γ} {Q : γ → Prop}
    (h : p → Always Inv (f ()) Q) : Always Inv (act (Out.assert p) >>= f) Q := by
  by_cases hp : p
  · rw [Out.assert_pos hp]; exact h hp
  · rw [Out.assert_neg hp]; exact fun s _ => .inl rfl

theorem assertOr_pos {p : Prop} [Decidable p] {message : Act S Unit} (h : p) :
    assertOr p message = pure () := if_pos h

theorem assertOr_neg {p : Prop} [Decidable p] {message : Act S Unit} (h : ¬ p) :
    assertOr p message = message >>= fun _ => act .panic := if_neg h

/-- If the calls in the message return, the message does not matter. -/
theorem assertOr_quiet {p : Prop} [Decidable p] {message : Act S Unit}
    (h : ∀ s, ∃ t, message s = .ok ((), t)) : assertOr p message = act (Out.assert p) := by
  by_cases hp : p
  · rw [assertOr_pos hp, Out.assert_pos hp]; rfl
  · rw [assertOr_neg hp, Out.assert_neg hp]
    funext s
    obtain ⟨t, ht⟩ := h s
    rw [bind_run, ht]; rfl

theorem assertOr_pure {p : Prop} [Decidable p] :
    (assertOr p (pure ()) : Act S Unit) = act (Out.assert p) := assertOr_quiet fun s => ⟨s, rfl⟩

theorem always_assertOr {p : Prop} [Decidable p] {message : Act S Unit} {f : Unit → Act S γ}
    {Q : γ → Prop} (hm : Always Inv message fun _ => True) (h : p → Always Inv (f ()) Q) :
    Always Inv (assertOr p message >>= f) Q := by
  by_cases hp : p
  · rw [assertOr_pos hp]; exact h hp
  · rw [assertOr_neg hp, bind_assoc]
    exact always_bind hm fun _ _ s _ => .inl rfl

theorem always_ask {x : Act S β} {P : β → Prop} (h : Always Inv x P) :
    Always Inv (x >>= fun _ => pure ()) fun _ => True :=
  always_bind h fun _ _ => always_pure trivial

theorem always_dimension {r c : Nat} {d : Nat × Nat} {f : Unit → Act S γ} {Q : γ → Prop}
    (h : r < d.1 → c < d.2 → Always Inv (f ()) Q) : Always Inv (act (assert_dimension r c d) >>= f) Q := by
  by_cases hd : r < d.1 ∧ c < d.2
  · rw [assert_dimension_ok hd.1 hd.2]; exact h hd.1 hd.2
  · rw [assert_dimension_panic hd]; exact fun s _ => .inl rfl

theorem always_for {n : Nat} {body : Nat → σ → Act S σ} {x : σ} (P : Nat → σ → Prop) (h0 : P 0 x)
    (hs : ∀ i y, i < n → P i y → Always Inv (body i y) (P (i + 1))) :
    Always Inv (forAct n body x) (P n) := by
  induction n with
  | zero => exact always_pure h0
  | succ n ih =>
    rw [forAct_succ]
    exact always_bind (ih fun i y hi => hs i y (by omega)) fun y hy => hs n y (by omega) hy

/-- What an expression offers at every moment. -/
structure OffersAlways [Add α] [Mul α] (A : Acts S α V D X) (Inv : S → Prop) (kind : V → κ)
    (shape : V → Nat × Nat) (size : V → Nat) (mem : Mem α) (m : AnyMat α V D X) (l0 : V) : Prop where
  layout : Always Inv (A.layout m) fun l => kind l = kind l0 ∧ shape l = shape l0
  positions : ∀ r c, r < (shape l0).1 → c < (shape l0).2 →
    Always Inv (A.get_unchecked mem r c m) fun _ => True
  indices : ∀ mem', Extends mem mem' → ∀ i, i < size l0 →
    Always Inv (A.get1d_unchecked mem' i m) fun _ => True

theorem acts_addition_ok {A : Acts S α V D X} {kind : V → κ} {shape : V → Nat × Nat} {size : V → Nat}
    (hS : Steady A.lay Inv kind shape size) {a b m : AnyMat α V D X} {la lb : V} {s s' : S}
    (ha : Always Inv (A.layout a) fun l => kind l = kind la ∧ shape l = shape la)
    (hb : Always Inv (A.layout b) fun l => kind l = kind lb ∧ shape l = shape lb) (hs : Inv s)
    (h : A.addition_new a b s = .ok (m, s')) :
    ∃ l, m = .addition a b l ∧ kind l = kind la ∧ shape l = shape la ∧ shape la = shape lb := by
  have key : Always Inv (A.addition_new a b) fun m =>
      ∃ l, m = .addition a b l ∧ kind l = kind la ∧ shape l = shape la ∧ shape la = shape lb := by
    refine always_bind ha fun l1 h1 => always_bind (hS.dim l1) fun d1 e1 => always_bind hb fun l2 h2 =>
      always_bind (hS.dim l2) fun d2 e2 => always_assertOr (always_bind ha fun l _ =>
        always_bind (hS.dim l) fun _ _ => always_bind hb fun l _ => always_ask (hS.dim l)) fun e =>
      always_bind ha fun l3 h3 =>
      always_bind (hS.index l3) fun l hl => always_pure ⟨l, rfl, ?_, ?_, ?_⟩
    · rw [hl.1, h3.1]
    · rw [hl.2, h3.2]
    · rw [← h1.2, ← h2.2, ← e1, ← e2, e]
  exact ((key s hs).of_ok h).2

theorem grown_offers [Add α] [Mul α] {A : Acts S α V D X} {kind : V → κ} {shape : V → Nat × Nat}
    {size : V → Nat} (hS : Steady A.lay Inv kind shape size) {mem : Mem α} {m : AnyMat α V D X} {l0 : V}
    (h : Grown A Inv kind shape size mem m l0) : OffersAlways A Inv kind shape size mem m l0 := by
  induction h with
  | @base b n hl hd =>
    refine ⟨always_pure ⟨rfl, rfl⟩, fun r c hr hc => ?_, fun mem' hx i hi => ?_⟩
    · exact always_bind (hl.positions r c hr hc) fun k hk => hd.read mem ⟨le_refl _, fun _ _ => rfl⟩ k hk
    · exact always_bind (hl.indices i hi) fun k hk => hd.read mem' hx k hk
  | user hl hp hi => exact ⟨hl, hp, hi⟩
  | ref h ih => exact ⟨ih.layout, ih.positions, ih.indices⟩
  | @sum a b m la lb s s' ha hb hk hs h iha ihb =>
    obtain ⟨l, rfl, k1, d1, d2⟩ := acts_addition_ok hS iha.layout ihb.layout hs h
    have hsz : size la = size lb := hS.alike _ _ hk d2
    refine ⟨always_pure ⟨k1, d1⟩, fun r c hr hc => ?_, fun mem' hx i hi => ?_⟩
    · exact always_bind (iha.positions r c hr hc) fun _ _ =>
        always_bind (ihb.positions r c (d2 ▸ hr) (d2 ▸ hc)) fun _ _ => always_pure trivial
    · exact always_bind (iha.indices mem' hx i hi) fun _ _ =>
        always_bind (ihb.indices mem' hx i (hsz ▸ hi)) fun _ _ => always_pure trivial
  | @scaled m l0 h s ih =>
    exact ⟨ih.layout, fun r c hr hc => always_bind (ih.positions r c hr hc) fun _ _ => always_pure trivial,
      fun mem' hx i hi => always_bind (ih.indices mem' hx i hi) fun _ _ => always_pure trivial⟩

end Householder.Spec
