import Verif.Spec.StatefulExact
import Verif.Lemmas.Stateful
import Verif.Lemmas.TraitsExact

/-!
# Lemmas for the exact conditions on implementations that change
-/

namespace Householder.Spec

open Props

variable {S α β γ δ V D X : Type}

theorem answered_append {xs ys : List (Act S β)} {s u : S} :
    Answered (xs ++ ys) s u ↔ ∃ t, Answered xs s t ∧ Answered ys t u := by
  induction xs generalizing s with
  | nil => simp [Answered]
  | cons x xs ih =>
    simp only [List.cons_append, Answered, ih]
    constructor
    · rintro ⟨v, s', h, t, h1, h2⟩
      exact ⟨t, ⟨v, s', h, h1⟩, h2⟩
    · rintro ⟨t, ⟨v, s', h, h1⟩, h2⟩
      exact ⟨v, s', h, t, h1, h2⟩

theorem faultyRun_nil {s : S} : ¬ FaultyRun ([] : List (Act S β)) s := by
  rintro ⟨pre, x, post, t, h, -⟩
  simp at h

theorem faultyRun_cons {x : Act S β} {xs : List (Act S β)} {s : S} :
    FaultyRun (x :: xs) s ↔ x s = .ub ∨ ∃ v t, x s = .ok (v, t) ∧ FaultyRun xs t := by
  constructor
  · rintro ⟨pre, y, post, t, h, h1, h2⟩
    cases pre with
    | nil =>
      obtain ⟨rfl, -⟩ := List.cons.inj h
      cases (show s = t from h1)
      exact .inl h2
    | cons z pre =>
      obtain ⟨rfl, h'⟩ := List.cons.inj h
      obtain ⟨v, s', h3, h4⟩ := h1
      exact .inr ⟨v, s', h3, pre, y, post, t, h', h4, h2⟩
  · rintro (h | ⟨v, t, h, pre, y, post, u, rfl, h1, h2⟩)
    · exact ⟨[], x, xs, s, rfl, rfl, h⟩
    · exact ⟨x :: pre, y, post, u, rfl, ⟨v, t, h, h1⟩, h2⟩

theorem faultyRun_append {xs ys : List (Act S β)} {s : S} :
    FaultyRun (xs ++ ys) s ↔ FaultyRun xs s ∨ ∃ t, Answered xs s t ∧ FaultyRun ys t := by
  induction xs generalizing s with
  | nil => simp [Answered, faultyRun_nil]
  | cons x xs ih =>
    rw [List.cons_append, faultyRun_cons, faultyRun_cons]
    simp only [ih, Answered]
    constructor
    · rintro (h | ⟨v, t, h, h1 | ⟨u, h1, h2⟩⟩)
      · exact .inl (.inl h)
      · exact .inl (.inr ⟨v, t, h, h1⟩)
      · exact .inr ⟨u, ⟨v, t, h, h1⟩, h2⟩
    · rintro ((h | ⟨v, t, h, h1⟩) | ⟨u, ⟨v, t, h, h1⟩, h2⟩)
      · exact .inl h
      · exact .inr ⟨v, t, h, .inl h1⟩
      · exact .inr ⟨v, t, h, .inr ⟨u, h1, h2⟩⟩

/-- A computation that, started in this state, needs exactly these answers. -/
structure NeedsRun (o : Out (γ × S)) (xs : List (Act S β)) (s : S) : Prop where
  ub : o = .ub ↔ FaultyRun xs s
  ok : ∀ t, (∃ v, o = .ok (v, t)) ↔ Answered xs s t

theorem NeedsRun.one (x : Act S β) (s : S) : NeedsRun (x s) [x] s :=
  ⟨by simp [faultyRun_cons, faultyRun_nil], fun t => by simp [Answered]⟩

theorem NeedsRun.none (v : γ) (s : S) : NeedsRun (.ok (v, s)) ([] : List (Act S β)) s :=
  ⟨by simp [faultyRun_nil], fun t => by simp [Answered]⟩

theorem NeedsRun.bind {o : Out (γ × S)} {f : γ × S → Out (δ × S)} {xs ys : List (Act S β)} {s : S}
    (h : NeedsRun o xs s) (hf : ∀ v t, o = .ok (v, t) → NeedsRun (f (v, t)) ys t) :
    NeedsRun (o >>= f) (xs ++ ys) s := by
  constructor
  · rw [Out.bind_eq_ub, faultyRun_append, h.ub]
    refine or_congr_right ⟨?_, ?_⟩
    · rintro ⟨⟨v, t⟩, h1, h2⟩
      exact ⟨t, (h.ok t).1 ⟨v, h1⟩, (hf v t h1).ub.1 h2⟩
    · rintro ⟨t, h1, h2⟩
      obtain ⟨v, h1⟩ := (h.ok t).2 h1
      exact ⟨(v, t), h1, (hf v t h1).ub.2 h2⟩
  · intro u
    rw [answered_append]
    simp only [Out.bind_eq_ok]
    constructor
    · rintro ⟨w, ⟨v, t⟩, h1, h2⟩
      exact ⟨t, (h.ok t).1 ⟨v, h1⟩, ((hf v t h1).ok u).1 ⟨w, h2⟩⟩
    · rintro ⟨t, h1, h2⟩
      obtain ⟨v, h1⟩ := (h.ok t).2 h1
      obtain ⟨w, h2⟩ := ((hf v t h1).ok u).2 h2
      exact ⟨w, (v, t), h1, h2⟩

theorem NeedsRun.then_ok {o : Out (γ × S)} {f : γ × S → Out (δ × S)} {xs : List (Act S β)} {s : S}
    (h : NeedsRun o xs s) (hf : ∀ v t, o = .ok (v, t) → ∃ w, f (v, t) = .ok (w, t)) :
    NeedsRun (o >>= f) xs s := by
  have := h.bind (f := f) (ys := []) fun v t hv => by
    obtain ⟨w, hw⟩ := hf v t hv
    rw [hw]; exact .none w t
  simpa using this

theorem needsRun2d [Add α] [Mul α] (A : Acts S α V D X) (mem : Mem α) (r c : Nat)
    (m : AnyMat α V D X) (s : S) :
    NeedsRun (A.get_unchecked mem r c m s) ((sources m).map (call2d A mem r c)) s := by
  induction m generalizing s with
  | base b =>
    have : A.get_unchecked mem r c (.base b) = call2d A mem r c (.inl b) := by
      funext s
      simp only [Acts.get_unchecked, Acts.base_get_unchecked, call2d, bind_run]
      cases A.lay.convert_2d_raw b.layout r c s <;> rfl
    rw [this]; exact .one _ _
  | user x => exact .one _ _
  | ref m ih => exact ih s
  | addition m1 m2 l ih1 ih2 =>
    simp only [sources, List.map_append]
    exact (ih1 s).bind fun v t _ => (ih2 t).then_ok fun w u _ => ⟨_, rfl⟩
  | scalarMult m x ih => exact (ih s).then_ok fun w u _ => ⟨_, rfl⟩

theorem needsRun1d [Add α] [Mul α] (A : Acts S α V D X) (mem : Mem α) (i : Nat)
    (m : AnyMat α V D X) (s : S) :
    NeedsRun (A.get1d_unchecked mem i m s) ((sources m).map (call1d A mem i)) s := by
  induction m generalizing s with
  | base b =>
    have : A.get1d_unchecked mem i (.base b) = call1d A mem i (.inl b) := by
      funext s
      simp only [Acts.get1d_unchecked, Acts.base_get1d_unchecked, call1d, bind_run]
      cases A.lay.convert_1d_raw b.layout i s <;> rfl
    rw [this]; exact .one _ _
  | user x => exact .one _ _
  | ref m ih => exact ih s
  | addition m1 m2 l ih1 ih2 =>
    simp only [sources, List.map_append]
    exact (ih1 s).bind fun v t _ => (ih2 t).then_ok fun w u _ => ⟨_, rfl⟩
  | scalarMult m x ih => exact (ih s).then_ok fun w u _ => ⟨_, rfl⟩

/-- A call checked against a dimension. -/
theorem ub_dimension_run {x : Act S (Nat × Nat)} {y : Act S β} {r c : Nat} {P : S → Prop} {s : S}
    (h : ∀ t, y t = .ub ↔ P t) :
    (x >>= fun d => act (assert_dimension r c d) >>= fun _ => y) s = .ub ↔
      x s = .ub ∨ ∃ d t, x s = .ok (d, t) ∧ r < d.1 ∧ c < d.2 ∧ P t := by
  rw [bind_run, Out.bind_eq_ub]
  refine or_congr_right ?_
  rw [Prod.exists]
  refine exists_congr fun d => exists_congr fun t => and_congr_right fun _ => ?_
  rw [bind_run]
  unfold assert_dimension
  by_cases h1 : r < d.1
  · by_cases h2 : c < d.2
    · rw [Out.assert_pos h1, Out.bind_ok, Out.assert_pos h2]
      simp [h1, h2, act, h]
    · rw [Out.assert_pos h1, Out.bind_ok, Out.assert_neg h2]
      simp [h2, act]
  · rw [Out.assert_neg h1]
    simp [h1, act]

/-- A call checked against a number of elements. -/
theorem ub_number_run {x : Act S Nat} {y : Act S β} {i : Nat} {P : S → Prop} {s : S}
    (h : ∀ t, y t = .ub ↔ P t) :
    (x >>= fun n => act (assert_dimension1d i n) >>= fun _ => y) s = .ub ↔
      x s = .ub ∨ ∃ n t, x s = .ok (n, t) ∧ i < n ∧ P t := by
  rw [bind_run, Out.bind_eq_ub]
  refine or_congr_right ?_
  rw [Prod.exists]
  refine exists_congr fun d => exists_congr fun t => and_congr_right fun _ => ?_
  rw [bind_run]
  unfold assert_dimension1d
  by_cases h1 : i < d
  · rw [Out.assert_pos h1]
    simp [h1, act, h]
  · rw [Out.assert_neg h1]
    simp [h1, act]

/-! ## Over the containers of the crate -/

theorem hits_append {as bs : List (Aim S)} {s u : S} :
    Hits (as ++ bs) s u ↔ ∃ t, Hits as s t ∧ Hits bs t u := by
  induction as generalizing s with
  | nil => simp [Hits]
  | cons x xs ih =>
    simp only [List.cons_append, Hits, ih]
    constructor
    · rintro ⟨v, s', h, hk, t, h1, h2⟩
      exact ⟨t, ⟨v, s', h, hk, h1⟩, h2⟩
    · rintro ⟨t, ⟨v, s', h, hk, h1⟩, h2⟩
      exact ⟨v, s', h, hk, t, h1, h2⟩

theorem misses_nil {s : S} : ¬ Misses ([] : List (Aim S)) s := by
  rintro ⟨pre, a, post, t, k, t', h, -⟩
  simp at h

theorem misses_cons {a : Aim S} {as : List (Aim S)} {s : S} :
    Misses (a :: as) s ↔ ∃ k t, a.index s = .ok (k, t) ∧ (a.len ≤ k ∨ k < a.len ∧ Misses as t) := by
  constructor
  · rintro ⟨pre, b, post, t, k, t', h, h1, h2, h3⟩
    cases pre with
    | nil =>
      obtain ⟨rfl, -⟩ := List.cons.inj h
      cases (show s = t from h1)
      exact ⟨k, t', h2, .inl h3⟩
    | cons z pre =>
      obtain ⟨rfl, h'⟩ := List.cons.inj h
      obtain ⟨j, s', h4, hj, h5⟩ := h1
      exact ⟨j, s', h4, .inr ⟨hj, pre, b, post, t, k, t', h', h5, h2, h3⟩⟩
  · rintro ⟨k, t, h, hk | ⟨hk, pre, b, post, u, j, u', rfl, h1, h2, h3⟩⟩
    · exact ⟨[], a, as, s, k, t, rfl, rfl, h, hk⟩
    · exact ⟨a :: pre, b, post, u, j, u', rfl, ⟨k, t, h, hk, h1⟩, h2, h3⟩

theorem misses_append {as bs : List (Aim S)} {s : S} :
    Misses (as ++ bs) s ↔ Misses as s ∨ ∃ t, Hits as s t ∧ Misses bs t := by
  induction as generalizing s with
  | nil => simp [Hits, misses_nil]
  | cons x xs ih =>
    rw [List.cons_append, misses_cons, misses_cons]
    simp only [ih, Hits]
    constructor
    · rintro ⟨k, t, h, h1 | ⟨hk, h1 | ⟨u, h1, h2⟩⟩⟩
      · exact .inl ⟨k, t, h, .inl h1⟩
      · exact .inl ⟨k, t, h, .inr ⟨hk, h1⟩⟩
      · exact .inr ⟨u, ⟨k, t, h, hk, h1⟩, h2⟩
    · rintro (⟨k, t, h, h1 | ⟨hk, h1⟩⟩ | ⟨u, ⟨k, t, h, hk, h1⟩, h2⟩)
      · exact ⟨k, t, h, .inl h1⟩
      · exact ⟨k, t, h, .inr ⟨hk, .inl h1⟩⟩
      · exact ⟨k, t, h, .inr ⟨hk, .inr ⟨u, h1, h2⟩⟩⟩

/-- A computation that, started in this state, uses exactly these indices. -/
structure Aims (o : Out (γ × S)) (as : List (Aim S)) (s : S) : Prop where
  ub : o = .ub ↔ Misses as s
  ok : ∀ t, (∃ v, o = .ok (v, t)) ↔ Hits as s t

theorem Aims.none (v : γ) (s : S) : Aims (.ok (v, s)) [] s :=
  ⟨by simp [misses_nil], fun t => by simp [Hits]⟩

theorem Aims.bind {o : Out (γ × S)} {f : γ × S → Out (δ × S)} {as bs : List (Aim S)} {s : S}
    (h : Aims o as s) (hf : ∀ v t, o = .ok (v, t) → Aims (f (v, t)) bs t) :
    Aims (o >>= f) (as ++ bs) s := by
  constructor
  · rw [Out.bind_eq_ub, misses_append, h.ub]
    refine or_congr_right ⟨?_, ?_⟩
    · rintro ⟨⟨v, t⟩, h1, h2⟩
      exact ⟨t, (h.ok t).1 ⟨v, h1⟩, (hf v t h1).ub.1 h2⟩
    · rintro ⟨t, h1, h2⟩
      obtain ⟨v, h1⟩ := (h.ok t).2 h1
      exact ⟨(v, t), h1, (hf v t h1).ub.2 h2⟩
  · intro u
    rw [hits_append]
    simp only [Out.bind_eq_ok]
    constructor
    · rintro ⟨w, ⟨v, t⟩, h1, h2⟩
      exact ⟨t, (h.ok t).1 ⟨v, h1⟩, ((hf v t h1).ok u).1 ⟨w, h2⟩⟩
    · rintro ⟨t, h1, h2⟩
      obtain ⟨v, h1⟩ := (h.ok t).2 h1
      obtain ⟨w, h2⟩ := ((hf v t h1).ok u).2 h2
      exact ⟨w, (v, t), h1, h2⟩

theorem Aims.then_ok {o : Out (γ × S)} {f : γ × S → Out (δ × S)} {as : List (Aim S)} {s : S}
    (h : Aims o as s) (hf : ∀ v t, o = .ok (v, t) → ∃ w, f (v, t) = .ok (w, t)) :
    Aims (o >>= f) as s := by
  have := h.bind (f := f) (bs := []) fun v t hv => by
    obtain ⟨w, hw⟩ := hf v t hv
    rw [hw]; exact .none w t
  simpa using this

theorem Aims.one {x : Act S Nat} {g : Nat → Out β} {n : Nat} {s : S} (hx : x s ≠ .ub)
    (h1 : ∀ k, k < n → ∃ v, g k = .ok v) (h2 : ∀ k, ¬ k < n → g k = .ub) :
    Aims ((x >>= fun k => act (g k)) s) [⟨x, n⟩] s := by
  rw [bind_run]
  cases h : x s with
  | ub => exact absurd h hx
  | panic => exact ⟨by simp [misses_cons, h], fun t => by simp [Hits, h]⟩
  | ok r =>
    obtain ⟨k, t⟩ := r
    by_cases hk : k < n
    · obtain ⟨v, hv⟩ := h1 k hk
      refine ⟨?_, fun u => ?_⟩
      · simp [misses_cons, misses_nil, h, act, hv, hk]
      · simp [Hits, h, act, hv, hk]
    · refine ⟨?_, fun u => ?_⟩
      · simp [misses_cons, misses_nil, h, act, h2 k hk, Nat.le_of_not_lt hk]
      · simp [Hits, h, act, h2 k hk, hk]

/-- Loops. -/
theorem Aims.for {σ : Type} {body : Nat → σ → Act S σ} {as : Nat → List (Aim S)} (P : σ → Prop)
    (hb : ∀ i x s, P x → Aims (body i x s) (as i) s)
    (hP : ∀ i x y s t, P x → body i x s = .ok (y, t) → P y) {x : σ} (hx : P x) (n : Nat) (s : S) :
    Aims (forAct n body x s) ((List.range n).flatMap as) s ∧
      ∀ y t, forAct n body x s = .ok (y, t) → P y := by
  induction n with
  | zero => exact ⟨.none x s, fun y t h => by cases h; exact hx⟩
  | succ n ih =>
    rw [forAct_succ, bind_run, List.range_succ, List.flatMap_append]
    refine ⟨ih.1.bind fun y t hy => ?_, fun y t h => ?_⟩
    · simpa using hb n y t (ih.2 y t hy)
    · obtain ⟨⟨z, u⟩, h1, h2⟩ := Out.bind_eq_ok.1 h
      exact hP n z y u t (ih.2 z u h1) h2

variable {L : LayoutActs S V}

theorem bind_ok_ub {x : Out (β × S)} (h : (x >>= fun r => .ok r.1) ≠ .ub) : x ≠ .ub := by
  rintro rfl
  exact h rfl

theorem NeverUndefined.dim (h : NeverUndefined L) (l : V) (s : S) : L.dim l s ≠ .ub :=
  bind_ok_ub ((h s).dim l)
theorem NeverUndefined.number (h : NeverUndefined L) (l : V) (s : S) :
    L.number_of_elements l s ≠ .ub := bind_ok_ub ((h s).number_of_elements l)
theorem NeverUndefined.convert1 (h : NeverUndefined L) (l : V) (i : Nat) (s : S) :
    L.convert_1d_raw l i s ≠ .ub := bind_ok_ub ((h s).convert_1d_raw l i)
theorem NeverUndefined.convert2 (h : NeverUndefined L) (l : V) (r c : Nat) (s : S) :
    L.convert_2d_raw l r c s ≠ .ub := bind_ok_ub ((h s).convert_2d_raw l r c)
theorem NeverUndefined.from_dimension (h : NeverUndefined L) (l : V) (d : Nat × Nat) (s : S) :
    L.from_dimension l d s ≠ .ub := bind_ok_ub ((h s).from_dimension l d)

theorem layout_over (m : AnyMat α V Container Empty) (s : S) :
    (actsOverCrate L α).layout m s = .ok (topLayout m, s) := by
  induction m with
  | base b => rfl
  | user x => exact x.elim
  | ref m ih => exact ih
  | addition a b l _ _ => rfl
  | scalarMult m x ih => exact ih

theorem aims2d_read [Add α] [Mul α] (hL : NeverUndefined L) {mem : Mem α} {r c : Nat}
    (m : AnyMat α V Container Empty) (h : ∀ b ∈ origins m, Backed b.data mem) (s : S) :
    Aims ((actsOverCrate L α).get_unchecked mem r c m s) (aims2d L m r c) s := by
  induction m generalizing s with
  | base b =>
    exact Aims.one (hL.convert2 _ _ _ _)
      (fun k hk => get_unchecked_backed (h b (by simp [origins_base])) hk) fun k hk => by
        simp [crateContainers, Container.get_unchecked, hk]
  | user x => exact x.elim
  | ref m ih => exact ih h s
  | addition m1 m2 l ih1 ih2 =>
    simp only [origins_addition, List.mem_append] at h
    simp only [aims2d, origins_addition, List.map_append]
    exact (ih1 (fun b hb => h b (.inl hb)) s).bind fun v t _ =>
      (ih2 (fun b hb => h b (.inr hb)) t).then_ok fun w u _ => ⟨_, rfl⟩
  | scalarMult m x ih => exact (ih h s).then_ok fun w u _ => ⟨_, rfl⟩

theorem aims1d_read [Add α] [Mul α] (hL : NeverUndefined L) {mem : Mem α} {i : Nat}
    (m : AnyMat α V Container Empty) (h : ∀ b ∈ origins m, Backed b.data mem) (s : S) :
    Aims ((actsOverCrate L α).get1d_unchecked mem i m s) (aims1d L m i) s := by
  induction m generalizing s with
  | base b =>
    exact Aims.one (hL.convert1 _ _ _)
      (fun k hk => get_unchecked_backed (h b (by simp [origins_base])) hk) fun k hk => by
        simp [crateContainers, Container.get_unchecked, hk]
  | user x => exact x.elim
  | ref m ih => exact ih h s
  | addition m1 m2 l ih1 ih2 =>
    simp only [origins_addition, List.mem_append] at h
    simp only [aims1d, origins_addition, List.map_append]
    exact (ih1 (fun b hb => h b (.inl hb)) s).bind fun v t _ =>
      (ih2 (fun b hb => h b (.inr hb)) t).then_ok fun w u _ => ⟨_, rfl⟩
  | scalarMult m x ih => exact (ih h s).then_ok fun w u _ => ⟨_, rfl⟩

theorem aims2d_place (hL : NeverUndefined L) (b : AnyBase V Container) (r c : Nat) (s : S) :
    Aims ((actsOverCrate L α).get_unchecked_mut b r c s)
      [⟨L.convert_2d_raw b.layout r c, b.data.len⟩] s :=
  Aims.one (hL.convert2 _ _ _ _)
    (fun k hk => ⟨_, by simp [crateContainers, Container.get_unchecked_mut, hk]; rfl⟩)
    fun k hk => by simp [crateContainers, Container.get_unchecked_mut, hk]

theorem aims1d_place (hL : NeverUndefined L) (b : AnyBase V Container) (i : Nat) (s : S) :
    Aims ((actsOverCrate L α).get1d_unchecked_mut b i s)
      [⟨L.convert_1d_raw b.layout i, b.data.len⟩] s :=
  Aims.one (hL.convert1 _ _ _)
    (fun k hk => ⟨_, by simp [crateContainers, Container.get_unchecked_mut, hk]; rfl⟩)
    fun k hk => by simp [crateContainers, Container.get_unchecked_mut, hk]

theorem misses_one {a : Aim S} {s : S} :
    Misses [a] s ↔ ∃ k t, a.index s = .ok (k, t) ∧ a.len ≤ k := by
  simp [misses_cons, misses_nil]

theorem place_holds_run {b : AnyBase V Container} {i : Nat} {p : Loc} {s t : S}
    (h : (actsOverCrate L α).get1d_unchecked_mut b i s = .ok (p, t)) : Props.Holds b.data p := by
  simp only [Acts.get1d_unchecked_mut, bind_run] at h
  obtain ⟨⟨k, u⟩, -, hk⟩ := Out.bind_eq_ok.1 h
  simp only [DataImpl.still, crateContainers, Container.get_unchecked_mut, act] at hk
  split at hk
  · cases hk; exact ⟨rfl, by simp, by simp; omega⟩
  · cases hk

theorem act_run (x : Out β) (s : S) : act x s = (x >>= fun b => .ok (b, s)) := rfl

theorem aims_for_each {σ : Type} (hL : NeverUndefined L) {b : AnyBase V Container} {mem : Mem α}
    (h : Backed b.data mem) (f : σ → α → σ × α) (x : σ) (n : Nat) (s : S) :
    Aims (forAct n (fun index (st : σ × Mem α) => do
      let p ← (actsOverCrate L α).get1d_unchecked_mut b index
      let v ← act (st.2.read p)
      let r := f st.1 v
      let mem' ← act (st.2.write p r.2)
      return (r.1, mem')) (x, mem) s)
      ((List.range n).flatMap fun i => [⟨L.convert_1d_raw b.layout i, b.data.len⟩]) s := by
  refine (Aims.for (fun st : σ × Mem α => Backed b.data st.2) (fun i st s hst => ?_)
    (fun i st st' s t hst hb => ?_) h n s).1
  · refine (aims1d_place hL b i s).then_ok fun p t hp => ?_
    have hp' := place_holds_run hp
    obtain ⟨v, hv⟩ := read_in (hst.holds hp')
    obtain ⟨m, hm⟩ := write_in (mem := st.2) (f st.1 v).2 (hst.holds hp')
    exact ⟨((f st.1 v).1, m), by simp only [bind_run, act_run, hv, Out.bind_ok, hm]; rfl⟩
  · simp only [bind_run, act_run, Out.bind_eq_ok] at hb
    obtain ⟨⟨p, u⟩, hp, ⟨v, u1⟩, ⟨v', hv, e⟩, ⟨m, u2⟩, ⟨m', hm, e'⟩, hb⟩ := hb
    cases e
    cases e'
    cases hb
    exact hst.size ((Only.write (place_holds_run hp) hm).size _)

theorem aims_copy [Add α] [Mul α] (hL : NeverUndefined L) {m : AnyMat α V Container Empty}
    {R : AnyBase V Container} {mem : Mem α} (hR : Backed R.data mem)
    (h : ∀ b ∈ origins m, Backed b.data mem) (k : Nat) (s : S) :
    Aims (forAct k (fun index mem => do
      let v ← (actsOverCrate L α).get1d_unchecked mem index m
      let j ← (actsOverCrate L α).lay.convert_1d_raw R.layout index
      let p ← act (R.data.get_unchecked_mut j)
      act (mem.write p v)) mem s)
      ((List.range k).flatMap fun i =>
        aims1d L m i ++ [⟨L.convert_1d_raw R.layout i, R.data.len⟩]) s := by
  refine (Aims.for (fun st : Mem α => Backed R.data st ∧ ∀ b ∈ origins m, Backed b.data st)
    (fun i st s hst => ?_) (fun i st st' s t hst hb => ?_) ⟨hR, h⟩ k s).1
  · refine (aims1d_read hL m hst.2 s).bind fun v t _ => ?_
    have := (aims1d_place (α := α) hL R i t).then_ok (f := fun r => act (st.write r.1 v) r.2)
      fun p u hp => by
        obtain ⟨m', hm'⟩ := write_in v (hst.1.holds (place_holds_run hp))
        exact ⟨m', by simp only [act_run, hm', Out.bind_ok]⟩
    simp only [Acts.get1d_unchecked_mut, bind_run, Out.bind_assoc'] at this
    exact this
  · simp only [bind_run, act_run, Out.bind_eq_ok] at hb
    obtain ⟨⟨v, u⟩, -, ⟨j, u1⟩, hj, ⟨p, u2⟩, ⟨p', hp, e⟩, mm, hw, e'⟩ := hb
    cases e
    cases e'
    have hq : (actsOverCrate L α).get1d_unchecked_mut R i u = .ok (p, u1) := by
      simp only [Acts.get1d_unchecked_mut, bind_run, hj, Out.bind_ok]
      simp only [DataImpl.still, crateContainers, act_run, hp, Out.bind_ok]
    have ho := Only.write (place_holds_run hq) hw
    exact ⟨hst.1.size (ho.size _), fun b hb => (hst.2 b hb).size (ho.size _)⟩

end Householder.Spec
