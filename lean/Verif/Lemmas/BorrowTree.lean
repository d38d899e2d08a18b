import Verif.Lemmas.Borrow

/-!
# Facts about Tree Borrows
-/

namespace Householder

namespace Borrow

/-- What a read through an unrelated reference does. -/
def TPerm.far : TPerm → TPerm
  | .active => .frozen
  | p => p

namespace Tree

theorem change_read {T : Tree} {t r x : Nat} (h : r ∈ T.path t → T.perm r x ≠ .disabled) :
    T.change false t r x = some (if r ∈ T.path t then T.perm r x else (T.perm r x).far) := by
  unfold change
  by_cases hr : r ∈ T.path t
  · have := h hr
    cases hp : T.perm r x <;> simp_all [TPerm.read]
  · cases hp : T.perm r x <;> simp_all [TPerm.read, TPerm.far]

theorem change_write {T : Tree} {t r x : Nat}
    (h : r ∈ T.path t → T.perm r x ≠ .disabled ∧ T.perm r x ≠ .frozen) :
    T.change true t r x = some (if r ∈ T.path t then .active else .disabled) := by
  unfold change
  by_cases hr : r ∈ T.path t
  · have := h hr
    cases hp : T.perm r x <;> simp_all [TPerm.write]
  · cases hp : T.perm r x <;> simp_all [TPerm.write]

theorem read_ok {T : Tree} {t : Nat} {w : Window}
    (h : ∀ x, w.Has x → ∀ r ∈ T.path t, T.perm r x ≠ .disabled) :
    ∃ T', T.access false t w = some T' ∧ T'.next = T.next ∧ T'.path = T.path ∧
      ∀ r, r < T.next → ∀ x, T'.perm r x = if w.Has x ∧ r ∉ T.path t then (T.perm r x).far
        else T.perm r x := by
  have hc : ∀ i, i < w.len → ∀ r, r < T.next → (T.change false t r (w.lo + i)).isSome := by
    intro i hi r _
    rw [change_read fun hr => h _ ⟨Nat.le_add_right _ _, Nat.add_lt_add_left hi _⟩ r hr]
    rfl
  unfold access
  simp only
  rw [if_pos hc]
  refine ⟨_, rfl, rfl, rfl, ?_⟩
  intro r hr x
  by_cases hx : w.Has x
  · simp only [hx, hr, and_self, if_true, true_and]
    rw [change_read fun hr => h x hx r hr]
    by_cases hp : r ∈ T.path t <;> simp [hp]
  · simp [hx]

theorem write_ok {T : Tree} {t : Nat} {w : Window}
    (h : ∀ x, w.Has x → ∀ r ∈ T.path t, T.perm r x ≠ .disabled ∧ T.perm r x ≠ .frozen) :
    ∃ T', T.access true t w = some T' ∧ T'.next = T.next ∧ T'.path = T.path ∧
      ∀ r, r < T.next → ∀ x, T'.perm r x = if w.Has x then
        (if r ∈ T.path t then .active else .disabled) else T.perm r x := by
  have hc : ∀ i, i < w.len → ∀ r, r < T.next → (T.change true t r (w.lo + i)).isSome := by
    intro i hi r _
    rw [change_write fun hr => h _ ⟨Nat.le_add_right _ _, Nat.add_lt_add_left hi _⟩ r hr]
    rfl
  unfold access
  simp only
  rw [if_pos hc]
  refine ⟨_, rfl, rfl, rfl, ?_⟩
  intro r hr x
  by_cases hx : w.Has x
  · simp only [hx, hr, and_self, if_true]
    rw [change_write fun hr => h x hx r hr]
    rfl
  · simp [hx]

theorem read_bad {T : Tree} {t : Nat} {w : Window} {x r : Nat} (hx : w.Has x) (hr : r ∈ T.path t)
    (hn : r < T.next) (h : T.perm r x = .disabled) : T.access false t w = none := by
  unfold access
  simp only
  rw [if_neg]
  intro hall
  have := hall (x - w.lo) (by obtain ⟨h1, h2⟩ := hx; omega) r hn
  rw [Nat.add_sub_cancel' hx.1] at this
  simp [change, hr, h, TPerm.read] at this

theorem view_bad (b : Bool) {T : Tree} {t : Nat} {w : Window} {x y r : Nat} (hy : w.Has y)
    (hr : r ∈ T.path t) (hn : r < T.next) (h : T.perm r y = .disabled) :
    (if b = true then T.viewSet t w x else T.viewGet t w x) = none := by
  cases b
  · simp [viewGet, reborrow, read_bad hy hr hn h]
  · simp [viewSet, reborrowMut, read_bad hy hr hn h]

/-- An element access through a usable reference, and its effect on the permissions. -/
theorem view_ok (b : Bool) {T : Tree} {t : Nat} {w : Window} {x : Nat} (hx : w.Has x)
    (hn : ∀ r ∈ T.path t, r < T.next)
    (h : ∀ y, w.Has y → ∀ r ∈ T.path t, T.perm r y ≠ .disabled)
    (hw : b = true → ∀ r ∈ T.path t, T.perm r x ≠ .frozen) :
    ∃ T', (if b = true then T.viewSet t w x else T.viewGet t w x) = some T' ∧
      T'.next = T.next + 2 ∧ (∀ r, r < T.next → T'.path r = T.path r) ∧
      ∀ r, r < T.next → ∀ y, T'.perm r y =
        if r ∈ T.path t then (if b = true ∧ y = x then .active else T.perm r y)
        else if b = true ∧ y = x then .disabled
        else if w.Has y then (T.perm r y).far else T.perm r y := by
  have h1x : Window.Has (.one x) x := by simp [Window.Has, Window.one]
  have h1y : ∀ y, Window.Has (.one x) y ↔ y = x := by
    intro y; simp only [Window.Has, Window.one]; omega
  let P : TPerm := if b = true then .reserved else .frozen
  obtain ⟨T1, e1, n1, p1, q1⟩ := read_ok h
  let T2 : Tree := (T1.push P t).2
  have p2 : T2.path T.next = T.next :: T.path t := by simp [T2, push, n1, p1]
  have p2' : ∀ r, r < T.next → T2.path r = T.path r := by
    intro r hr
    simp only [T2, push, n1, p1]
    rw [if_neg (by omega)]
  have q2 : ∀ r, r < T.next → ∀ y, T2.perm r y = T1.perm r y := by
    intro r hr y
    simp only [T2, push, n1]
    rw [if_neg (by omega)]
  have q2' : ∀ y, T2.perm T.next y = P := by
    intro y
    simp only [T2, push, n1, if_true]
  have n2 : T2.next = T.next + 1 := by simp [T2, push, n1]
  have near1 : ∀ r ∈ T.path t, ∀ y, T1.perm r y = T.perm r y := by
    intro r hr y
    rw [q1 r (hn r hr) y, if_neg (fun hh => hh.2 hr)]
  obtain ⟨T3, e3, n3, p3, q3⟩ := read_ok (T := T2) (t := T.next) (w := .one x) (by
    intro y hy r hr
    rw [h1y] at hy
    subst hy
    rw [p2, List.mem_cons] at hr
    rcases hr with rfl | hr
    · rw [q2' y]; simp only [P]; split <;> simp
    · rw [q2 r (hn r hr), near1 r hr]; exact h y hx r hr)
  let T4 : Tree := (T3.push P T.next).2
  have n3' : T3.next = T.next + 1 := by rw [n3, n2]
  have p4 : T4.path (T.next + 1) = (T.next + 1) :: T.next :: T.path t := by
    simp [T4, push, n3', p3, p2]
  have p4' : ∀ r, r < T.next → T4.path r = T.path r := by
    intro r hr
    simp only [T4, push, n3', p3]
    rw [if_neg (by omega), p2' r hr]
  have n4 : T4.next = T.next + 2 := by simp [T4, push, n3']
  have q4 : ∀ r, r < T.next + 1 → ∀ y, T4.perm r y = T3.perm r y := by
    intro r hr y
    simp only [T4, push, n3']
    rw [if_neg (by omega)]
  have q4' : ∀ y, T4.perm (T.next + 1) y = P := by
    intro y
    simp only [T4, push, n3', if_true]
  have near3 : ∀ r ∈ T.path t, ∀ y, T3.perm r y = T.perm r y := by
    intro r hr y
    rw [q3 r (by have := hn r hr; omega) y, if_neg (fun hh => hh.2 (by rw [p2]; simp [hr])),
      q2 r (hn r hr), near1 r hr]
  have near3' : ∀ y, T3.perm T.next y = P := by
    intro y
    rw [q3 _ (by omega) y, if_neg (fun hh => hh.2 (by rw [p2]; simp)), q2']
  have far3 : ∀ r, r < T.next → r ∉ T.path t → ∀ y,
      T3.perm r y = if w.Has y then (T.perm r y).far else T.perm r y := by
    intro r hr hrt y
    rw [q3 r (by omega) y, q2 r hr, q1 r hr, p2]
    have hne : r ∉ T.next :: T.path t := by
      simp only [List.mem_cons, not_or]; exact ⟨by omega, hrt⟩
    by_cases hy : y = x
    · subst hy
      simp only [h1x, hne, hx, hrt, not_false_eq_true, and_self, if_true]
      cases T.perm r y <;> rfl
    · simp only [h1y, hy, hrt, false_and, if_false, not_false_eq_true, and_true]
  cases b with
  | false =>
    obtain ⟨T5, e5, n5, p5, q5⟩ := read_ok (T := T4) (t := T.next + 1) (w := .one x) (by
      intro y hy r hr
      rw [h1y] at hy
      subst hy
      rw [p4, List.mem_cons, List.mem_cons] at hr
      rcases hr with rfl | rfl | hr
      · rw [q4']; simp [P]
      · rw [q4 _ (by omega), near3']; simp [P]
      · rw [q4 _ (by have := hn r hr; omega), near3 r hr]; exact h y hx r hr)
    refine ⟨T5, ?_, by rw [n5, n4], fun r hr => by rw [p5, p4' r hr], ?_⟩
    · simp only [Bool.false_eq_true, if_false, viewGet, reborrow]
      rw [e1]
      simp only [Option.map_some, Option.bind_eq_bind, Option.bind_some]
      have e3' := e3
      simp only [T2, P, Bool.false_eq_true, if_false] at e3'
      rw [show (push .frozen t T1).1 = T.next from n1, e3']
      simp only [Option.map_some, Option.bind_some]
      have e5' := e5
      simp only [T4, P, Bool.false_eq_true, if_false] at e5'
      rw [show (push .frozen T.next T3).1 = T.next + 1 from n3']
      exact e5'
    · intro r hr y
      rw [q5 r (by omega) y, q4 r (by omega), p4]
      by_cases hrt : r ∈ T.path t
      · simp [hrt, near3 r hrt]
      · have hne : r ∉ (T.next + 1) :: T.next :: T.path t := by
          simp only [List.mem_cons, not_or]; exact ⟨by omega, by omega, hrt⟩
        rw [far3 r hr hrt]
        simp only [h1y, hne, hrt, not_false_eq_true, and_true, Bool.false_eq_true, false_and,
          if_false]
        by_cases hy : y = x
        · subst hy
          simp only [hx, if_true]
          cases T.perm r y <;> rfl
        · simp [hy]
  | true =>
    obtain ⟨T5, e5, n5, p5, q5⟩ := write_ok (T := T4) (t := T.next + 1) (w := .one x) (by
      intro y hy r hr
      rw [h1y] at hy
      subst hy
      rw [p4, List.mem_cons, List.mem_cons] at hr
      rcases hr with rfl | rfl | hr
      · rw [q4']; simp [P]
      · rw [q4 _ (by omega), near3']; simp [P]
      · rw [q4 _ (by have := hn r hr; omega), near3 r hr]
        exact ⟨h y hx r hr, hw rfl r hr⟩)
    refine ⟨T5, ?_, by rw [n5, n4], fun r hr => by rw [p5, p4' r hr], ?_⟩
    · simp only [if_true, viewSet, reborrowMut]
      rw [e1]
      simp only [Option.map_some, Option.bind_eq_bind, Option.bind_some]
      have e3' := e3
      simp only [T2, P, if_true] at e3'
      rw [show (push .reserved t T1).1 = T.next from n1, e3']
      simp only [Option.map_some, Option.bind_some]
      have e5' := e5
      simp only [T4, P, if_true] at e5'
      rw [show (push .reserved T.next T3).1 = T.next + 1 from n3']
      exact e5'
    · intro r hr y
      rw [q5 r (by omega) y, q4 r (by omega), p4]
      by_cases hrt : r ∈ T.path t
      · by_cases hy : y = x
        · simp [h1y, hy, hrt]
        · simp [h1y, hy, hrt, near3 r hrt]
      · have hne : r ∉ (T.next + 1) :: T.next :: T.path t := by
          simp only [List.mem_cons, not_or]; exact ⟨by omega, by omega, hrt⟩
        rw [far3 r hr hrt]
        by_cases hy : y = x
        · simp only [h1y, hy, if_true, hne, hrt, if_false, and_self]
        · simp only [h1y, hy, if_false, hrt, and_false]

/-- Making mutable views one after the other. -/
theorem viewsMut_spec {p : Nat} (ws : List Window) :
    ∀ (T : Tree), p < T.next → (∀ r ∈ T.path p, r < T.next) →
    (∀ w ∈ ws, ∀ x, w.Has x → ∀ r ∈ T.path p, T.perm r x ≠ .disabled) →
    ∃ vs T', T.viewsMut p ws = some (vs, T') ∧
      (∀ k, vs[k]? = ws[k]?.map (fun w => (T.next + k, w))) ∧
      T'.next = T.next + ws.length ∧
      (∀ r, r < T.next → T'.path r = T.path r) ∧
      (∀ k, k < ws.length → T'.path (T.next + k) = (T.next + k) :: T.path p) ∧
      (∀ k, k < ws.length → ∀ y, T'.perm (T.next + k) y = .reserved) ∧
      (∀ r ∈ T.path p, ∀ y, T'.perm r y = T.perm r y) ∧
      (∀ r, r < T.next → ∀ y, T.perm r y = .reserved → T'.perm r y = .reserved) := by
  induction ws with
  | nil =>
    intro T _ _ _
    exact ⟨[], T, rfl, by simp, rfl, by simp, by simp, by simp, by simp, fun _ _ _ h => h⟩
  | cons w ws ih =>
    intro T hp hn h
    obtain ⟨T1, e1, n1, p1, q1⟩ := read_ok (h w (by simp))
    let T2 : Tree := (T1.push .reserved p).2
    have n2 : T2.next = T.next + 1 := by simp [T2, push, n1]
    have p2 : T2.path T.next = T.next :: T.path p := by simp [T2, push, n1, p1]
    have p2' : ∀ r, r < T.next → T2.path r = T.path r := by
      intro r hr
      simp only [T2, push, n1, p1]
      rw [if_neg (by omega)]
    have q2 : ∀ r, r < T.next → ∀ y, T2.perm r y = T1.perm r y := by
      intro r hr y
      simp only [T2, push, n1]
      rw [if_neg (by omega)]
    have q2' : ∀ y, T2.perm T.next y = .reserved := by
      intro y
      simp only [T2, push, n1, if_true]
    have near2 : ∀ r ∈ T.path p, ∀ y, T2.perm r y = T.perm r y := by
      intro r hr y
      rw [q2 r (hn r hr), q1 r (hn r hr) y, if_neg (fun hh => hh.2 hr)]
    obtain ⟨vs, T', e2, hv, hn', a1, a2, a3, a4, a5⟩ := ih T2 (by omega)
      (by rw [p2' p hp]; intro r hr; have := hn r hr; omega)
      (by
        rw [p2' p hp]
        intro w' hw' x hx r hr
        rw [near2 r hr]
        exact h w' (by simp [hw']) x hx r hr)
    rw [p2' p hp] at a2 a4
    refine ⟨(T.next, w) :: vs, T', ?_, ?_, ?_, ?_, ?_, ?_, ?_, ?_⟩
    · simp only [viewsMut, reborrowMut]
      rw [e1]
      simp only [Option.map_some, Option.bind_eq_bind, Option.bind_some]
      rw [show (push .reserved p T1).1 = T.next from n1]
      have := e2
      simp only [T2] at this
      rw [this]
      rfl
    · intro k
      cases k with
      | zero => simp
      | succ k =>
        simp only [List.getElem?_cons_succ, hv k, n2]
        congr 1
        funext w'
        rw [Nat.add_assoc, Nat.add_comm 1 k]
    · rw [hn', n2, List.length_cons]; omega
    · intro r hr
      rw [a1 r (by omega), p2' r hr]
    · intro k hk
      cases k with
      | zero => rw [Nat.add_zero, a1 _ (by omega), p2]
      | succ k =>
        have := a2 k (by simpa using hk)
        rw [n2, Nat.add_assoc, Nat.add_comm 1 k] at this
        exact this
    · intro k hk y
      cases k with
      | zero => exact a5 _ (by omega) y (q2' y)
      | succ k =>
        have := a3 k (by simpa using hk) y
        rw [n2, Nat.add_assoc, Nat.add_comm 1 k] at this
        exact this
    · intro r hr y
      rw [a4 r hr, near2 r hr]
    · intro r hr y h0
      refine a5 r (by omega) y ?_
      rw [q2 r hr, q1 r hr, h0]
      split <;> rfl

/-- A write of `u`, and a later use `v` of another view whose slice covers the cell written. -/
def Clash (ws : List Window) (u v : Use) : Prop :=
  u.write = true ∧ v.view ≠ u.view ∧ ∃ w, ws[v.view]? = some w ∧ w.Has u.cell

theorem uses_spec {ws : List Window} {vs : List (Nat × Window)} {n : Nat} {A : List Nat}
    (hv : ∀ k, vs[k]? = ws[k]?.map (fun w => (n + k, w))) (hA : ∀ r ∈ A, r < n) :
    ∀ (us hist : List Use) (T : Tree), n + ws.length ≤ T.next →
    (∀ u ∈ us, u.Valid ws) →
    (∀ k, k < ws.length → T.path (n + k) = (n + k) :: A) →
    (∀ w ∈ ws, ∀ x, w.Has x → ∀ r ∈ A, T.perm r x ≠ .disabled ∧ T.perm r x ≠ .frozen) →
    (∀ k w, ws[k]? = some w → ∀ x, w.Has x → T.perm (n + k) x ≠ .frozen ∧
      (T.perm (n + k) x = .disabled ↔ ∃ u ∈ hist, u.write = true ∧ u.view ≠ k ∧ u.cell = x) ∧
      (T.perm (n + k) x = .active → ∃ u ∈ hist, u.write = true ∧ u.view = k ∧ u.cell = x)) →
    ((T.uses vs us).isSome ↔
      us.Pairwise (fun u v => ¬ Clash ws u v) ∧ ∀ u ∈ hist, ∀ v ∈ us, ¬ Clash ws u v) := by
  intro us
  induction us with
  | nil => intro hist T _ _ _ _ _; simp [uses]
  | cons v us ih =>
    intro hist T hn hu hpath hanc hinv
    obtain ⟨w, hw, hx⟩ := hu v (by simp)
    have hlen : v.view < ws.length := by
      by_contra h
      rw [List.getElem?_eq_none (by omega)] at hw
      cases hw
    have hvu : vs[v.view]? = some (n + v.view, w) := by rw [hv, hw]; rfl
    have hpv := hpath v.view hlen
    by_cases hc : ∃ u ∈ hist, Clash ws u v
    · obtain ⟨u, hu1, hu2, hu3, w', hw', hx'⟩ := hc
      obtain rfl : w = w' := by simpa [hw] using hw'
      have hd := ((hinv v.view w hw u.cell hx').2.1).mpr ⟨u, hu1, hu2, hu3.symm, rfl⟩
      have hnone : T.use vs v = none := by
        simp only [use, hvu]
        exact view_bad v.write hx' (r := n + v.view) (by rw [hpv]; simp) (by omega) hd
      simp only [uses, hnone, Option.bind_eq_bind, Option.bind_none, Option.isSome_none,
        Bool.false_eq_true, false_iff, not_and]
      intro _ h
      exact h u hu1 v (by simp) ⟨hu2, hu3, w, hw, hx'⟩
    · push Not at hc
      have hnd : ∀ y, w.Has y → ∀ r ∈ T.path (n + v.view), T.perm r y ≠ .disabled := by
        intro y hy r hr
        rw [hpv, List.mem_cons] at hr
        rcases hr with rfl | hr
        · intro hdis
          obtain ⟨u, h1, h2, h3, h4⟩ := ((hinv v.view w hw y hy).2.1).mp hdis
          exact hc u h1 ⟨h2, h3.symm, w, hw, by rw [h4]; exact hy⟩
        · exact (hanc w (List.mem_of_getElem? hw) y hy r hr).1
      have hnf : v.write = true → ∀ r ∈ T.path (n + v.view), T.perm r v.cell ≠ .frozen := by
        intro _ r hr
        rw [hpv, List.mem_cons] at hr
        rcases hr with rfl | hr
        · exact (hinv v.view w hw v.cell hx).1
        · exact (hanc w (List.mem_of_getElem? hw) v.cell hx r hr).2
      obtain ⟨T', e, n', p', q'⟩ := view_ok v.write hx (t := n + v.view) (by
        rw [hpv]; intro r hr
        rcases List.mem_cons.mp hr with rfl | hr
        · omega
        · have := hA r hr; omega) hnd hnf
      have e' : T.use vs v = some T' := by
        simp only [use, hvu]
        exact e
      have key := ih (hist ++ [v]) T' (by omega) (fun u hu' => hu u (by simp [hu']))
        (fun k hk => by rw [p' _ (by omega), hpath k hk]) ?_ ?_
      · simp only [uses, e', Option.bind_eq_bind, Option.bind_some, key, List.pairwise_cons,
          List.mem_append, List.mem_cons, List.not_mem_nil, or_false]
        constructor
        · rintro ⟨h1, h2⟩
          refine ⟨⟨fun u hu' => h2 v (.inr rfl) u hu', h1⟩, ?_⟩
          rintro u hu1 v' (rfl | hv')
          · exact hc u hu1
          · exact h2 u (.inl hu1) v' hv'
        · rintro ⟨⟨h1, h2⟩, h3⟩
          refine ⟨h2, ?_⟩
          rintro u (hu1 | rfl) v' hv'
          · exact h3 u hu1 v' (.inr hv')
          · exact h1 v' hv'
      · intro w' hw' x hx' r hr
        have hrp : r ∈ T.path (n + v.view) := by rw [hpv]; simp [hr]
        rw [q' r (by have := hA r hr; omega) x, if_pos hrp]
        split
        · simp
        · exact hanc w' hw' x hx' r hr
      · intro k w' hw' x hx'
        have hk : k < ws.length := by
          by_contra h
          rw [List.getElem?_eq_none (by omega)] at hw'
          cases hw'
        obtain ⟨i1, i2, i3⟩ := hinv k w' hw' x hx'
        rw [q' _ (by omega) x]
        by_cases hkv : k = v.view
        · subst hkv
          rw [if_pos (by rw [hpv]; simp)]
          by_cases hb : v.write = true ∧ x = v.cell
          · rw [if_pos hb]
            refine ⟨by simp, ⟨by simp, ?_⟩, fun _ => ⟨v, by simp, hb.1, rfl, hb.2.symm⟩⟩
            rintro ⟨u, hu1, hu2, hu3, hu4⟩
            rcases List.mem_append.mp hu1 with h | h
            · exact absurd ⟨hu2, hu3.symm, w', hw', by rw [hu4]; exact hx'⟩ (hc u h)
            · rw [List.mem_singleton] at h
              subst h
              exact absurd rfl hu3
          · rw [if_neg hb]
            refine ⟨i1, ?_, ?_⟩
            · rw [i2]
              constructor
              · rintro ⟨u, h1, h2⟩; exact ⟨u, by simp [h1], h2⟩
              · rintro ⟨u, h1, h2, h3, h4⟩
                rcases List.mem_append.mp h1 with h | h
                · exact ⟨u, h, h2, h3, h4⟩
                · rw [List.mem_singleton] at h
                  subst h
                  exact absurd rfl h3
            · intro ha
              obtain ⟨u, h1, h2⟩ := i3 ha
              exact ⟨u, by simp [h1], h2⟩
        · have hnot : n + k ∉ T.path (n + v.view) := by
            rw [hpv, List.mem_cons, not_or]
            refine ⟨by omega, fun h => ?_⟩
            have := hA _ h
            omega
          rw [if_neg hnot]
          by_cases hb : v.write = true ∧ x = v.cell
          · rw [if_pos hb]
            refine ⟨by simp, ⟨fun _ => ⟨v, by simp, hb.1, fun h => hkv h.symm, hb.2.symm⟩,
              fun _ => rfl⟩, by simp⟩
          · rw [if_neg hb]
            have hsame : (if w.Has x then (T.perm (n + k) x).far else T.perm (n + k) x)
                = T.perm (n + k) x := by
              split
              · rename_i hwx
                cases hp : T.perm (n + k) x
                · rfl
                · obtain ⟨u, h1, h2, h3, h4⟩ := i3 hp
                  exact absurd ⟨h2, by rw [h3]; exact fun h => hkv h.symm, w, hw,
                    by rw [h4]; exact hwx⟩ (hc u h1)
                · rfl
                · rfl
              · rfl
            rw [hsame]
            refine ⟨i1, ?_, ?_⟩
            · rw [i2]
              constructor
              · rintro ⟨u, h1, h2⟩; exact ⟨u, by simp [h1], h2⟩
              · rintro ⟨u, h1, h2, h3, h4⟩
                rcases List.mem_append.mp h1 with h | h
                · exact ⟨u, h, h2, h3, h4⟩
                · rw [List.mem_singleton] at h
                  subst h
                  exact absurd ⟨h2, h4.symm⟩ hb
            · intro ha
              obtain ⟨u, h1, h2⟩ := i3 ha
              exact ⟨u, by simp [h1], h2⟩

/-- The uses of views made from one pointer are free of undefined behaviour exactly when no use
follows a write through another view to a cell its own slice covers. -/
theorem splitAndUse_iff {p : Nat} {ws : List Window} {us : List Use} {T : Tree}
    (hp : p < T.next) (hn : ∀ r ∈ T.path p, r < T.next)
    (ht : ∀ w ∈ ws, ∀ x, w.Has x → ∀ r ∈ T.path p,
      T.perm r x ≠ .disabled ∧ T.perm r x ≠ .frozen)
    (hu : ∀ u ∈ us, u.Valid ws) :
    (T.splitAndUse p ws us).isSome ↔ us.Pairwise (fun u v => ¬ Clash ws u v) := by
  obtain ⟨vs, T', e, hv, hn', a1, a2, a3, a4, -⟩ :=
    viewsMut_spec ws T hp hn (fun w hw x hx r hr => (ht w hw x hx r hr).1)
  have key := uses_spec hv hn us [] T' (by omega) hu a2 (by
    intro w hw x hx r hr
    rw [a4 r hr]
    exact ht w hw x hx r hr) (by
    intro k w hw x hx
    have hk : k < ws.length := by
      by_contra h
      rw [List.getElem?_eq_none (by omega)] at hw
      cases hw
    rw [a3 k hk]
    simp)
  have e2 : T.splitAndUse p ws us = T'.uses vs us := by
    simp [splitAndUse, e]
  rw [e2, key]
  simp

/-! ### One mutable view at a time, or several shared ones -/

/-- Making shared views one after the other. -/
theorem views_spec {p : Nat} (ws : List Window) :
    ∀ (T : Tree), p < T.next → (∀ r ∈ T.path p, r < T.next) →
    (∀ w ∈ ws, ∀ x, w.Has x → ∀ r ∈ T.path p, T.perm r x ≠ .disabled) →
    ∃ vs T', T.views p ws = some (vs, T') ∧
      (∀ k, vs[k]? = ws[k]?.map (fun w => (T.next + k, w))) ∧
      T'.next = T.next + ws.length ∧
      (∀ r, r < T.next → T'.path r = T.path r) ∧
      (∀ k, k < ws.length → T'.path (T.next + k) = (T.next + k) :: T.path p) ∧
      (∀ k, k < ws.length → ∀ y, T'.perm (T.next + k) y = .frozen) ∧
      (∀ r ∈ T.path p, ∀ y, T'.perm r y = T.perm r y) ∧
      (∀ r, r < T.next → ∀ y, T.perm r y = .frozen → T'.perm r y = .frozen) := by
  induction ws with
  | nil =>
    intro T _ _ _
    exact ⟨[], T, rfl, by simp, rfl, by simp, by simp, by simp, by simp, fun _ _ _ h => h⟩
  | cons w ws ih =>
    intro T hp hn h
    obtain ⟨T1, e1, n1, p1, q1⟩ := read_ok (h w (by simp))
    let T2 : Tree := (T1.push .frozen p).2
    have n2 : T2.next = T.next + 1 := by simp [T2, push, n1]
    have p2 : T2.path T.next = T.next :: T.path p := by simp [T2, push, n1, p1]
    have p2' : ∀ r, r < T.next → T2.path r = T.path r := by
      intro r hr
      simp only [T2, push, n1, p1]
      rw [if_neg (by omega)]
    have q2 : ∀ r, r < T.next → ∀ y, T2.perm r y = T1.perm r y := by
      intro r hr y
      simp only [T2, push, n1]
      rw [if_neg (by omega)]
    have q2' : ∀ y, T2.perm T.next y = .frozen := by
      intro y
      simp only [T2, push, n1, if_true]
    have near2 : ∀ r ∈ T.path p, ∀ y, T2.perm r y = T.perm r y := by
      intro r hr y
      rw [q2 r (hn r hr), q1 r (hn r hr) y, if_neg (fun hh => hh.2 hr)]
    obtain ⟨vs, T', e2, hv, hn', a1, a2, a3, a4, a5⟩ := ih T2 (by omega)
      (by rw [p2' p hp]; intro r hr; have := hn r hr; omega)
      (by
        rw [p2' p hp]
        intro w' hw' x hx r hr
        rw [near2 r hr]
        exact h w' (by simp [hw']) x hx r hr)
    rw [p2' p hp] at a2 a4
    refine ⟨(T.next, w) :: vs, T', ?_, ?_, ?_, ?_, ?_, ?_, ?_, ?_⟩
    · simp only [views, reborrow]
      rw [e1]
      simp only [Option.map_some, Option.bind_eq_bind, Option.bind_some]
      rw [show (push .frozen p T1).1 = T.next from n1]
      have := e2
      simp only [T2] at this
      rw [this]
      rfl
    · intro k
      cases k with
      | zero => simp
      | succ k =>
        simp only [List.getElem?_cons_succ, hv k, n2]
        congr 1
        funext w'
        rw [Nat.add_assoc, Nat.add_comm 1 k]
    · rw [hn', n2, List.length_cons]; omega
    · intro r hr
      rw [a1 r (by omega), p2' r hr]
    · intro k hk
      cases k with
      | zero => rw [Nat.add_zero, a1 _ (by omega), p2]
      | succ k =>
        have := a2 k (by simpa using hk)
        rw [n2, Nat.add_assoc, Nat.add_comm 1 k] at this
        exact this
    · intro k hk y
      cases k with
      | zero => exact a5 _ (by omega) y (q2' y)
      | succ k =>
        have := a3 k (by simpa using hk) y
        rw [n2, Nat.add_assoc, Nat.add_comm 1 k] at this
        exact this
    · intro r hr y
      rw [a4 r hr, near2 r hr]
    · intro r hr y h0
      refine a5 r (by omega) y ?_
      rw [q2 r hr, q1 r hr, h0]
      split <;> rfl

theorem reads_ok {n : Nat} {A : List Nat} {ws : List Window} {vs : List (Nat × Window)}
    (hv : ∀ k, vs[k]? = ws[k]?.map (fun w => (n + k, w))) (hA : ∀ r ∈ A, r < n) (us : List Use) :
    ∀ T : Tree, n + ws.length ≤ T.next →
    (∀ k, k < ws.length → T.path (n + k) = (n + k) :: A) →
    (∀ k, k < ws.length → ∀ y, T.perm (n + k) y = .frozen) →
    (∀ w ∈ ws, ∀ x, w.Has x → ∀ r ∈ A, T.perm r x ≠ .disabled) →
    (∀ u ∈ us, u.Valid ws ∧ u.write = false) →
    ∃ T', T.uses vs us = some T' ∧ T.next ≤ T'.next ∧ (∀ r, r < T.next → T'.path r = T.path r) ∧
      ∀ r ∈ A, ∀ x, T'.perm r x = T.perm r x := by
  induction us with
  | nil => intro T _ _ _ _ _; exact ⟨T, rfl, le_refl _, fun _ _ => rfl, fun _ _ _ => rfl⟩
  | cons u us ih =>
    intro T hn hp hq ha hu
    obtain ⟨⟨w, hw, hx⟩, hr⟩ := hu u (by simp)
    have hlen : u.view < ws.length := by
      by_contra h
      rw [List.getElem?_eq_none (by omega)] at hw
      cases hw
    have hpv := hp u.view hlen
    obtain ⟨T1, e1, n1, p1, q1⟩ := view_ok false hx (T := T) (t := n + u.view) (by
        rw [hpv]; intro r hr
        rcases List.mem_cons.mp hr with rfl | hr
        · omega
        · have := hA r hr; omega) (by
        rw [hpv]
        intro y hy r hr
        rcases List.mem_cons.mp hr with rfl | hr
        · rw [hq _ hlen]; simp
        · exact ha w (List.mem_of_getElem? hw) y hy r hr) (by simp)
    have hA' : ∀ r ∈ A, ∀ x, T1.perm r x = T.perm r x := by
      intro r hr x
      rw [q1 r (by have := hA r hr; omega) x, if_pos (by rw [hpv]; simp [hr])]
      simp
    obtain ⟨T2, e2, n2, p2, q2⟩ := ih T1 (by omega)
      (fun k hk => by rw [p1 _ (by omega), hp k hk])
      (fun k hk y => by
        rw [q1 _ (by omega) y, hq k hk y]
        simp [TPerm.far])
      (fun w' hw' x hx r hr => by rw [hA' r hr]; exact ha w' hw' x hx r hr)
      (fun v hv => hu v (by simp [hv]))
    refine ⟨T2, ?_, by omega, fun r hr => by rw [p2 r (by omega), p1 r hr],
      fun r hr x => by rw [q2 r hr, hA' r hr]⟩
    have : T.use vs u = some T1 := by
      simp only [use, hv, hw, hr, Option.map_some]
      exact e1
    simp only [uses, this, Option.bind_eq_bind, Option.bind_some]
    exact e2

theorem exclusive_ok {t : Nat} {A : List Nat} {w : Window} (us : List Use) :
    ∀ T : Tree, t < T.next → T.path t = t :: A → (∀ r ∈ A, r < T.next) →
    (∀ x, w.Has x → ∀ r ∈ t :: A, T.perm r x ≠ .disabled ∧ T.perm r x ≠ .frozen) →
    (∀ u ∈ us, u.view = 0 ∧ w.Has u.cell) →
    ∃ T', T.uses [(t, w)] us = some T' ∧ T.next ≤ T'.next ∧
      (∀ r, r < T.next → T'.path r = T.path r) ∧
      ∀ r ∈ A, ∀ x, T'.perm r x = T.perm r x ∨ T'.perm r x = .active := by
  induction us with
  | nil =>
    intro T _ _ _ _ _
    exact ⟨T, rfl, le_refl _, fun _ _ => rfl, fun _ _ _ => .inl rfl⟩
  | cons u us ih =>
    intro T ht hp hA h hu
    obtain ⟨hu0, hx⟩ := hu u (by simp)
    obtain ⟨T1, e1, n1, p1, q1⟩ := view_ok u.write hx (T := T) (t := t) (by
        rw [hp]; intro r hr
        rcases List.mem_cons.mp hr with rfl | hr
        · exact ht
        · exact hA r hr) (by
        rw [hp]
        intro y hy r hr
        exact (h y hy r hr).1) (by
        rw [hp]
        intro _ r hr
        exact (h _ hx r hr).2)
    have hnear : ∀ r ∈ t :: A, ∀ x, T1.perm r x = T.perm r x ∨ T1.perm r x = .active := by
      intro r hr x
      have hrn : r < T.next := by
        rcases List.mem_cons.mp hr with rfl | hr
        · exact ht
        · exact hA r hr
      rw [q1 r hrn x, if_pos (by rw [hp]; exact hr)]
      split
      · exact .inr rfl
      · exact .inl rfl
    obtain ⟨T2, e2, n2, p2, q2⟩ := ih T1 (by omega) (by rw [p1 t ht, hp])
      (fun r hr => by have := hA r hr; omega)
      (fun x hx r hr => by
        rcases hnear r hr x with h1 | h1
        · rw [h1]; exact h x hx r hr
        · rw [h1]; simp)
      (fun v hv => hu v (by simp [hv]))
    refine ⟨T2, ?_, by omega, fun r hr => by rw [p2 r (by omega), p1 r hr], ?_⟩
    · have : T.use [(t, w)] u = some T1 := by
        simp only [use, hu0, List.getElem?_cons_zero]
        exact e1
      simp only [uses, this, Option.bind_eq_bind, Option.bind_some]
      exact e2
    · intro r hr x
      rcases q2 r hr x with h1 | h1
      · rw [h1]; exact hnear r (by simp [hr]) x
      · exact .inr h1

theorem phases_ok {p : Nat} {M : Nat → Prop} {A : List Nat} (fs : List Phase) :
    ∀ T : Tree, p < T.next → T.path p = A → (∀ r ∈ A, r < T.next) →
    (∀ x, M x → ∀ r ∈ A, T.perm r x ≠ .disabled ∧ T.perm r x ≠ .frozen) →
    (∀ f ∈ fs, f.Valid M) →
    ∃ T', T.phases p fs = some T' ∧
      ∀ x, M x → ∀ r ∈ A, T'.perm r x ≠ .disabled ∧ T'.perm r x ≠ .frozen := by
  induction fs with
  | nil => intro T _ _ _ h _; exact ⟨T, rfl, h⟩
  | cons f fs ih =>
    intro T hp hpath hA h hf
    have key : ∃ T', T.phase p f = some T' ∧ T.next ≤ T'.next ∧ T'.path p = A ∧
        ∀ x, M x → ∀ r ∈ A, T'.perm r x ≠ .disabled ∧ T'.perm r x ≠ .frozen := by
      have hv := hf f (by simp)
      cases f with
      | exclusive w us =>
        obtain ⟨hM, hu⟩ := hv
        obtain ⟨vs, T1, e1, hv1, n1, a1, a2, a3, a4, -⟩ := viewsMut_spec (p := p) [w] T hp
          (by rw [hpath]; exact hA) (by
            rw [hpath]
            intro w' hw' x hx r hr
            obtain rfl : w' = w := by simpa using hw'
            exact (h x (hM x hx) r hr).1)
        rw [hpath] at a2 a4
        have hvs : vs = [(T.next, w)] := by
          apply List.ext_getElem?
          intro k
          rw [hv1 k]
          cases k <;> simp
        have n1' : T1.next = T.next + 1 := by simpa using n1
        obtain ⟨T2, e2, n2, p2, q2⟩ := exclusive_ok (A := A) (w := w)
          (us.map fun u => ⟨0, u.1, u.2⟩) T1 (t := T.next) (by omega)
          (by simpa using a2 0 (by simp)) (fun r hr => by have := hA r hr; omega) (by
            intro x hx r hr
            rcases List.mem_cons.mp hr with rfl | hr
            · have := a3 0 (by simp) x
              rw [Nat.add_zero] at this
              rw [this]; simp
            · rw [a4 r hr]; exact h x (hM x hx) r hr) (by
            intro u hu'
            rw [List.mem_map] at hu'
            obtain ⟨v, hv, rfl⟩ := hu'
            exact ⟨rfl, hu v hv⟩)
        refine ⟨T2, ?_, by omega, by rw [p2 p (by omega), a1 p hp, hpath], ?_⟩
        · simp only [phase, splitAndUse, e1, Option.bind_eq_bind, Option.bind_some, hvs]
          exact e2
        · intro x hx r hr
          rcases q2 r hr x with h1 | h1
          · rw [h1, a4 r hr]; exact h x hx r hr
          · rw [h1]; simp
      | shared ws us =>
        obtain ⟨hM, hu⟩ := hv
        obtain ⟨vs, T1, e1, hv1, n1, a1, a2, a3, a4, -⟩ := views_spec (p := p) ws T hp
          (by rw [hpath]; exact hA) (by
            rw [hpath]
            intro w' hw' x hx r hr
            exact (h x (hM w' hw' x hx) r hr).1)
        rw [hpath] at a2 a4
        obtain ⟨T2, e2, n2, p2, q2⟩ := reads_ok hv1 hA (us.map fun u => ⟨u.1, u.2, false⟩) T1
          (by omega) a2 a3 (by
            intro w hw x hx r hr
            rw [a4 r hr]
            exact (h x (hM w hw x hx) r hr).1) (by
            intro u hu'
            rw [List.mem_map] at hu'
            obtain ⟨v, hv, rfl⟩ := hu'
            obtain ⟨w, h1, h2⟩ := hu v hv
            exact ⟨⟨w, h1, h2⟩, rfl⟩)
        refine ⟨T2, ?_, by omega, by rw [p2 p (by omega), a1 p hp, hpath], ?_⟩
        · simp only [phase, e1, Option.bind_eq_bind, Option.bind_some]
          exact e2
        · intro x hx r hr
          rw [q2 r hr, a4 r hr]; exact h x hx r hr
    obtain ⟨T1, e1, n1, p1, i1⟩ := key
    obtain ⟨T2, e2, i2⟩ := ih T1 (by omega) p1 (fun r hr => by have := hA r hr; omega) i1
      fun g hg => hf g (by simp [hg])
    refine ⟨T2, ?_, i2⟩
    simp only [phases, e1, Option.bind_eq_bind, Option.bind_some]
    exact e2

end Tree

end Borrow

end Householder
