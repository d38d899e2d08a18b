import Verif.Lemmas.InlineTakes

/-!
# Lemmas: `split_in_four_mut` of a matrix that holds its elements inside itself
-/

namespace Householder.Spec

open Borrow

/-- Stacked Borrows: after the split it is as for other matrices. -/
theorem GSplit.splitIn_using (pl : Plan) {v0 : Ref} {ws : List Window} {g : GStacks}
    (h : StackInv g [v0] []) (hw : ∀ w ∈ ws, Sub w v0.win) :
    ∃ vs g', GStacks.rules.splitIn pl v0.tag v0.win ws g = some (vs, g') ∧ vs.map Prod.snd = ws ∧
      GSplit.Using v0 vs (GSplit.Late ws) g' ∧
      ∀ (k : Nat) (v : Nat × Window) (j : Nat) (v' : Nat × Window), vs[k]? = some v →
        vs[j]? = some v' → k ≠ j → ¬ GSplit.Late ws k → ¬ GSplit.Late ws j → ¬ v.2.Meets v'.2 := by
  obtain ⟨t, g1, e1, h1⟩ := stack_obeys.mutRef h (by simp) (Sub.refl v0.win)
  obtain ⟨g2, e2, h2⟩ := stack_obeys.looks pl.before (v := ⟨t, v0.win, true⟩) (stack_obeys.enter h1)
    (.inl rfl)
  obtain ⟨p, g3, e3, h3⟩ := stack_takes.pointer pl.inner h2
  obtain ⟨g4, e4, h4⟩ := stack_takes.looks pl.after h3
  have hmk : GSplit.Making ⟨t, v0.win, true⟩ p [v0] g4 := ⟨h4.inv, h4.newer⟩
  obtain ⟨vs, g5, e5, h5, m5, n5, b5, -, p5⟩ := GSplit.parts_spec ws g4 hmk hw
  obtain ⟨g6, e6, h6⟩ := stack_obeys.leave (c1 := [_]) h5.inv
  have hc : g6.cells = g5.cells := by
    have e6' := e6
    simp only [GStacks.rules, Option.some.injEq] at e6'
    subst e6'
    rfl
  have hpv : v0.tag < p := ((List.pairwise_cons.1 h4.inv.nested).1 v0 (by simp)).1
  have hpn : p < g4.cells.next := h4.inv.known ⟨p, v0.win, false⟩ (.inl (by simp))
  obtain ⟨hU, hdis⟩ := GSplit.made (v0 := v0) (g1 := g4) (g2 := g6)
    (stack_obeys.pop (stack_obeys.delete (c1 := [_]) h6 rfl) rfl) m5 hpv hpn
    (by rw [hc]; exact b5)
    (by
      intro k v hk
      simp only [GSplit.Alive, GSplit.Dead, hc]
      exact p5 k v hk) hw
  simp only at e2 e3 e4
  refine ⟨vs, g6, ?_, m5, hU, hdis⟩
  simp only [Rules.splitIn, e1, e2, e3, e4, e5, e6, Option.bind_eq_bind, Option.bind_some,
    Option.pure_def]

/-- The same parts may be used as for other matrices. -/
theorem GSplit.splitAndUseIn_iff (pl : Plan) {v0 : Ref} {ws : List Window} {us : List Use}
    {g : GStacks} (h : StackInv g [v0] []) (hw : ∀ w ∈ ws, Sub w v0.win)
    (hu : ∀ u ∈ us, u.Valid ws) :
    (GStacks.rules.splitAndUseIn pl v0.tag v0.win ws us g).isSome ↔
      ∀ u ∈ us, ∀ w, ws[u.view]? = some w → ∀ j w', u.view < j → ws[j]? = some w' →
        ¬ w.Meets w' := by
  obtain ⟨vs, g', e, m, hU, hdis⟩ := GSplit.splitIn_using pl h hw
  simp only [Rules.splitAndUseIn, e, Option.bind_eq_bind, Option.bind_some]
  exact GSplit.uses_exact m hU hdis hu

/-- The end of a protection is not noticed by what was derived from the reference. -/
theorem TLook.leave_below {t : Nat} {w : Window} {T T' : GTree} (h : T.leave t w = some T') {r : Nat}
    (hr : t ∈ T.path r ∧ r ≠ t) (y : Nat) : T'.perm r y = T.perm r y := by
  simp only [GTree.leave] at h
  split at h
  · cases h
    simp only [GTree.ending, if_pos hr, Option.getD_some, ite_self]
  · cases h

/-- Tree Borrows: after the split it is as for other matrices. -/
theorem TSplit.splitIn_using (pl : Plan) {v0 : Ref} {ws : List Window} {T : GTree}
    (h : TreeInv T [v0] []) (hw : ∀ w ∈ ws, Sub w v0.win) :
    ∃ vs T' A, GTree.rules.splitIn pl v0.tag v0.win ws T = some (vs, T') ∧ vs.map Prod.snd = ws ∧
      TSplit.Using v0 vs A T' ∧
      (∀ (k : Nat) v (j : Nat) v', vs[k]? = some v → vs[j]? = some v' → j ≠ k → v'.1 ≠ v.1) ∧
      ∀ v ∈ vs, ∀ y, T'.perm v.1 y = .reserved := by
  obtain ⟨t, T1, e1, h1⟩ := tree_obeys.mutRef h (by simp) (Sub.refl v0.win)
  obtain ⟨T2, e2, h2⟩ := tree_obeys.looks pl.before (v := ⟨t, v0.win, true⟩) (tree_obeys.enter h1)
    (.inl rfl)
  obtain ⟨p, T3, e3, h3⟩ := tree_takes.pointer pl.inner h2
  obtain ⟨T4, e4, h4⟩ := tree_takes.looks pl.after h3
  have h4 := h4.inv
  obtain ⟨vs, T5, e5, h5, m5, n5, p5, pr5, -, b5, d5⟩ := TSplit.parts_spec (v0 := ⟨t, v0.win, true⟩)
    ws T4 h4 hw
  obtain ⟨T6, e6, h6⟩ := tree_obeys.leave (c1 := [_]) h5
  obtain ⟨y1, y2⟩ := TLook.leave_rest e6
  have h6 := tree_obeys.delete (c1 := [_]) h6 rfl
  have hp := h4.known ⟨p, v0.win, false⟩ (.inl (by simp))
  simp only at hp
  have kt := h4.known ⟨t, v0.win, true⟩ (.inl (by simp))
  simp only at kt
  have k0 := h4.known v0 (.inl (by simp))
  have hab : Above T4 ⟨p, v0.win, false⟩ v0 := (List.pairwise_cons.1 h4.nested).1 v0 (by simp)
  have habt : Above T4 ⟨p, v0.win, false⟩ ⟨t, v0.win, true⟩ :=
    (List.pairwise_cons.1 h4.nested).1 _ (by simp)
  have hperm : ∀ v ∈ vs, ∀ y, T6.perm v.1 y = .reserved := by
    intro v hv y
    obtain ⟨a, b, c, d⟩ := b5 v hv
    rw [TLook.leave_below e6 (r := v.1) ?_ y, d y]
    refine ⟨?_, by omega⟩
    rw [c]
    exact List.mem_cons_of_mem _ (habt.1 _ kt.2)
  have hU : TSplit.Using v0 vs (T4.path p) T6 := by
    refine ⟨tree_obeys.pop h6 rfl, ?_, ?_, ?_, ?_⟩
    · intro v hv
      obtain ⟨a, b, c, -⟩ := b5 v hv
      refine ⟨by omega, by rw [y1, c], fun hc => ?_, by omega, hw _ ?_⟩
      · have := h4.fresh p hp.1 _ hc
        omega
      · rw [← m5]
        exact List.mem_map_of_mem hv
    · rw [y1, p5 _ k0.1]
      refine ⟨hab.1, fun r hr => ?_⟩
      have hlt := h4.fresh p hp.1 r hr
      rw [p5 _ hlt]
      exact ⟨by omega, hab.2.2 r hr⟩
    · intro r hr x hx
      refine h6.writable ⟨p, v0.win, false⟩ (by simp) x hx r ?_
      simp only
      rw [y1, p5 _ hp.1]
      exact hr
    · intro k v hk x hx
      rw [hperm v (List.mem_of_getElem? hk) x]
      exact ⟨.inl rfl, fun hc => by cases hc⟩
  have hdis : ∀ (k : Nat) v (j : Nat) v', vs[k]? = some v → vs[j]? = some v' → j ≠ k →
      v'.1 ≠ v.1 := by
    intro k v j v' hk hj hne
    obtain ⟨lk, rfl⟩ := List.getElem?_eq_some_iff.1 hk
    obtain ⟨lj, rfl⟩ := List.getElem?_eq_some_iff.1 hj
    rw [List.pairwise_iff_getElem] at d5
    rcases Nat.lt_or_gt_of_ne hne with hlt | hlt
    · exact (d5 j k lj lk hlt).ne
    · exact (d5 k j lk lj hlt).ne'
  simp only at e2 e3 e4
  refine ⟨vs, T6, T4.path p, ?_, m5, hU, hdis, hperm⟩
  simp only [Rules.splitIn, e1, e2, e3, e4, e5, e6, Option.bind_eq_bind, Option.bind_some,
    Option.pure_def]

/-- The same parts may be used as for other matrices. -/
theorem TSplit.splitAndUseIn_iff (pl : Plan) {v0 : Ref} {ws : List Window} {us : List Use}
    {T : GTree} (h : TreeInv T [v0] []) (hw : ∀ w ∈ ws, Sub w v0.win)
    (hu : ∀ u ∈ us, u.Valid ws) :
    (GTree.rules.splitAndUseIn pl v0.tag v0.win ws us T).isSome ↔
      us.Pairwise (fun u v => ¬ Tree.Clash ws u v) := by
  obtain ⟨vs, T', A, e, m, hU, hdis, hperm⟩ := TSplit.splitIn_using pl h hw
  simp only [Rules.splitAndUseIn, e, Option.bind_eq_bind, Option.bind_some]
  exact TSplit.uses_exact m hU hdis hperm hu

end Householder.Spec
