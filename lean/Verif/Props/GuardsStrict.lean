import Verif.Props.Guards

/-!
# C87: the rules are strict

`C87_stacked_borrows` and `C87_tree_borrows` say that programs the borrow checker accepts have defined
behaviour. They would hold of rules that allow everything. Here is what the rules forbid, from any
state: sharing a mutable reference.
-/

namespace Householder.Props

open Spec Borrow

/-- No entry grants anything to `t`. -/
def Barred (t : Nat) (k : Stack) : Prop := ∀ e ∈ k, ∀ b, ¬ e.Grants b t

theorem barred_step {t u : Nat} (hu : u ≠ t) {S k : Stack} (hS : Absent t S) {b : Bool}
    (h : (if b = true then Stack.write u (⟨.unique, t⟩ :: S) else Stack.read u (⟨.unique, t⟩ :: S)) =
      some k) : Barred t k ∧ (⟨.unique, t⟩ : Entry) ∉ k := by
  have htop : ∀ b', decide (¬ (⟨.unique, t⟩ : Entry).Grants b' u) = true := fun b' => by
    simpa using not_grants_of_tag (b := b') (e := ⟨.unique, t⟩) (fun e => hu e.symm)
  cases b with
  | false =>
    simp only [Bool.false_eq_true, if_false, Stack.read] at h
    rw [List.dropWhile_cons_of_pos (p := fun e : Entry => decide (¬ e.Grants false u)) (htop false),
      List.takeWhile_cons_of_pos (p := fun e : Entry => decide (¬ e.Grants false u)) (htop false)] at h
    cases hd : S.dropWhile (fun e => decide (¬ e.Grants false u)) with
    | nil => rw [hd] at h; cases h
    | cons g below =>
      rw [hd] at h
      cases h
      have key : ∀ e ∈ List.map (fun e : Entry => if e.perm = .unique then { e with perm := .disabled } else e)
          ((⟨.unique, t⟩ : Entry) :: S.takeWhile (fun e => decide (¬ e.Grants false u))) ++ g :: below,
          e = ⟨.disabled, t⟩ ∨ e.tag ≠ t := by
        intro e he
        rw [List.mem_append, List.map_cons, List.mem_cons] at he
        rcases he with (rfl | he) | he
        · exact .inl rfl
        · obtain ⟨e0, h0, rfl⟩ := List.mem_map.1 he
          have := hS e0 ((List.takeWhile_sublist _).subset h0)
          refine .inr ?_
          split <;> exact this
        · exact .inr (hS e (mem_of_dropWhile hd he))
      refine ⟨fun e he b' hg => ?_, fun he => ?_⟩
      · rcases key e he with rfl | hne
        · exact hg.2
        · exact hne hg.1
      · rcases key _ he with e | hne
        · cases e
        · exact hne rfl
  | true =>
    have key : ∀ e ∈ k, e.tag ≠ t := by
      intro e he
      have hm := mem_of_write (by simpa using h) he
      rcases List.mem_cons.1 hm with rfl | hm
      · exfalso
        simp only [if_true, Stack.write] at h
        rw [List.dropWhile_cons_of_pos (p := fun e : Entry => decide (¬ e.Grants true u)) (htop true),
          List.takeWhile_cons_of_pos (p := fun e : Entry => decide (¬ e.Grants true u)) (htop true)] at h
        cases hd : S.dropWhile (fun e => decide (¬ e.Grants true u)) with
        | nil => rw [hd] at h; cases h
        | cons g below =>
          rw [hd] at h
          cases h
          rw [List.mem_append] at he
          rcases he with he | he
          · split at he
            · rw [List.mem_reverse] at he
              have := List.mem_takeWhile_imp he
              simp at this
            · cases he
          · exact hS _ (mem_of_dropWhile hd he) rfl
      · exact hS e hm
    exact ⟨fun e he b' hg => key e he hg.1, fun he => key _ he rfl⟩

theorem barred_none {t : Nat} {k : Stack} (h : Barred t k) (b : Bool) :
    (if b = true then k.write t else k.read t) = none := by
  have hd : ∀ b', k.dropWhile (fun e => decide (¬ e.Grants b' t)) = [] := fun b' => by
    rw [List.dropWhile_eq_nil_iff]
    intro e he
    simpa using h e he b'
  cases b
  · simp only [Bool.false_eq_true, if_false, Stack.read]
    rw [hd false]
  · simp only [if_true, Stack.write]
    rw [hd true]

/-- **C87, what Stacked Borrows forbid.** From any state: once a mutable reference has been made, an
access to one of its cells through any other reference that exists (for reading or writing) is
undefined behaviour while the new reference is protected; if it is not, any later use of the new
reference at that cell is. -/
theorem C87_stacked_strict {g g1 : GStacks} (hf : ∀ x, ∀ e ∈ g.cells.stack x, e.tag < g.cells.next)
    {p t : Nat} {w : Window} (h : GStacks.rules.mutRef p w g = some (t, g1)) {x : Nat} (hx : w.Has x)
    {u : Nat} (hu : u ≠ t) (write : Bool) :
    GStacks.rules.access write u (.one x) (GStacks.rules.enter t g1) = none ∧
      ∀ g2, GStacks.rules.access write u (.one x) g1 = some g2 →
        ∀ again, GStacks.rules.access again t (.one x) g2 = none := by
  simp only [GStacks.rules, Option.map_eq_some_iff] at h
  obtain ⟨g0, h0, h⟩ := h
  have ht : t = g0.cells.next := by cases h; rfl
  have hcells : g0.cells.next = g.cells.next ∧ Absent g.cells.next (g0.cells.stack x) := by
    unfold GStacks.access at h0
    split at h0
    · cases h0
    · rename_i s' hs
      split at h0
      · cases h0
        refine ⟨(Stacks.access_stack hs).1, Stacks.access_absent hs fun e he => ?_⟩
        have := hf x e he
        omega
      · cases h0
  have hst : g1.cells.stack x = ⟨.unique, t⟩ :: g0.cells.stack x := by
    cases h
    show (if w.Has x then _ else _) = _
    rw [if_pos hx]
  rw [ht, hcells.1] at hst
  have htn : t = g.cells.next := ht.trans hcells.1
  have hone : (Window.one x).Has x := ⟨le_refl _, by simp [Window.one]⟩
  constructor
  · show GStacks.access write u (.one x) _ = none
    unfold GStacks.access
    split
    · rfl
    · rename_i s' hs
      rw [if_neg]
      intro hall
      have h1 := (Stacks.access_stack hs).2.2 x hone
      simp only [GStacks.rules] at h1
      rw [hst, ← htn] at h1
      rw [← htn] at hst
      have h2 := hall 0 (by simp [Window.one]) ⟨.unique, t⟩ (by
        show _ ∈ g1.cells.stack (x + 0)
        rw [Nat.add_zero, hst]
        exact List.mem_cons_self ..) (by simp [GStacks.rules])
      refine (barred_step hu (b := write) (k := s'.stack x) ?_ h1).2 ?_
      · rw [htn]; exact hcells.2
      · exact h2
  · intro g2 h2 again
    show GStacks.access again t (.one x) g2 = none
    change GStacks.access write u (.one x) g1 = some g2 at h2
    unfold GStacks.access at h2
    split at h2
    · cases h2
    · rename_i s' hs
      split at h2
      · cases h2
        have h1 := (Stacks.access_stack hs).2.2 x hone
        rw [hst, ← htn] at h1
        have hb := (barred_step hu (b := write) (k := s'.stack x) (by rw [htn]; exact hcells.2) h1).1
        unfold GStacks.access Stacks.access
        simp only
        rw [if_neg]
        intro hall
        have := hall 0 (by simp [Window.one])
        simp only [Window.one, Nat.add_zero] at this
        rw [barred_none hb again] at this
        cases this
      · cases h2

/-- **C87, what Tree Borrows forbid.** From any state: once a mutable reference has been made and
written to, an access to one of its cells through a reference that existed before (for reading or
writing) is undefined behaviour while the new reference is protected; if it is not, any later write
through the new reference at that cell is, and any later read if the access was a write. -/
theorem C87_tree_strict {T T1 T2 : GTree} (hf : ∀ r, r < T.next → ∀ q ∈ T.path r, q < T.next)
    {p t : Nat} {w : Window} (h : GTree.rules.mutRef p w T = some (t, T1)) {x : Nat}
    (hw : GTree.rules.access true t (.one x) T1 = some T2)
    {u : Nat} (hu : u < T.next) (hprot : t ∉ T.prot) (write : Bool) :
    GTree.rules.access write u (.one x) (GTree.rules.enter t T2) = none ∧
      ∀ T3, GTree.rules.access write u (.one x) T2 = some T3 →
        GTree.rules.access true t (.one x) T3 = none ∧
          (write = true → GTree.rules.access false t (.one x) T3 = none) := by
  simp only [GTree.rules, Option.map_eq_some_iff] at h
  obtain ⟨T0, h0, h⟩ := h
  have hacc : ∀ {b : Bool} {r : Nat} {v : Window} {A B : GTree}, A.access b r v = some B →
      B.next = A.next ∧ B.path = A.path ∧ B.prot = A.prot ∧ ∀ q y, B.perm q y =
        if v.Has y ∧ q < A.next then (A.change b r q y).getD .disabled else A.perm q y := by
    intro b r v A B e
    unfold GTree.access at e
    split at e
    · cases e; exact ⟨rfl, rfl, rfl, fun _ _ => rfl⟩
    · cases e
  obtain ⟨hn0, hp0, hr0, -⟩ := hacc h0
  have ht : t = T.next := by cases h; exact hn0
  have h1 : T1.next = T.next + 1 ∧ T1.prot = T.prot ∧ T1.perm t x = .reserved ∧
      T1.path t = t :: T.path p ∧ T1.path u = T.path u := by
    cases h
    refine ⟨by show T0.next + 1 = _; rw [hn0], hr0, ?_, ?_, ?_⟩
    · show (if T0.next = T0.next then _ else _) = _
      rw [if_pos rfl]
    · show (if T0.next = T0.next then _ else _) = _
      rw [if_pos rfl, hp0]
    · show (if u = T0.next then _ else _) = _
      rw [if_neg (by omega), hp0]
  obtain ⟨e1, e2, e3, e4, e5⟩ := h1
  have hone : (Window.one x).Has x := ⟨le_refl _, by simp [Window.one]⟩
  change T1.access true t (.one x) = some T2 at hw
  obtain ⟨f1, f2, f3, f4⟩ := hacc hw
  have htn : t < T1.next := by omega
  have hact : T2.perm t x = .active := by
    rw [f4 t x, if_pos ⟨hone, htn⟩]
    simp [GTree.change, e3, e4, GPerm.write]
  have hfar : t ∉ T2.path u := by
    rw [f2, e5, ht]
    exact fun hm => absurd (hf u hu _ hm) (lt_irrefl _)
  have hself : t ∈ T2.path t := by rw [f2, e4]; exact List.mem_cons_self ..
  have htn2 : t < T2.next := by omega
  constructor
  · show GTree.access write u (.one x) { T2 with prot := t :: T2.prot } = none
    unfold GTree.access
    rw [if_neg]
    intro hall
    have := hall 0 (by simp [Window.one]) t htn2
    cases write <;>
      simp [GTree.change, Window.one, hact, hfar, GPerm.read, GPerm.write] at this
  · intro T3 h3
    change T2.access write u (.one x) = some T3 at h3
    obtain ⟨k1, k2, k3, k4⟩ := hacc h3
    have hq : t ∉ T2.prot := by rw [f3, e2]; exact hprot
    have hperm := k4 t x
    rw [if_pos ⟨hone, htn2⟩] at hperm
    have hself3 : t ∈ T3.path t := by rw [k2]; exact hself
    have none_of : ∀ b, T3.change b t t x = none → T3.access b t (.one x) = none := by
      intro b hb
      unfold GTree.access
      rw [if_neg]
      intro hall
      have := hall 0 (by simp [Window.one]) t (by omega)
      simp only [Window.one, Nat.add_zero] at this
      rw [hb] at this
      cases this
    refine ⟨none_of true ?_, ?_⟩
    · cases write <;>
        simp [GTree.change, hact, hfar, GPerm.read, GPerm.write, hq] at hperm <;>
        simp [GTree.change, hperm, hself3, GPerm.write]
    · rintro rfl
      refine none_of false ?_
      simp [GTree.change, hact, hfar, GPerm.write, hq] at hperm
      simp [GTree.change, hperm, hself3, GPerm.read]

/-- The states of the examples meet the assumptions. -/
example : (GStacks.rules.mutRef 0 ⟨1, 2⟩ freshGStacks).isSome ∧
    (GTree.rules.mutRef 0 ⟨1, 2⟩ freshGTree).isSome ∧
    (0 : Nat) ≠ 1 ∧ (Window.mk 1 2).Has 2 := by decide

example : ∀ x, ∀ e ∈ freshGStacks.cells.stack x, e.tag < freshGStacks.cells.next := by
  intro x e he
  change e ∈ [_] at he
  obtain rfl := List.mem_singleton.1 he
  decide

end Householder.Props
