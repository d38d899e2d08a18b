import Verif.Model.GuardsSplit
import Verif.Lemmas.GuardsTree
import Verif.Lemmas.BorrowTree

/-!
# Lemmas: the parts of a split matrix, under the rules with protectors
-/

namespace Householder.Spec

open Borrow

/-- Sequences of uses, for both models: a view is good until another one's use clashes with it. -/
theorem uses_iff {S : Type} (R : Rules S) (vs : List (Nat × Window)) (Inv : S → Prop)
    (Good : S → Nat → Prop) (C : Use → Nat → Prop) (Valid : Use → Prop)
    (hgood : ∀ s u, Inv s → Valid u → Good s u.view → ∃ s', R.use vs u s = some s' ∧ Inv s' ∧
      ∀ v, Valid v → (Good s' v.view ↔ Good s v.view ∧ ¬ C u v.view))
    (hbad : ∀ s u, Inv s → Valid u → ¬ Good s u.view → R.use vs u s = none) :
    ∀ (us : List Use) (s : S), Inv s → (∀ u ∈ us, Valid u) →
    ((R.uses vs us s).isSome ↔
      (∀ u ∈ us, Good s u.view) ∧ us.Pairwise fun u v => ¬ C u v.view) := by
  intro us
  induction us with
  | nil => intro s _ _; simp [Rules.uses]
  | cons u us ih =>
    intro s hI hv
    have hu := hv u (by simp)
    have hus : ∀ v ∈ us, Valid v := fun v h => hv v (by simp [h])
    by_cases hg : Good s u.view
    · obtain ⟨s', e, hI', hk⟩ := hgood s u hI hu hg
      simp only [Rules.uses, e, Option.bind_some, ih s' hI' hus, List.pairwise_cons,
        List.mem_cons, forall_eq_or_imp, hg, true_and]
      constructor
      · rintro ⟨a, b⟩
        exact ⟨fun v h => ((hk v (hus v h)).1 (a v h)).1, fun v h => ((hk v (hus v h)).1 (a v h)).2, b⟩
      · rintro ⟨a, b, c⟩
        exact ⟨fun v h => (hk v (hus v h)).2 ⟨a v h, b v h⟩, c⟩
    · simp only [Rules.uses, hbad s u hI hu hg, Option.bind_none]
      constructor
      · intro h; cases h
      · rintro ⟨a, -⟩
        exact absurd (a u (by simp)) hg

theorem Obeys.pointerMut {S : Type} {R : Rules S} {I : S → List Ref → List Ref → Prop}
    (H : Obeys R I) {s : S} {v : Ref} {c sh : List Ref} (h : I s (v :: c) sh)
    (hs : ∀ u ∈ sh, u.arg = false) :
    ∃ t s', R.pointerMut v.tag v.win s = some (t, s') ∧ I s' (⟨t, v.win, false⟩ :: v :: c) [] := by
  obtain ⟨t1, s1, e1, h1⟩ := H.mutRef h hs (Sub.refl v.win)
  obtain ⟨t2, s2, e2, h2⟩ := H.mutRef h1 (by simp) (Sub.refl v.win)
  have h3 := H.enter h2
  obtain ⟨t4, s4, e4, h4⟩ := H.mutRaw h3 (by simp) (Sub.refl v.win)
  obtain ⟨s5, e5, h5⟩ := H.leave (c1 := [_]) h4
  refine ⟨t4, s5, ?_, ?_⟩
  · simp only [Rules.pointerMut, e1, e2, e4, e5, Option.bind_eq_bind, Option.bind_some,
      Option.pure_def]
  · exact H.delete (c1 := [_]) (H.delete (c1 := [_]) h5 rfl) rfl

theorem Obeys.pointer {S : Type} {R : Rules S} {I : S → List Ref → List Ref → Prop}
    (H : Obeys R I) {s : S} {v : Ref} {c sh : List Ref} (h : I s c sh) (hv : Usable c sh v) :
    ∃ t s', R.pointer v.tag v.win s = some (t, s') ∧ I s' c (⟨t, v.win, false⟩ :: sh) := by
  obtain ⟨t1, s1, e1, h1⟩ := H.shrRef h hv (Sub.refl v.win)
  obtain ⟨t2, s2, e2, h2⟩ := H.shrRef (v := ⟨t1, v.win, false⟩) h1 (.inr (by simp))
    (Sub.refl v.win)
  have h3 := H.enterShared h2
  obtain ⟨t4, s4, e4, h4⟩ := H.shrRaw (v := ⟨t2, v.win, true⟩) h3 (by simp) (Sub.refl v.win)
  obtain ⟨s5, e5, h5⟩ := H.leaveShared (sh1 := [_]) h4
  refine ⟨t4, s5, ?_, H.weaken h5 (fun u hu => ?_) ?_⟩
  · simp only [Rules.pointer, e1, e2, e4, e5, Option.bind_eq_bind, Option.bind_some, Option.pure_def]
  · simp only [List.mem_cons] at hu
    rcases hu with rfl | hu <;> simp [*]
  · intro u hu ha
    simp only [List.cons_append, List.nil_append, List.mem_cons] at hu
    rcases hu with rfl | rfl | rfl | hu
    · cases ha
    · cases ha
    · cases ha
    · exact List.mem_cons_of_mem _ hu

/-! ## Stacked Borrows -/

namespace GSplit

/-- The effect of accesses through references to `w`, on what was there before. -/
structure Eff (w : Window) (g g' : GStacks) : Prop where
  next : g.cells.next ≤ g'.cells.next
  outside : ∀ x, ¬ w.Has x → g'.cells.stack x = g.cells.stack x
  absent : ∀ t x, t < g.cells.next → Absent t (g.cells.stack x) → Absent t (g'.cells.stack x)

theorem Eff.trans {w : Window} {g g' g'' : GStacks} (h : Eff w g g') (h' : Eff w g' g'') :
    Eff w g g'' :=
  ⟨h.next.trans h'.next, fun x hx => (h'.outside x hx).trans (h.outside x hx),
    fun t x ht ha => h'.absent t x (ht.trans_le h.next) (h.absent t x ht ha)⟩

theorem access_eff {b : Bool} {t : Nat} {v w : Window} {g g' : GStacks} (hv : Sub v w)
    (h : g.access b t v = some g') : Eff w g g' := by
  simp only [GStacks.access] at h
  cases hs : g.cells.access b t v with
  | none => rw [hs] at h; cases h
  | some s' =>
    rw [hs] at h
    simp only at h
    split at h
    · cases h
      obtain ⟨h1, h2, -⟩ := Stacks.access_stack hs
      exact ⟨h1.ge, fun x hx => h2 x fun hx' => hx (hv x hx'),
        fun u x _ hu => Stacks.access_absent hs hu⟩
    · cases h

theorem push_eff {p : Perm} {v w : Window} {g : GStacks} (hv : Sub v w) :
    Eff w g (g.push p v).2 := by
  refine ⟨Nat.le_succ _, fun x hx => ?_, fun u x hu ha => ?_⟩
  · simp only [GStacks.push, Stacks.push]
    rw [if_neg fun hx' => hx (hv x hx')]
  · exact Stacks.push_absent (by omega) ha

theorem ref_eff {b : Bool} {p : Perm} {t r : Nat} {v w : Window} {g g' : GStacks} (hv : Sub v w)
    (h : (g.access b t v).map (GStacks.push p v) = some (r, g')) : Eff w g g' := by
  cases ha : g.access b t v with
  | none => rw [ha] at h; cases h
  | some g1 =>
    rw [ha] at h
    have : g' = (g1.push p v).2 := by
      have := congrArg (Option.map Prod.snd) h
      simpa using this.symm
    rw [this]
    exact (access_eff hv ha).trans (push_eff hv)

theorem set_eff {t x : Nat} {w : Window} {g g' : GStacks} (hx : w.Has x)
    (h : GStacks.rules.set t w x g = some g') : Eff w g g' := by
  simp only [Rules.set, Option.bind_eq_bind, Option.bind_eq_some_iff] at h
  obtain ⟨⟨t1, g1⟩, e1, ⟨t2, g2⟩, e2, ⟨t3, g3⟩, e3, g4, e4, e5⟩ := h
  have f1 := ref_eff (Sub.refl w) e1
  have f2 := ref_eff (Sub.refl w) e2
  have f3 : Eff w (GStacks.rules.enter t2 g2) g3 := ref_eff (sub_one hx) e3
  have f3' : Eff w g2 g3 := ⟨f3.next, f3.outside, f3.absent⟩
  have f4 : Eff w g3 g4 := by
    simp only [GStacks.rules, Option.some.injEq] at e4
    subst e4
    exact ⟨le_refl _, fun _ _ => rfl, fun _ _ _ h => h⟩
  exact (((f1.trans f2).trans f3').trans f4).trans (access_eff (sub_one hx) e5)

theorem get_eff {t x : Nat} {w : Window} {g g' : GStacks} (hx : w.Has x)
    (h : GStacks.rules.get t w x g = some g') : Eff w g g' := by
  simp only [Rules.get, Option.bind_eq_bind, Option.bind_eq_some_iff] at h
  obtain ⟨⟨t1, g1⟩, e1, ⟨t2, g2⟩, e2, ⟨t3, g3⟩, e3, g4, e4, e5⟩ := h
  have f1 := ref_eff (Sub.refl w) e1
  have f2 := ref_eff (Sub.refl w) e2
  have f3 : Eff w (GStacks.rules.enter t2 g2) g3 := ref_eff (sub_one hx) e3
  have f3' : Eff w g2 g3 := ⟨f3.next, f3.outside, f3.absent⟩
  have f4 : Eff w g3 g4 := by
    simp only [GStacks.rules, Option.some.injEq] at e4
    subst e4
    exact ⟨le_refl _, fun _ _ => rfl, fun _ _ _ h => h⟩
  exact (((f1.trans f2).trans f3').trans f4).trans (access_eff (sub_one hx) e5)

theorem access_dead {b : Bool} {t x : Nat} {w : Window} {g : GStacks} (hx : w.Has x)
    (h : Absent t (g.cells.stack x)) : g.access b t w = none := by
  simp only [GStacks.access, Stacks.access_none hx h]

/-- A write through `p` removes exactly what is newer, if no raw pointer is. -/
theorem write_exact {p : Nat} {k : Stack} (ho : Ordered k) (hn : ∀ e ∈ k, p < e.tag → e.perm ≠ .sharedRW)
    {g : Entry} (hg : g ∈ k) (hgr : g.Grants true p) :
    ∃ k', k.write p = some k' ∧ Ordered k' ∧ ∀ e, e ∈ k' ↔ e ∈ k ∧ e.tag ≤ p := by
  obtain ⟨a, b, rfl⟩ := List.append_of_mem hg
  have ho' := ho
  simp only [Ordered, List.pairwise_append, List.pairwise_cons] at ho
  have hlt : ∀ e ∈ a, p < e.tag := fun e he => by
    have := ho.2.2 e he g (by simp)
    rw [← hgr.1]; exact this
  refine ⟨g :: b, write_at (fun e he => by have := hlt e he; omega) hgr
    (.inr fun e he => hn e (by simp [he]) (hlt e he)), ?_, fun e => ?_⟩
  · exact ho'.sublist (List.sublist_append_right _ _)
  · constructor
    · intro he
      refine ⟨List.mem_append.2 (.inr he), ?_⟩
      rcases List.mem_cons.1 he with rfl | he
      · exact hgr.1.le
      · have := ho.2.1.1 e he
        rw [← hgr.1]; exact this.le
    · rintro ⟨he, hle⟩
      rcases List.mem_append.1 he with he | he
      · have := hlt e he; omega
      · exact he

/-- What there is while the parts are made: `v0` is the reference of the matrix, `p` the pointer, `c` are
the references that `v0` was made of. -/
structure Making (v0 : Ref) (p : Nat) (c : List Ref) (g : GStacks) : Prop where
  inv : StackInv g (⟨p, v0.win, false⟩ :: v0 :: c) []
  newer : ∀ x, ∀ e ∈ g.cells.stack x, p < e.tag → e.perm ≠ .sharedRW

/-- The slice can be used. -/
def Alive (g : GStacks) (v : Nat × Window) : Prop :=
  ∀ x, v.2.Has x → ∃ e ∈ g.cells.stack x, e.Grants true v.1

/-- The slice cannot be used. -/
def Dead (g : GStacks) (v : Nat × Window) : Prop := ∃ x, v.2.Has x ∧ Absent v.1 (g.cells.stack x)

theorem mutRef_making {v0 : Ref} {p : Nat} {c : List Ref} {g : GStacks} (h : Making v0 p c g) {w : Window}
    (hw : Sub w v0.win) : ∃ g', GStacks.rules.mutRef p w g = some (g.cells.next, g') ∧
      Making v0 p c g' ∧ Eff w g g' ∧ g.cells.next < g'.cells.next ∧ Alive g' (g.cells.next, w) ∧
      ∀ t x, t < g.cells.next → p < t → w.Has x → Absent t (g'.cells.stack x) := by
  obtain ⟨t, g', e, h'⟩ := stack_obeys.mutRef h.inv (by simp) hw
  have e0 : (g.access true p w).map (GStacks.push .unique w) = some (t, g') := e
  have heff := ref_eff (Sub.refl w) e0
  cases ha : g.access true p w with
  | none => rw [ha] at e0; cases e0
  | some g1 =>
    rw [ha] at e0
    simp only [Option.map_some, Option.some.injEq] at e0
    -- the access
    cases hs : g.cells.access true p w with
    | none => simp only [GStacks.access, hs] at ha; cases ha
    | some s1 =>
      have hg1 : g1 = { g with cells := s1 } := by
        simp only [GStacks.access, hs] at ha
        split at ha
        · exact (Option.some.inj ha).symm
        · cases ha
      obtain ⟨n1, o1, i1⟩ := Stacks.access_stack hs
      have ht : t = g.cells.next := by
        have := congrArg Prod.fst e0
        simp only [GStacks.push, hg1] at this
        rw [← this, n1]
      subst ht
      have hst : ∀ x, g'.cells.stack x =
          if w.Has x then ⟨.unique, g.cells.next⟩ :: s1.stack x else s1.stack x := by
        intro x
        have := congrArg (fun q => q.2.cells.stack x) e0
        simp only [GStacks.push, Stacks.push, hg1, n1] at this
        exact this.symm
      have hex : ∀ x, w.Has x → ∀ e, e ∈ s1.stack x ↔ e ∈ g.cells.stack x ∧ e.tag ≤ p := by
        intro x hx
        obtain ⟨e, he, hgr⟩ := h.inv.writable ⟨p, v0.win, false⟩ (by simp) x (hw x hx)
        obtain ⟨k', hk', -, hm⟩ := write_exact (h.inv.ordered x) (h.newer x) he hgr
        have := i1 x hx
        rw [if_pos rfl, hk'] at this
        cases this
        exact hm
      refine ⟨g', e, ⟨stack_obeys.pop h' rfl, ?_⟩, heff, ?_, ?_, ?_⟩
      · intro x f hf hlt
        rw [hst] at hf
        split at hf
        · rcases List.mem_cons.1 hf with rfl | hf
          · simp
          · have := ((hex x ‹_› f).1 hf).2
            omega
        · rw [o1 x ‹_›] at hf
          exact h.newer x f hf hlt
      · exact h'.known ⟨g.cells.next, w, false⟩ (.inl (by simp))
      · intro x hx
        exact ⟨⟨.unique, g.cells.next⟩, by rw [hst, if_pos hx]; simp, rfl, trivial⟩
      · intro u x hu hp hx f hf
        rw [hst, if_pos hx] at hf
        rcases List.mem_cons.1 hf with rfl | hf
        · exact hu.ne'
        · have := ((hex x hx f).1 hf).2
          omega

theorem eff_alive {w : Window} {g g' : GStacks} (h : Eff w g g') {v : Nat × Window}
    (hv : Alive g v) (hm : ¬ v.2.Meets w) : Alive g' v := by
  intro x hx
  rw [h.outside x fun hx' => hm ⟨x, hx, hx'⟩]
  exact hv x hx

theorem eff_dead {w : Window} {g g' : GStacks} (h : Eff w g g') {v : Nat × Window}
    (ht : v.1 < g.cells.next) (hv : Dead g v) : Dead g' v := by
  obtain ⟨x, hx, ha⟩ := hv
  exact ⟨x, hx, h.absent _ _ ht ha⟩

/-- The parts: a part is dead if a later one meets it. -/
theorem parts_spec {v0 : Ref} {p : Nat} {c : List Ref} (ws : List Window) : ∀ (g : GStacks), Making v0 p c g →
    (∀ w ∈ ws, Sub w v0.win) →
    ∃ vs g', GStacks.rules.parts p ws g = some (vs, g') ∧ Making v0 p c g' ∧
      vs.map Prod.snd = ws ∧ g.cells.next ≤ g'.cells.next ∧
      (∀ v ∈ vs, g.cells.next ≤ v.1 ∧ v.1 < g'.cells.next) ∧
      (∀ v : Nat × Window, p < v.1 → v.1 < g.cells.next →
        (Alive g v → (∀ w ∈ ws, ¬ v.2.Meets w) → Alive g' v) ∧
        (Dead g v → Dead g' v) ∧ ((∃ w ∈ ws, v.2.Meets w) → Dead g' v)) ∧
      ∀ (k : Nat) v, vs[k]? = some v →
        ((∀ (j : Nat) w, k < j → ws[j]? = some w → ¬ v.2.Meets w) → Alive g' v) ∧
        ((∃ (j : Nat) (w : Window), k < j ∧ ws[j]? = some w ∧ v.2.Meets w) → Dead g' v) := by
  induction ws with
  | nil =>
    intro g h _
    exact ⟨[], g, rfl, h, rfl, le_refl _, by simp,
      fun v _ _ => ⟨fun h _ => h, fun h => h, by simp⟩, by simp⟩
  | cons w ws ih =>
    intro g h hs
    obtain ⟨g1, e1, h1, f1, n1, a1, d1⟩ := mutRef_making h (hs w (by simp))
    obtain ⟨vs, g2, e2, h2, m2, n2, b2, o2, p2⟩ := ih g1 h1 (fun w' hw' => hs w' (by simp [hw']))
    have hp : p < g.cells.next := h.inv.known ⟨p, v0.win, false⟩ (.inl (by simp))
    refine ⟨(g.cells.next, w) :: vs, g2, ?_, h2, by simp [m2], f1.next.trans n2, ?_, ?_, ?_⟩
    · simp only [Rules.parts, e1, e2, Option.bind_eq_bind, Option.bind_some, Option.pure_def]
    · intro v hv
      rcases List.mem_cons.1 hv with rfl | hv
      · exact ⟨le_refl _, n1.trans_le n2⟩
      · exact ⟨f1.next.trans (b2 v hv).1, (b2 v hv).2⟩
    · intro v hpv hlt
      obtain ⟨q1, q2, q3⟩ := o2 v hpv (hlt.trans_le f1.next)
      refine ⟨fun ha hm => ?_, fun hd => q2 (eff_dead f1 hlt hd), ?_⟩
      · exact q1 (eff_alive f1 ha (hm w (by simp))) (fun w' hw' => hm w' (by simp [hw']))
      · rintro ⟨w', hw', hm⟩
        rcases List.mem_cons.1 hw' with rfl | hw'
        · obtain ⟨x, hx, hx'⟩ := hm
          exact q2 ⟨x, hx, d1 v.1 x hlt hpv hx'⟩
        · exact q3 ⟨w', hw', hm⟩
    · intro k v hk
      cases k with
      | zero =>
        simp only [List.getElem?_cons_zero, Option.some.injEq] at hk
        subst hk
        obtain ⟨q1, q2, q3⟩ := o2 (g.cells.next, w) hp n1
        refine ⟨fun hm => q1 a1 fun w' hw' => ?_, ?_⟩
        · obtain ⟨j, hj⟩ := List.mem_iff_getElem?.1 hw'
          exact hm (j + 1) w' (by omega) (by simpa using hj)
        · rintro ⟨j, w', hj, hj', hm⟩
          obtain ⟨j, rfl⟩ : ∃ i, j = i + 1 := ⟨j - 1, by omega⟩
          exact q3 ⟨w', List.mem_of_getElem? (by simpa using hj'), hm⟩
      | succ k =>
        simp only [List.getElem?_cons_succ] at hk
        obtain ⟨q1, q2⟩ := p2 k v hk
        refine ⟨fun hm => q1 fun j w' hj hj' => hm (j + 1) w' (by omega) (by simpa using hj'), ?_⟩
        rintro ⟨j, w', hj, hj', hm⟩
        obtain ⟨j, rfl⟩ : ∃ i, j = i + 1 := ⟨j - 1, by omega⟩
        exact q2 ⟨j, w', by omega, by simpa using hj', hm⟩

/-- What there is while the parts are used. -/
structure Using (v0 : Ref) (vs : List (Nat × Window)) (D : Nat → Prop) (g : GStacks) : Prop where
  base : StackInv g [v0] []
  tags : ∀ v ∈ vs, v0.tag < v.1 ∧ v.1 < g.cells.next ∧ Sub v.2 v0.win
  alive : ∀ k v, vs[k]? = some v → ¬ D k → Alive g v
  dead : ∀ k v, vs[k]? = some v → D k → Dead g v

theorem Using.chain {v0 : Ref} {vs : List (Nat × Window)} {D : Nat → Prop} {g : GStacks}
    (h : Using v0 vs D g) {k : Nat} {v : Nat × Window} (hk : vs[k]? = some v) (hd : ¬ D k) :
    StackInv g [⟨v.1, v.2, false⟩, v0] [] := by
  obtain ⟨t1, t2, t3⟩ := h.tags v (List.mem_of_getElem? hk)
  refine ⟨h.base.ordered, h.base.fresh, ?_, ?_, by simp, ?_, by simp, by simp, ?_⟩
  · intro u hu
    simp only [List.mem_cons, List.not_mem_nil, or_false] at hu
    rcases hu with rfl | rfl
    · exact t2
    · exact h.base.known _ (.inl (by simp))
  · simp [t1, t3]
  · intro u hu
    simp only [List.mem_cons, List.not_mem_nil, or_false] at hu
    rcases hu with rfl | rfl
    · exact h.alive k v hk hd
    · exact h.base.writable _ (by simp)
  · intro r hr
    obtain ⟨u, hu, ha, ht⟩ := h.base.prot r hr
    exact ⟨u, hu.imp (fun hu => by simp_all) id, ha, ht⟩

theorem use_dead {b : Bool} {t x : Nat} {w : Window} {g : GStacks} (h : Dead g (t, w)) :
    (if b = true then GStacks.rules.set t w x g else GStacks.rules.get t w x g) = none := by
  obtain ⟨y, hy, ha⟩ := h
  cases b with
  | true =>
    have : GStacks.rules.mutRef t w g = none := by
      simp only [GStacks.rules, access_dead hy ha, Option.map_none]
    simp [Rules.set, this]
  | false =>
    have : GStacks.rules.shrRef t w g = none := by
      simp only [GStacks.rules, access_dead hy ha, Option.map_none]
    simp [Rules.get, this]

theorem use_alive {v0 : Ref} {vs : List (Nat × Window)} {D : Nat → Prop} {g : GStacks}
    (hdis : ∀ k v j v', vs[k]? = some v → vs[j]? = some v' → k ≠ j → ¬ D k → ¬ D j →
      ¬ v.2.Meets v'.2) (h : Using v0 vs D g) {k : Nat} {v : Nat × Window} (hk : vs[k]? = some v)
    (hd : ¬ D k) {x : Nat} (hx : v.2.Has x) (b : Bool) :
    ∃ g', (if b = true then GStacks.rules.set v.1 v.2 x g else GStacks.rules.get v.1 v.2 x g) =
      some g' ∧ Using v0 vs D g' := by
  have hc := h.chain hk hd
  have : ∃ g', (if b = true then GStacks.rules.set v.1 v.2 x g else GStacks.rules.get v.1 v.2 x g) =
      some g' ∧ StackInv g' [⟨v.1, v.2, false⟩, v0] [] ∧ Eff v.2 g g' := by
    cases b with
    | true =>
      obtain ⟨g', e, h'⟩ := stack_obeys.set hc (by simp) hx
      exact ⟨g', e, h', set_eff hx e⟩
    | false =>
      obtain ⟨g', e, h'⟩ := stack_obeys.get (v := ⟨v.1, v.2, false⟩) hc (.inl rfl) hx
      exact ⟨g', e, h', get_eff hx e⟩
  obtain ⟨g', e, h', f⟩ := this
  refine ⟨g', e, stack_obeys.pop h' rfl, ?_, ?_, ?_⟩
  · intro u hu
    obtain ⟨t1, t2, t3⟩ := h.tags u hu
    exact ⟨t1, t2.trans_le f.next, t3⟩
  · intro j u hj hdj
    by_cases hjk : j = k
    · subst hjk
      rw [hk] at hj
      cases hj
      exact h'.writable ⟨v.1, v.2, false⟩ (by simp)
    · exact eff_alive f (h.alive j u hj hdj) (hdis j u k v hj hk hjk hdj hd)
  · intro j u hj hdj
    exact eff_dead f (h.tags u (List.mem_of_getElem? hj)).2.1 (h.dead j u hj hdj)

theorem pointerMut_next {t p : Nat} {w : Window} {g g' : GStacks}
    (h : GStacks.rules.pointerMut t w g = some (p, g')) : g'.cells.next = p + 1 := by
  simp only [Rules.pointerMut, Option.bind_eq_bind, Option.bind_eq_some_iff, Option.pure_def,
    Option.some.injEq, Prod.mk.injEq] at h
  obtain ⟨⟨t1, g1⟩, e1, ⟨t2, g2⟩, e2, ⟨t3, g3⟩, e3, g4, e4, rfl, rfl⟩ := h
  have e4' : g4.cells = g3.cells := by
    simp only [GStacks.rules, Option.some.injEq] at e4
    rw [← e4]
  simp only at e3
  rw [e4']
  simp only [GStacks.rules, Option.map_eq_some_iff] at e3
  obtain ⟨g5, -, e5⟩ := e3
  simp only [GStacks.push, Stacks.push, Prod.mk.injEq] at e5
  rw [← e5.1, ← e5.2]

/-- A later part meets the part. -/
def Late (ws : List Window) (k : Nat) : Prop :=
  ∃ w, ws[k]? = some w ∧ ∃ j w', k < j ∧ ws[j]? = some w' ∧ w.Meets w'

/-- The parts after they were made. -/
theorem made {v0 : Ref} {ws : List Window} {vs : List (Nat × Window)} {g1 g2 : GStacks} {p : Nat}
    (base : StackInv g2 [v0] []) (m2 : vs.map Prod.snd = ws)
    (hpv : v0.tag < p) (hn : p < g1.cells.next)
    (b2 : ∀ v ∈ vs, g1.cells.next ≤ v.1 ∧ v.1 < g2.cells.next)
    (p2 : ∀ (k : Nat) v, vs[k]? = some v →
        ((∀ (j : Nat) w, k < j → ws[j]? = some w → ¬ v.2.Meets w) → Alive g2 v) ∧
        ((∃ (j : Nat) (w : Window), k < j ∧ ws[j]? = some w ∧ v.2.Meets w) → Dead g2 v))
    (hw : ∀ w ∈ ws, Sub w v0.win) :
    Using v0 vs (Late ws) g2 ∧
      ∀ (k : Nat) (v : Nat × Window) (j : Nat) (v' : Nat × Window), vs[k]? = some v →
        vs[j]? = some v' → k ≠ j → ¬ Late ws k → ¬ Late ws j → ¬ v.2.Meets v'.2 := by
  have hget : ∀ (k : Nat) (v : Nat × Window), vs[k]? = some v → ws[k]? = some v.2 := by
    intro k v hk
    rw [← m2, List.getElem?_map, hk]; rfl
  refine ⟨⟨base, ?_, ?_, ?_⟩, ?_⟩
  · intro v hv
    obtain ⟨b, c⟩ := b2 v hv
    refine ⟨by omega, c, hw _ ?_⟩
    rw [← m2]
    exact List.mem_map_of_mem hv
  · intro k v hk hd
    exact (p2 k v hk).1 fun j w' hj hj' hm => hd ⟨v.2, hget k v hk, j, w', hj, hj', hm⟩
  · rintro k v hk ⟨w, hw', j, w', hj, hj', hm⟩
    rw [hget k v hk] at hw'
    cases hw'
    exact (p2 k v hk).2 ⟨j, w', hj, hj', hm⟩
  · intro k v j v' hk hj hne dk dj hm
    rcases Nat.lt_or_gt_of_ne hne with hlt | hlt
    · exact dk ⟨v.2, hget k v hk, j, v'.2, hlt, hget j v' hj, hm⟩
    · obtain ⟨x, a, b⟩ := hm
      exact dj ⟨v'.2, hget j v' hj, k, v.2, hlt, hget k v hk, x, b, a⟩

/-- The split: afterwards the parts that no later part meets may be used, and no others. -/
theorem split_using {v0 : Ref} {ws : List Window} {g : GStacks} (h : StackInv g [v0] [])
    (hw : ∀ w ∈ ws, Sub w v0.win) :
    ∃ p g1 vs g2, GStacks.rules.pointerMut v0.tag v0.win g = some (p, g1) ∧
      GStacks.rules.parts p ws g1 = some (vs, g2) ∧ vs.map Prod.snd = ws ∧
      Using v0 vs (Late ws) g2 ∧
      ∀ (k : Nat) (v : Nat × Window) (j : Nat) (v' : Nat × Window), vs[k]? = some v →
        vs[j]? = some v' → k ≠ j → ¬ Late ws k → ¬ Late ws j → ¬ v.2.Meets v'.2 := by
  obtain ⟨p, g1, e1, h1⟩ := stack_obeys.pointerMut h (by simp)
  have hn := pointerMut_next e1
  have hmk : Making v0 p [] g1 := ⟨h1, fun x e he hlt => by
    have := h1.fresh x e he
    omega⟩
  obtain ⟨vs, g2, e2, h2, m2, n2, b2, -, p2⟩ := parts_spec ws g1 hmk hw
  have hpv : v0.tag < p := ((List.pairwise_cons.1 h1.nested).1 v0 (by simp)).1
  obtain ⟨hU, hdis⟩ := made (stack_obeys.pop h2.inv rfl) m2 hpv (by omega) b2 p2 hw
  exact ⟨p, g1, vs, g2, e1, e2, m2, hU, hdis⟩

/-- The uses: the parts that no later part meets may be used, and no others. -/
theorem uses_exact {v0 : Ref} {ws : List Window} {us : List Use} {vs : List (Nat × Window)}
    {g2 : GStacks} (m2 : vs.map Prod.snd = ws) (hU : Using v0 vs (Late ws) g2)
    (hdis : ∀ (k : Nat) (v : Nat × Window) (j : Nat) (v' : Nat × Window), vs[k]? = some v →
        vs[j]? = some v' → k ≠ j → ¬ Late ws k → ¬ Late ws j → ¬ v.2.Meets v'.2)
    (hu : ∀ u ∈ us, u.Valid ws) :
    (GStacks.rules.uses vs us g2).isSome ↔
      ∀ u ∈ us, ∀ w, ws[u.view]? = some w → ∀ j w', u.view < j → ws[j]? = some w' →
        ¬ w.Meets w' := by
  have hget' : ∀ (k : Nat) (w : Window), ws[k]? = some w → ∃ t, vs[k]? = some (t, w) := by
    intro k w hk
    rw [← m2, List.getElem?_map, Option.map_eq_some_iff] at hk
    obtain ⟨⟨t, w'⟩, hk, rfl⟩ := hk
    exact ⟨t, hk⟩
  have := uses_iff GStacks.rules vs (Using v0 vs (Late ws)) (fun _ k => ¬ Late ws k)
    (fun _ _ => False) (fun u => u.Valid ws)
    (by
      rintro s u hI ⟨w, hk, hx⟩ hd
      obtain ⟨t, hk⟩ := hget' _ _ hk
      obtain ⟨s', e, h'⟩ := use_alive hdis hI hk hd hx u.write
      exact ⟨s', by simp only [Rules.use, hk]; exact e, h', fun v _ => by simp⟩)
    (by
      rintro s u hI ⟨w, hk, hx⟩ hd
      obtain ⟨t, hk⟩ := hget' _ _ hk
      simp only [Rules.use, hk]
      exact use_dead (hI.dead _ _ hk (not_not.1 hd)))
    us g2 hU hu
  rw [this]
  constructor
  · rintro ⟨a, -⟩ u hu' w hw' j w' hj hj' hm
    exact a u hu' ⟨w, hw', j, w', hj, hj', hm⟩
  · intro a
    refine ⟨?_, List.pairwise_of_forall (by simp)⟩
    rintro u hu' ⟨w, hw', j, w', hj, hj', hm⟩
    exact a u hu' w hw' j w' hj hj' hm

/-- Stacked Borrows: the parts that no later part meets may be used, and no others. -/
theorem splitAndUse_iff {v0 : Ref} {ws : List Window} {us : List Use} {g : GStacks}
    (h : StackInv g [v0] []) (hw : ∀ w ∈ ws, Sub w v0.win) (hu : ∀ u ∈ us, u.Valid ws) :
    (GStacks.rules.splitAndUse v0.tag v0.win ws us g).isSome ↔
      ∀ u ∈ us, ∀ w, ws[u.view]? = some w → ∀ j w', u.view < j → ws[j]? = some w' →
        ¬ w.Meets w' := by
  obtain ⟨p, g1, vs, g2, e1, e2, m2, hU, hdis⟩ := split_using h hw
  simp only [Rules.splitAndUse, e1, e2, Option.bind_eq_bind, Option.bind_some]
  exact uses_exact m2 hU hdis hu

end GSplit

end Householder.Spec
