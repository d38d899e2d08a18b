import Verif.Lemmas.Inline

/-!
# Lemmas: a pointer that has been got and not been used, in the two models
-/

namespace Householder.Spec

open Borrow

/-! ## Stacked Borrows -/

namespace SLook

/-- Reading leaves all entries that are not unique. -/
theorem read_keeps {t : Nat} {k k' : Stack} (h : k.read t = some k') {e : Entry} (he : e ∈ k)
    (hp : e.perm ≠ .unique) : e ∈ k' := by
  simp only [Stack.read] at h
  split at h
  · cases h
  · rename_i g below hd
    cases h
    have hk := List.takeWhile_append_dropWhile (p := fun e => decide (¬ e.Grants false t)) (l := k)
    rw [hd] at hk
    rw [← hk] at he
    rcases List.mem_append.1 he with he | he
    · exact List.mem_append.2 (.inl (List.mem_map.2 ⟨e, he, by rw [if_neg hp]⟩))
    · exact List.mem_append.2 (.inr he)

/-- Reading makes no raw pointers. -/
theorem read_back {t : Nat} {k k' : Stack} (h : k.read t = some k') {e : Entry} (he : e ∈ k')
    (hp : e.perm = .sharedRW) : e ∈ k := by
  simp only [Stack.read] at h
  split at h
  · cases h
  · rename_i g below hd
    cases h
    have hk := List.takeWhile_append_dropWhile (p := fun e => decide (¬ e.Grants false t)) (l := k)
    rw [hd] at hk
    rw [← hk]
    rcases List.mem_append.1 he with he | he
    · obtain ⟨e0, he0, rfl⟩ := List.mem_map.1 he
      refine List.mem_append.2 (.inl ?_)
      split at hp
      · cases hp
      · rename_i hn
        rw [if_neg hn]
        exact he0
    · exact List.mem_append.2 (.inr he)

/-- What looking at the matrix does to the stacks. -/
structure Keeps (g g' : GStacks) : Prop where
  next : g.cells.next ≤ g'.cells.next
  entries : ∀ x, ∀ e ∈ g.cells.stack x, e.perm ≠ .unique → e ∈ g'.cells.stack x
  raws : ∀ x, ∀ e ∈ g'.cells.stack x, e.perm = .sharedRW → e ∈ g.cells.stack x

theorem shrRef_keeps {t r : Nat} {w : Window} {g g' : GStacks}
    (h : GStacks.rules.shrRef t w g = some (r, g')) : Keeps g g' := by
  simp only [GStacks.rules, Option.map_eq_some_iff] at h
  obtain ⟨g1, h1, h2⟩ := h
  simp only [GStacks.access] at h1
  cases hs : g.cells.access false t w with
  | none => rw [hs] at h1; cases h1
  | some s1 =>
    simp only [hs] at h1
    split at h1
    · cases h1
      obtain ⟨n1, o1, i1⟩ := Stacks.access_stack hs
      simp only [GStacks.push, Stacks.push, Prod.mk.injEq] at h2
      obtain ⟨-, rfl⟩ := h2
      refine ⟨by simp only [n1]; omega, fun x e he hp => ?_, fun x e he hp => ?_⟩
      · have h0 : e ∈ s1.stack x := by
          by_cases hx : w.Has x
          · have := i1 x hx
            rw [if_neg (by simp)] at this
            exact read_keeps this he hp
          · rw [o1 x hx]
            exact he
        simp only
        split
        · exact List.mem_cons_of_mem _ h0
        · exact h0
      · have h0 : e ∈ s1.stack x := by
          simp only at he
          split at he
          · rcases List.mem_cons.1 he with rfl | he
            · cases hp
            · exact he
          · exact he
        by_cases hx : w.Has x
        · have := i1 x hx
          rw [if_neg (by simp)] at this
          exact read_back this h0 hp
        · rw [o1 x hx] at h0
          exact h0
    · cases h1

theorem look_keeps (n : Nat) : ∀ {t : Nat} {w : Window} {g g' : GStacks},
    GStacks.rules.look n t w g = some g' → Keeps g g' := by
  induction n with
  | zero =>
    intro t w g g' h
    cases h
    exact ⟨le_refl _, fun _ _ h _ => h, fun _ _ h _ => h⟩
  | succ n ih =>
    intro t w g g' h
    simp only [Rules.look, Option.bind_eq_bind, Option.bind_eq_some_iff] at h
    obtain ⟨⟨t1, g1⟩, e1, g2, e2, e3⟩ := h
    have k1 := shrRef_keeps e1
    have k2 := ih e2
    simp only [GStacks.rules, Option.some.injEq] at e3
    subst e3
    exact ⟨k1.next.trans k2.next, fun x e he hp => k2.entries x e (k1.entries x e he hp) hp,
      fun x e he hp => k1.raws x e (k2.raws x e he hp) hp⟩

/-- The pointer of Stacked Borrows. -/
structure Got (g : GStacks) (p u : Ref) (c : List Ref) : Prop where
  inv : StackInv g (p :: u :: c) []
  arg : p.arg = false
  raw : ∀ x, p.win.Has x → ⟨.sharedRW, p.tag⟩ ∈ g.cells.stack x
  newer : ∀ x, ∀ e ∈ g.cells.stack x, p.tag < e.tag → e.perm ≠ .sharedRW

theorem pointer (l : List (List Nat)) : ∀ {g : GStacks} {u : Ref} {c : List Ref},
    StackInv g (u :: c) [] →
    ∃ p g', GStacks.rules.pointerMutIn l u.tag u.win g = some (p, g') ∧
      Got g' ⟨p, u.win, false⟩ u c := by
  induction l with
  | nil =>
    intro g u c h
    obtain ⟨t1, s1, e1, h1⟩ := stack_obeys.mutRef h (by simp) (Sub.refl u.win)
    obtain ⟨t2, s2, e2, h2⟩ := stack_obeys.mutRef h1 (by simp) (Sub.refl u.win)
    have h3 := stack_obeys.enter h2
    obtain ⟨t4, s4, e4, h4⟩ := stack_obeys.mutRaw h3 (by simp) (Sub.refl u.win)
    obtain ⟨s5, e5, h5⟩ := stack_obeys.leave (c1 := [_]) h4
    refine ⟨t4, s5, ?_, stack_obeys.delete (c1 := [_]) (stack_obeys.delete (c1 := [_]) h5 rfl) rfl,
      rfl, ?_, ?_⟩
    · simp only [Rules.pointerMutIn, Rules.pointerMut, e1, e2, e4, e5, Option.bind_eq_bind,
        Option.bind_some, Option.pure_def]
    · intro x hx
      have e4' := e4
      simp only [GStacks.rules, Option.map_eq_some_iff] at e4'
      obtain ⟨g6, -, e6⟩ := e4'
      simp only [GStacks.rules, Option.some.injEq] at e5
      subst e5
      simp only [GStacks.push, Stacks.push, Prod.mk.injEq] at e6
      obtain ⟨rfl, rfl⟩ := e6
      simp only at hx ⊢
      rw [if_pos hx]
      exact List.mem_cons_self
    · intro x e he hlt
      have hn : s5.cells.next = t4 + 1 := by
        simp only [GStacks.rules, Option.map_eq_some_iff] at e4
        obtain ⟨g6, -, e6⟩ := e4
        simp only [GStacks.rules, Option.some.injEq] at e5
        subst e5
        simp only [GStacks.push, Stacks.push, Prod.mk.injEq] at e6
        obtain ⟨rfl, rfl⟩ := e6
        rfl
      have := h5.fresh x e he
      simp only at hlt
      omega
  | cons ns l ih =>
    intro g u c h
    obtain ⟨t, s1, e1, h1⟩ := stack_obeys.mutRef h (by simp) (Sub.refl u.win)
    obtain ⟨s2, e2, h2⟩ := stack_obeys.looks ns (v := ⟨t, u.win, true⟩) (stack_obeys.enter h1)
      (.inl rfl)
    obtain ⟨p, s3, e3, h3⟩ := ih h2
    obtain ⟨s4, e4, h4⟩ := stack_obeys.leave (c1 := [_]) h3.inv
    refine ⟨p, s4, ?_, stack_obeys.delete (c1 := [_]) h4 rfl, rfl, ?_, ?_⟩
    · simp only at e2 e3
      simp only [Rules.pointerMutIn, e1, e2, e3, e4, Option.bind_eq_bind, Option.bind_some,
        Option.pure_def]
    · intro x hx
      simp only [GStacks.rules, Option.some.injEq] at e4
      subst e4
      exact h3.raw x hx
    · simp only [GStacks.rules, Option.some.injEq] at e4
      subst e4
      exact h3.newer

theorem look {g : GStacks} {p u : Ref} {c : List Ref} (n : Nat) (h : Got g p u c) :
    ∃ g', GStacks.rules.look n u.tag u.win g = some g' ∧ Got g' p u c := by
  obtain ⟨g', e, h'⟩ := stack_obeys.look n (v := u) (stack_obeys.pop h.inv h.arg) (.inl rfl)
  have k := look_keeps n e
  have hn := List.pairwise_cons.1 h.inv.nested
  refine ⟨g', e, ⟨h'.ordered, h'.fresh, ?_, List.pairwise_cons.2 ⟨hn.1, h'.nested⟩, by simp, ?_,
    by simp, by simp, ?_⟩, h.arg, fun x hx => k.entries x _ (h.raw x hx) (by simp),
    fun x e he hlt hp => h.newer x e (k.raws x e he hp) hlt hp⟩
  · intro v hv
    rcases hv with hv | hv
    · rcases List.mem_cons.1 hv with rfl | hv
      · exact (h.inv.known v (.inl (by simp))).trans_le k.next
      · exact h'.known v (.inl hv)
    · cases hv
  · intro v hv x hx
    rcases List.mem_cons.1 hv with rfl | hv
    · exact ⟨_, k.entries x _ (h.raw x hx) (by simp), rfl, trivial⟩
    · exact h'.writable v hv x hx
  · intro r hr
    obtain ⟨v, hv, h''⟩ := h'.prot r hr
    rcases hv with hv | hv
    · exact ⟨v, .inl (List.mem_cons_of_mem _ hv), h''⟩
    · cases hv

end SLook

theorem stack_takes : Takes GStacks.rules StackInv SLook.Got :=
  ⟨fun l h => SLook.pointer l h, fun n h => SLook.look n h, fun h => h.inv⟩

/-! ## Tree Borrows -/

namespace TLook

open TSplit

theorem weaken {N N' : Nat} {A A' : List Nat} {w : Window} {T T' : GTree} (h : REff N' A' w T T')
    (hN : N ≤ N') (hA : ∀ r, r < N → (r ∈ A' ↔ r ∈ A)) : REff N A w T T' :=
  ⟨h.next, h.path, fun r hr => h.prot r (by omega),
    fun r hr ha => h.near r (by omega) ((hA r hr).2 ha),
    fun r hr ha => h.far r (by omega) fun hc => ha ((hA r hr).1 hc)⟩

/-- What looking at the matrix does to the tree. -/
theorem look_eff (n : Nat) : ∀ {t : Nat} {w : Window} {T T' : GTree},
    (∀ r, r < T.next → ∀ q ∈ T.path r, q < T.next) → t < T.next →
    GTree.rules.look n t w T = some T' → REff T.next (T.path t) w T T' := by
  induction n with
  | zero =>
    intro t w T T' _ _ h
    cases h
    exact ⟨le_refl _, fun _ _ => rfl, fun _ _ => Iff.rfl, fun _ _ _ _ => rfl,
      fun _ _ _ _ _ => .inl rfl⟩
  | succ n ih =>
    intro t w T T' hf ht h
    simp only [Rules.look, Option.bind_eq_bind, Option.bind_eq_some_iff] at h
    obtain ⟨⟨t1, T1⟩, e1, T2, e2, e3⟩ := h
    obtain ⟨r1, rfl, n1, p1, q1, o1⟩ := ref_eff (N := T.next) (A := T.path t) (Sub.refl w)
      (le_refl _) (fun _ _ => Iff.rfl) e1
    have r2 : REff T.next (T.path t) w T1 { T1 with prot := T.next :: T1.prot } :=
      enter_eff (le_refl _)
    have hf1 : ∀ r, r < T1.next → ∀ q ∈ T1.path r, q < T1.next := by
      intro r hr q hq
      rw [n1] at hr ⊢
      by_cases e : r = T.next
      · subst e
        rw [p1] at hq
        rcases List.mem_cons.1 hq with rfl | hq
        · omega
        · have := hf t ht q hq
          omega
      · rw [r1.path r (by omega)] at hq
        have := hf r (by omega) q hq
        omega
    have r3 := ih (T := { T1 with prot := T.next :: T1.prot }) hf1
      (by simp only [n1]; omega) e2
    have r3' : REff T.next (T.path t) w { T1 with prot := T.next :: T1.prot } T2 := by
      refine weaken r3 (by simp only [n1]; omega) fun r hr => ?_
      simp only [p1, List.mem_cons]
      constructor
      · rintro (rfl | h)
        · omega
        · exact h
      · exact .inr
    have hpq : T2.path T.next = T.next :: T.path t := by
      rw [r3.path T.next (by simp only [n1]; omega)]
      exact p1
    have hperm : ∀ y, T2.perm T.next y = .frozen := by
      intro y
      rw [r3.near T.next (by simp only [n1]; omega) (by simp only [p1]; simp) y]
      exact q1 y
    have r123 := (r1.trans r2).trans r3'
    obtain ⟨r4, -, -⟩ := leave_eff (N := T.next) (A := T.path t) (w := w) (le_refl _) r123.next
      (fun r hr => by
        rw [hpq, List.mem_cons]
        constructor
        · rintro (rfl | h)
          · omega
          · exact h
        · exact .inr)
      (fun r hr q hq => hf r hr q (by rw [r123.path r hr] at hq; exact hq))
      (fun y _ => by rw [hperm y]; decide) e3
    exact r123.trans r4

theorem looks_eff (ns : List Nat) : ∀ {t : Nat} {w : Window} {T T' : GTree} {c sh : List Ref}
    {v : Ref}, TreeInv T c sh → Usable c sh v → v.tag = t → v.win = w →
    GTree.rules.looks ns t w T = some T' → REff T.next (T.path t) w T T' := by
  induction ns with
  | nil =>
    intro t w T T' c sh v _ _ _ _ h
    cases h
    exact ⟨le_refl _, fun _ _ => rfl, fun _ _ => Iff.rfl, fun _ _ _ _ => rfl,
      fun _ _ _ _ _ => .inl rfl⟩
  | cons n ns ih =>
    intro t w T T' c sh v hI hv e1 e2 h
    subst e1 e2
    simp only [Rules.looks, Option.bind_eq_some_iff] at h
    obtain ⟨T1, e1, e2⟩ := h
    obtain ⟨T1', e1', h1⟩ := tree_obeys.look n hI hv
    rw [e1] at e1'
    cases e1'
    have r1 := look_eff n hI.fresh (hI.usable_known hv).1 e1
    have r2 := ih h1 hv rfl rfl e2
    rw [r1.path _ (hI.usable_known hv).1] at r2
    exact r1.trans (weaken r2 r1.next fun _ _ => Iff.rfl)

/-- The pointer of Tree Borrows: nothing between it and the reference it was got from has been
written through. -/
structure Got (T : GTree) (p u : Ref) (c : List Ref) : Prop where
  inv : TreeInv T (p :: u :: c) []
  arg : p.arg = false
  unused : ∀ r ∈ T.path p.tag, r ∈ T.path u.tag ∨ ∀ x, p.win.Has x → T.perm r x = .reserved

/-- The protection of a reference of the chain ends through which nothing was written. -/
theorem leave_same {t : Nat} {w : Window} {T T' : GTree} (h : T.leave t w = some T')
    (hq : ∀ y, w.Has y → T.perm t y ≠ .active) {r : Nat} (hr : r < T.next)
    (hrel : r ∈ T.path t ∨ t ∈ T.path r ∧ r ≠ t) (y : Nat) : T'.perm r y = T.perm r y := by
  simp only [GTree.leave] at h
  split at h
  · rename_i hall
    cases h
    by_cases hy : w.Has y
    · have hs : (T.ending t r y).isSome := by
        have := hall (y - w.lo) (by simp only [Window.Has] at hy; omega) r hr
        rwa [show w.lo + (y - w.lo) = y by simp only [Window.Has] at hy; omega] at this
      obtain ⟨p, hp⟩ := Option.isSome_iff_exists.1 hs
      simp only [hy, hr, and_self, if_true, hp, Option.getD_some]
      simp only [GTree.ending] at hp
      split at hp
      · cases hp; rfl
      · rename_i hn
        have hna : decide (T.perm t y = .active) = false := by simp [hq y hy]
        rw [hna] at hp
        refine change_near hp ?_
        rcases hrel with h | h
        · exact h
        · exact absurd h hn
    · simp only [hy, false_and, if_false]
  · cases h

theorem leave_rest {t : Nat} {w : Window} {T T' : GTree} (h : T.leave t w = some T') :
    T'.path = T.path ∧ T'.next = T.next := by
  simp only [GTree.leave] at h
  split at h
  · cases h
    exact ⟨rfl, rfl⟩
  · cases h

/-- A mutable reference to the whole matrix. -/
theorem mutRef_step {T : GTree} {u : Ref} {c : List Ref} (h : TreeInv T (u :: c) []) :
    ∃ T', GTree.rules.mutRef u.tag u.win T = some (T.next, T') ∧
      TreeInv T' (⟨T.next, u.win, false⟩ :: u :: c) [] ∧ T'.next = T.next + 1 ∧
      T'.path T.next = T.next :: T.path u.tag ∧ (∀ y, T'.perm T.next y = .reserved) ∧
      (∀ r, r < T.next → T'.path r = T.path r) ∧
      ∀ r ∈ T.path u.tag, ∀ y, T'.perm r y = T.perm r y := by
  obtain ⟨t, T', e, h'⟩ := tree_obeys.mutRef h (by simp) (Sub.refl u.win)
  obtain ⟨r1, rfl, n1, p1, q1, -⟩ := ref_eff (N := T.next) (A := T.path u.tag) (Sub.refl u.win)
    (le_refl _) (fun _ _ => Iff.rfl) e
  have k := h.known u (.inl (by simp))
  exact ⟨T', e, h', n1, p1, q1, r1.path, fun r hr y => r1.near r (h.fresh _ k.1 r hr) hr y⟩

/-- Getting the pointer changes no permission of the reference it is got from. -/
theorem pointer (l : List (List Nat)) : ∀ {T : GTree} {u : Ref} {c : List Ref},
    TreeInv T (u :: c) [] →
    ∃ p T', GTree.rules.pointerMutIn l u.tag u.win T = some (p, T') ∧
      Got T' ⟨p, u.win, false⟩ u c ∧ T.next ≤ T'.next ∧ (∀ r, r < T.next → T'.path r = T.path r) ∧
      ∀ r ∈ T.path u.tag, ∀ y, T'.perm r y = T.perm r y := by
  induction l with
  | nil =>
    intro T u c h
    obtain ⟨T1, e1, h1, n1, p1, q1, o1, s1⟩ := mutRef_step h
    obtain ⟨T2, e2, h2, n2, p2, q2, o2, s2⟩ := mutRef_step h1
    simp only at e2 p2 s2
    obtain ⟨t4, T4, e4, h4⟩ := tree_obeys.mutRaw (tree_obeys.enter h2) (by simp) (Sub.refl u.win)
    have e4' : some (T1.next, GTree.rules.enter T1.next T2) = some (t4, T4) := e4
    simp only [Option.some.injEq, Prod.mk.injEq] at e4'
    obtain ⟨rfl, rfl⟩ := e4'
    obtain ⟨T5, e5, h5⟩ := tree_obeys.leave (c1 := [_]) h4
    have k0 := h.known u (.inl (by simp))
    obtain ⟨y1, y2⟩ := leave_rest e5
    have y1' : T5.path = T2.path := y1
    have y2' : T5.next = T2.next := y2
    have hp5 : T5.path T1.next = T1.next :: T.next :: T.path u.tag := by rw [y1', p2, p1]
    have same : ∀ r ∈ T2.path T1.next, ∀ y, T5.perm r y = T2.perm r y := by
      intro r hr y
      refine leave_same (T := GTree.rules.enter T1.next T2) e5 (fun z _ => ?_) ?_ (.inl hr) y
      · show T2.perm T1.next z ≠ .active
        rw [q2 z]; decide
      · exact h2.fresh T1.next (by omega) r hr
    have hu5 : T5.path u.tag = T.path u.tag := by rw [y1', o2 _ (by omega), o1 _ k0.1]
    refine ⟨T1.next, T5, ?_, ⟨tree_obeys.delete (c1 := [_]) (tree_obeys.delete (c1 := [_]) h5 rfl) rfl,
      rfl, ?_⟩, by omega, fun r hr => by rw [y1', o2 r (by omega), o1 r hr], ?_⟩
    · have e1' : GTree.rules.mutRef u.tag u.win T = some (T.next, T1) := e1
      simp only [Rules.pointerMutIn, Rules.pointerMut, e1', e2, e4, e5, Option.bind_eq_bind,
        Option.bind_some, Option.pure_def]
    · intro r hr
      simp only at hr
      rw [hp5] at hr
      simp only [List.mem_cons] at hr
      rw [hu5]
      rcases hr with rfl | rfl | hr
      · refine .inr fun x _ => ?_
        rw [same _ (by rw [p2]; simp), q2]
      · refine .inr fun x _ => ?_
        rw [same _ (by rw [p2, p1]; simp), s2 _ (by rw [p1]; simp), q1]
      · exact .inl hr
    · intro r hr y
      rw [same _ (by rw [p2, p1]; simp [hr]), s2 _ (by rw [p1]; simp [hr]), s1 _ hr]
  | cons ns l ih =>
    intro T u c h
    obtain ⟨T1, e1, h1, n1, p1, q1, o1, s1⟩ := mutRef_step h
    have k0 := h.known u (.inl (by simp))
    obtain ⟨T2, e2, h2⟩ := tree_obeys.looks ns (v := ⟨T.next, u.win, true⟩) (tree_obeys.enter h1)
      (.inl rfl)
    have r2 := looks_eff ns (v := ⟨T.next, u.win, true⟩) (tree_obeys.enter h1) (.inl rfl) rfl rfl e2
    have r2n : T1.next ≤ T2.next := r2.next
    have r2p : ∀ r, r < T1.next → T2.path r = T1.path r := r2.path
    have r2s : ∀ r ∈ T1.path T.next, ∀ y, T2.perm r y = T1.perm r y := fun r hr y =>
      r2.near r (h1.fresh T.next (by omega) r hr) hr y
    obtain ⟨p, T3, e3, g3, n3, o3, s3⟩ := ih h2
    simp only at e2 e3 s3
    have k2 := h2.known ⟨T.next, u.win, true⟩ (.inl (by simp))
    simp only at k2
    have hp2 : T2.path T.next = T.next :: T.path u.tag := by rw [r2p _ (by omega), p1]
    have hp3 : T3.path T.next = T.next :: T.path u.tag := by rw [o3 _ k2.1, hp2]
    have q3 : ∀ y, T3.perm T.next y = .reserved := by
      intro y
      rw [s3 _ (by rw [hp2]; simp), r2s _ (by rw [p1]; simp), q1]
    obtain ⟨T4, e4, h4⟩ := tree_obeys.leave (c1 := [_]) g3.inv
    obtain ⟨y1, y2⟩ := leave_rest e4
    have same : ∀ r ∈ T3.path p, ∀ y, T4.perm r y = T3.perm r y := by
      intro r hr y
      have kp := g3.inv.known ⟨p, u.win, false⟩ (.inl (by simp))
      refine leave_same e4 (fun z _ => by rw [q3 z]; decide) (g3.inv.fresh p kp.1 r hr) ?_ y
      have ho := g3.inv.order (u := ⟨T.next, u.win, true⟩) (z := ⟨p, u.win, false⟩) (by simp)
        (.inl (by simp)) hr
      simp only at ho
      by_cases e : r = T.next
      · exact .inl (by rw [hp3, e]; simp)
      · rcases ho with ho | ho
        · exact .inl ho
        · exact .inr ⟨ho, e⟩
    have up : ∀ r ∈ T3.path T.next, r ∈ T3.path p := by
      have hab : Above T3 ⟨p, u.win, false⟩ ⟨T.next, u.win, true⟩ :=
        (List.pairwise_cons.1 g3.inv.nested).1 _ (by simp)
      exact hab.1
    have hu4 : T4.path u.tag = T.path u.tag := by
      rw [y1, o3 _ (by omega), r2p _ (by omega), o1 _ k0.1]
    refine ⟨p, T4, ?_, ⟨tree_obeys.delete (c1 := [_]) h4 rfl, rfl, ?_⟩, by omega,
      fun r hr => by rw [y1, o3 r (by omega), r2p r (by omega), o1 r hr], ?_⟩
    · have e1' : GTree.rules.mutRef u.tag u.win T = some (T.next, T1) := e1
      simp only [Rules.pointerMutIn, e1', e2, e3, e4, Option.bind_eq_bind, Option.bind_some,
        Option.pure_def]
    · intro r hr
      simp only at hr
      rw [y1] at hr
      rw [hu4]
      rcases g3.unused r hr with h' | h'
      · simp only at h'
        rw [hp3] at h'
        rcases List.mem_cons.1 h' with rfl | h'
        · exact .inr fun x _ => by rw [same _ hr, q3]
        · exact .inl h'
      · exact .inr fun x hx => by rw [same _ hr]; exact h' x hx
    · intro r hr y
      rw [same _ (up r (by rw [hp3]; simp [hr])), s3 _ (by rw [hp2]; simp [hr]),
        r2s _ (by rw [p1]; simp [hr]), s1 _ hr]

theorem look {T : GTree} {p u : Ref} {c : List Ref} (n : Nat) (h : Got T p u c) :
    ∃ T', GTree.rules.look n u.tag u.win T = some T' ∧ Got T' p u c := by
  obtain ⟨T', e, h'⟩ := tree_obeys.look n (v := u) (tree_obeys.pop h.inv h.arg) (.inl rfl)
  have ku := h.inv.known u (.inl (by simp))
  have kp := h.inv.known p (.inl (by simp))
  have r := look_eff n h.inv.fresh ku.1 e
  have hn := List.pairwise_cons.1 h.inv.nested
  have hpath : ∀ q, q < T.next → T'.path q = T.path q := r.path
  have hunused : ∀ q ∈ T.path p.tag, q ∈ T.path u.tag ∨
      ∀ x, p.win.Has x → T'.perm q x = .reserved := by
    intro q hq
    by_cases hu : q ∈ T.path u.tag
    · exact .inl hu
    · refine .inr fun x hx => ?_
      have hres := (h.unused q hq).resolve_left hu x hx
      have hnp : q ∉ T.prot := by
        intro hc
        obtain ⟨z, hz, ha, rfl⟩ := h.inv.prot q hc
        rcases hz with hz | hz
        · rcases List.mem_cons.1 hz with rfl | hz
          · rw [h.arg] at ha; cases ha
          · rcases List.mem_cons.1 hz with rfl | hz
            · exact hu ku.2
            · have hab : Above T u z := (List.pairwise_cons.1 hn.2).1 z hz
              exact hu (hab.1 _ (h.inv.known z (.inl (by simp [hz]))).2)
        · cases hz
      rcases r.far q (h.inv.fresh _ kp.1 q hq) hu hnp x with e' | ⟨-, e'⟩ <;> rw [e', hres]
      rfl
  refine ⟨T', e, ⟨h'.fresh, ?_, List.pairwise_cons.2 ⟨?_, h'.nested⟩, by simp, ?_, by simp, by simp,
    ?_⟩, h.arg, ?_⟩
  · intro v hv
    rcases hv with hv | hv
    · rcases List.mem_cons.1 hv with rfl | hv
      · exact ⟨kp.1.trans_le r.next, by rw [hpath _ kp.1]; exact kp.2⟩
      · exact h'.known v (.inl hv)
    · cases hv
  · intro z hz
    have kz := h.inv.known z (.inl (List.mem_cons_of_mem _ hz))
    obtain ⟨a1, a2, a3⟩ := hn.1 z hz
    refine ⟨?_, a2, ?_⟩
    · rw [hpath _ kp.1, hpath _ kz.1]
      exact a1
    · rw [hpath _ kp.1, hpath _ kz.1]
      intro q hq
      rw [hpath _ (h.inv.fresh _ kp.1 q hq)]
      exact a3 q hq
  · intro v hv x hx q hq
    rcases List.mem_cons.1 hv with rfl | hv
    · rw [hpath _ kp.1] at hq
      rcases hunused q hq with h1 | h1
      · refine h'.writable u (by simp) x ((hn.1 u (by simp)).2.1 x hx) q ?_
        rw [hpath _ ku.1]
        exact h1
      · exact .inl (h1 x hx)
    · exact h'.writable v hv x hx q hq
  · intro q hq
    obtain ⟨v, hv, h''⟩ := h'.prot q hq
    rcases hv with hv | hv
    · exact ⟨v, .inl (List.mem_cons_of_mem _ hv), h''⟩
    · cases hv
  · intro q hq
    rw [hpath _ kp.1] at hq
    rw [hpath _ ku.1]
    exact hunused q hq

end TLook

theorem tree_takes : Takes GTree.rules TreeInv TLook.Got :=
  ⟨fun l h => by
      obtain ⟨p, T', e, g, -⟩ := TLook.pointer l h
      exact ⟨p, T', e, g⟩,
    fun n h => TLook.look n h, fun h => h.inv⟩

end Householder.Spec
