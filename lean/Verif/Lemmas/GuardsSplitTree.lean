import Verif.Lemmas.GuardsSplit

/-!
# Lemmas: the parts of a split matrix, under Tree Borrows with protectors
-/

namespace Householder.Spec

open Borrow

namespace TSplit

/-- What a read through another reference leaves of a permission. -/
def faded : GPerm → GPerm
  | .active => .frozen
  | p => p

theorem access_cases {b : Bool} {t : Nat} {v : Window} {T T' : GTree}
    (h : T.access b t v = some T') : T'.next = T.next ∧ T'.path = T.path ∧ T'.prot = T.prot ∧
      (∀ r y, ¬ v.Has y → T'.perm r y = T.perm r y) ∧
      ∀ r y, r < T.next → v.Has y → T.change b t r y = some (T'.perm r y) := by
  simp only [GTree.access] at h
  split at h
  · rename_i hall
    cases h
    refine ⟨rfl, rfl, rfl, fun r y hy => if_neg fun hc => hy hc.1, fun r y hr hy => ?_⟩
    have hs : (T.change b t r y).isSome := by
      have := hall (y - v.lo) (by simp only [Window.Has] at hy; omega) r hr
      rwa [show v.lo + (y - v.lo) = y by simp only [Window.Has] at hy; omega] at this
    obtain ⟨p, hp⟩ := Option.isSome_iff_exists.1 hs
    simp only [hy, hr, and_self, if_true, hp, Option.getD_some]
  · cases h

theorem change_near {t r y : Nat} {T : GTree} {p : GPerm} (h : T.change false t r y = some p)
    (hr : r ∈ T.path t) : p = T.perm r y := by
  simp only [GTree.change, Bool.false_eq_true, if_false] at h
  cases hq : T.perm r y <;> simp_all [GPerm.read]

theorem change_far {t r y : Nat} {T : GTree} {p : GPerm} (h : T.change false t r y = some p)
    (hr : r ∉ T.path t) (hp : r ∉ T.prot) : p = faded (T.perm r y) := by
  simp only [GTree.change, Bool.false_eq_true, if_false] at h
  cases hq : T.perm r y <;> simp_all [GPerm.read, faded]

theorem change_write_near {t r y : Nat} {T : GTree} {p : GPerm} (h : T.change true t r y = some p)
    (hr : r ∈ T.path t) : p = .active := by
  simp only [GTree.change, if_true] at h
  by_cases h2 : r ∈ T.prot <;> cases hq : T.perm r y <;> simp_all [GPerm.write]

theorem change_write_far {t r y : Nat} {T : GTree} {p : GPerm} (h : T.change true t r y = some p)
    (hr : r ∉ T.path t) : p = .disabled := by
  simp only [GTree.change, if_true] at h
  by_cases h2 : r ∈ T.prot <;> cases hq : T.perm r y <;> simp_all [GPerm.write]

/-- The effect of reads of `w` on the references with tags below `N`, of which those in `A` lead to
the reference that is used. -/
structure REff (N : Nat) (A : List Nat) (w : Window) (T T' : GTree) : Prop where
  next : T.next ≤ T'.next
  path : ∀ r, r < T.next → T'.path r = T.path r
  prot : ∀ r, r < N → (r ∈ T'.prot ↔ r ∈ T.prot)
  near : ∀ r, r < N → r ∈ A → ∀ y, T'.perm r y = T.perm r y
  far : ∀ r, r < N → r ∉ A → r ∉ T.prot → ∀ y, T'.perm r y = T.perm r y ∨
    w.Has y ∧ T'.perm r y = faded (T.perm r y)

theorem faded_faded (p : GPerm) : faded (faded p) = faded p := by cases p <;> rfl

theorem REff.trans {N : Nat} {A : List Nat} {w : Window} {T T' T'' : GTree} (h : REff N A w T T')
    (h' : REff N A w T' T'') : REff N A w T T'' := by
  refine ⟨h.next.trans h'.next, fun r hr => (h'.path r (hr.trans_le h.next)).trans (h.path r hr),
    fun r hr => (h'.prot r hr).trans (h.prot r hr), fun r hr ha y =>
    (h'.near r hr ha y).trans (h.near r hr ha y), fun r hr ha hp y => ?_⟩
  have hp' : r ∉ T'.prot := fun hc => hp ((h.prot r hr).1 hc)
  rcases h.far r hr ha hp y with e | ⟨hw, e⟩ <;> rcases h'.far r hr ha hp' y with e' | ⟨hw', e'⟩
  · exact .inl (e'.trans e)
  · exact .inr ⟨hw', by rw [e', e]⟩
  · exact .inr ⟨hw, by rw [e', e]⟩
  · exact .inr ⟨hw, by rw [e', e, faded_faded]⟩

theorem access_eff {N t : Nat} {A : List Nat} {v w : Window} {T T' : GTree} (hv : Sub v w)
    (hN : N ≤ T.next) (hA : ∀ r, r < N → (r ∈ T.path t ↔ r ∈ A))
    (h : T.access false t v = some T') : REff N A w T T' := by
  obtain ⟨h1, h2, h3, h4, h5⟩ := access_cases h
  refine ⟨h1.ge, fun r _ => by rw [h2], fun r _ => by rw [h3], fun r hr ha y => ?_,
    fun r hr ha hp y => ?_⟩
  · by_cases hy : v.Has y
    · exact change_near (h5 r y (by omega) hy) ((hA r hr).2 ha)
    · exact h4 r y hy
  · by_cases hy : v.Has y
    · exact .inr ⟨hv y hy, change_far (h5 r y (by omega) hy) (fun hc => ha ((hA r hr).1 hc)) hp⟩
    · exact .inl (h4 r y hy)

/-- Making a reference. -/
theorem ref_eff {N t q : Nat} {A : List Nat} {v w : Window} {T T' : GTree} {p : GPerm} (hv : Sub v w)
    (hN : N ≤ T.next) (hA : ∀ r, r < N → (r ∈ T.path t ↔ r ∈ A))
    (h : (T.access false t v).map (GTree.push p t) = some (q, T')) :
    REff N A w T T' ∧ q = T.next ∧ T'.next = T.next + 1 ∧ T'.path q = q :: T.path t ∧
      (∀ y, T'.perm q y = p) ∧ T'.prot = T.prot := by
  cases ha : T.access false t v with
  | none => rw [ha] at h; cases h
  | some T1 =>
    rw [ha] at h
    obtain ⟨h1, h2, h3, -, -⟩ := access_cases ha
    have he := access_eff hv hN hA ha
    simp only [Option.map_some, Option.some.injEq, GTree.push, Prod.mk.injEq] at h
    obtain ⟨rfl, rfl⟩ := h
    refine ⟨⟨?_, ?_, ?_, ?_, ?_⟩, h1, by simp [h1], by simp [h2], by simp, h3⟩
    · simp only [h1]; omega
    · intro r hr
      simp only [h1]
      rw [if_neg (by omega), h2]
    · intro r hr
      simp only [h3]
    · intro r hr ha' y
      simp only [h1]
      rw [if_neg (by omega)]
      exact he.near r hr ha' y
    · intro r hr ha' hp y
      simp only [h1]
      rw [if_neg (by omega)]
      exact he.far r hr ha' hp y

/-- A parameter that was made last is protected. -/
theorem enter_eff {N t : Nat} {A : List Nat} {w : Window} {T : GTree} (ht : N ≤ t) :
    REff N A w T { T with prot := t :: T.prot } := by
  refine ⟨le_refl _, fun _ _ => rfl, fun r hr => ?_, fun _ _ _ _ => rfl, fun _ _ _ _ _ => .inl rfl⟩
  simp only [List.mem_cons]
  constructor
  · rintro (rfl | h)
    · omega
    · exact h
  · exact .inr

/-- The protection of a reference ends that has not been used for writing. -/
theorem leave_eff {N t : Nat} {A : List Nat} {w : Window} {T T' : GTree} (ht : N ≤ t)
    (hN : N ≤ T.next) (hA : ∀ r, r < N → (r ∈ T.path t ↔ r ∈ A))
    (hold : ∀ r, r < N → ∀ q ∈ T.path r, q < N) (hq : ∀ y, w.Has y → T.perm t y ≠ .active)
    (h : T.leave t w = some T') : REff N A w T T' ∧ T'.path = T.path ∧ T'.next = T.next := by
  simp only [GTree.leave] at h
  split at h
  · rename_i hall
    cases h
    have key : ∀ r y, r < N → w.Has y → T.change false t r y =
        some ((T.ending t r y).getD .disabled) := by
      intro r y hr hy
      have e : T.ending t r y = T.change false t r y := by
        simp only [GTree.ending]
        rw [if_neg fun hc => by have := hold r hr t hc.1; omega]
        simp [hq y hy]
      have hs : (T.ending t r y).isSome := by
        have := hall (y - w.lo) (by simp only [Window.Has] at hy; omega) r (by omega)
        rwa [show w.lo + (y - w.lo) = y by simp only [Window.Has] at hy; omega] at this
      rw [e] at hs ⊢
      obtain ⟨p, hp⟩ := Option.isSome_iff_exists.1 hs
      simp [hp]
    refine ⟨⟨le_refl _, fun _ _ => rfl, fun r hr => ?_, fun r hr ha y => ?_,
      fun r hr ha hp y => ?_⟩, rfl, rfl⟩
    · simp only [List.mem_filter, decide_eq_true_eq]
      exact ⟨fun h => h.1, fun h => ⟨h, by omega⟩⟩
    · by_cases hy : w.Has y
      · simp only [hy, show r < T.next by omega, and_self, if_true]
        exact change_near (key r y hr hy) ((hA r hr).2 ha)
      · simp only [hy, false_and, if_false]
    · by_cases hy : w.Has y
      · simp only [hy, show r < T.next by omega, and_self, if_true, true_and]
        exact .inr (change_far (key r y hr hy) (fun hc => ha ((hA r hr).1 hc)) hp)
      · simp only [hy, false_and, if_false]
        exact .inl trivial
  · cases h

/-- The effect of one use on the references that were there before. -/
structure UEff (b : Bool) (t x : Nat) (w : Window) (T T' : GTree) : Prop where
  next : T.next ≤ T'.next
  path : ∀ r, r < T.next → T'.path r = T.path r
  near : ∀ r, r < T.next → r ∈ T.path t → ∀ y,
    T'.perm r y = if b = true ∧ y = x then .active else T.perm r y
  hit : ∀ r, r < T.next → r ∉ T.path t → b = true → T'.perm r x = .disabled
  far : ∀ r, r < T.next → r ∉ T.path t → r ∉ T.prot → ∀ y, ¬ (b = true ∧ y = x) →
    T'.perm r y = T.perm r y ∨ w.Has y ∧ T'.perm r y = faded (T.perm r y)

/-- The first steps of a use, up to the access. -/
theorem steps_eff {t x : Nat} {w : Window} {T T1 T2 T3 T4 : GTree} {p : GPerm} {t1 t2 t3 : Nat}
    (hx : w.Has x) (ht : t < T.next) (hf : ∀ r, r < T.next → ∀ q ∈ T.path r, q < T.next)
    (hp : p ≠ .active)
    (e1 : (T.access false t w).map (GTree.push p t) = some (t1, T1))
    (e2 : (T1.access false t1 w).map (GTree.push p t1) = some (t2, T2))
    (e3 : (GTree.access false t2 (.one x) { T2 with prot := t2 :: T2.prot }).map (GTree.push p t2) =
      some (t3, T3))
    (e4 : T3.leave t2 w = some T4) :
    REff T.next (T.path t) w T T4 ∧ T4.next = T.next + 3 ∧ T4.path t3 = t3 :: t2 :: t1 :: T.path t ∧
      t3 = T.next + 2 ∧ t2 = T.next + 1 ∧ t1 = T.next := by
  obtain ⟨f1, q1, n1, p1, m1, -⟩ := ref_eff (N := T.next) (A := T.path t) (Sub.refl w) (le_refl _)
    (fun _ _ => Iff.rfl) e1
  have hA1 : ∀ r, r < T.next → (r ∈ T1.path t1 ↔ r ∈ T.path t) := by
    intro r hr
    rw [p1, List.mem_cons]
    exact ⟨fun h => h.resolve_left (by omega), .inr⟩
  obtain ⟨f2, q2, n2, p2, m2, -⟩ := ref_eff (N := T.next) (A := T.path t) (Sub.refl w) (by omega)
    hA1 e2
  have hA2 : ∀ r, r < T.next → (r ∈ T2.path t2 ↔ r ∈ T.path t) := by
    intro r hr
    rw [p2, List.mem_cons, hA1 r hr]
    exact ⟨fun h => h.resolve_left (by omega), .inr⟩
  obtain ⟨f3, q3, n3, p3, -, -⟩ := ref_eff (N := T.next) (A := T.path t) (sub_one hx)
    (by simp only; omega) (by simpa using hA2) e3
  obtain ⟨g3, -, -, -, -, -⟩ := ref_eff (N := T2.next) (A := T2.path t2)
    (T := { T2 with prot := t2 :: T2.prot }) (sub_one hx) (le_refl _) (fun _ _ => Iff.rfl) e3
  simp only at q3 n3 p3
  have f23 : REff T.next (T.path t) w T2 T3 :=
    (enter_eff (t := t2) (by omega)).trans f3
  have hpt2 : T3.path t2 = T2.path t2 := f3.path t2 (by simp only; omega)
  have hperm : ∀ y, T3.perm t2 y = p := by
    intro y
    rw [g3.near t2 (by omega) (by rw [p2]; simp) y]
    exact m2 y
  have hold : ∀ r, r < T.next → T3.path r = T.path r := by
    intro r hr
    rw [f3.path r (by simp only; omega), f2.path r (by omega), f1.path r hr]
  obtain ⟨f4, hp4, hn4⟩ := leave_eff (N := T.next) (A := T.path t) (w := w) (by omega) (by omega)
    (by rw [hpt2]; exact hA2) (fun r hr q hq => by rw [hold r hr] at hq; exact hf r hr q hq)
    (fun y _ => by rw [hperm y]; exact hp) e4
  refine ⟨((f1.trans f2).trans f23).trans f4, by omega, ?_, by omega, by omega, q1⟩
  rw [hp4, p3, p2, p1]

theorem set_eff {t x : Nat} {w : Window} {T T' : GTree} (hx : w.Has x) (ht : t < T.next)
    (hf : ∀ r, r < T.next → ∀ q ∈ T.path r, q < T.next)
    (h : GTree.rules.set t w x T = some T') : UEff true t x w T T' := by
  simp only [Rules.set, Option.bind_eq_bind, Option.bind_eq_some_iff] at h
  obtain ⟨⟨t1, T1⟩, e1, ⟨t2, T2⟩, e2, ⟨t3, T3⟩, e3, T4, e4, e5⟩ := h
  obtain ⟨f, hn, hp, r3, r2, r1⟩ := steps_eff hx ht hf (by decide) e1 e2 e3 e4
  obtain ⟨h1, h2, h3, h4, h5⟩ := access_cases e5
  simp only at h1 h2 h3 h4 h5
  have one : ∀ y, (Window.one x).Has y ↔ y = x := by
    intro y; simp only [Window.Has, Window.one]; omega
  have hmem : ∀ r, r < T.next → (r ∈ T4.path t3 ↔ r ∈ T.path t) := by
    intro r hr
    rw [hp]
    simp only [List.mem_cons]
    constructor
    · rintro (h | h | h | h)
      · omega
      · omega
      · omega
      · exact h
    · intro h; exact .inr (.inr (.inr h))
  refine ⟨by omega, fun r hr => by rw [h2, f.path r hr], fun r hr ha y => ?_, fun r hr ha _ => ?_,
    fun r hr ha hp' y hy => ?_⟩
  · by_cases hy : y = x
    · subst hy
      rw [if_pos ⟨rfl, rfl⟩]
      exact change_write_near (h5 r y (by omega) ((one y).2 rfl)) ((hmem r hr).2 ha)
    · rw [if_neg fun hc => hy hc.2, h4 r y fun hc => hy ((one y).1 hc)]
      exact f.near r hr ha y
  · exact change_write_far (h5 r x (by omega) ((one x).2 rfl)) fun hc => ha ((hmem r hr).1 hc)
  · rw [h4 r y fun hc => hy ⟨rfl, (one y).1 hc⟩]
    exact f.far r hr ha hp' y

theorem get_eff {t x : Nat} {w : Window} {T T' : GTree} (hx : w.Has x) (ht : t < T.next)
    (hf : ∀ r, r < T.next → ∀ q ∈ T.path r, q < T.next)
    (h : GTree.rules.get t w x T = some T') : UEff false t x w T T' := by
  simp only [Rules.get, Option.bind_eq_bind, Option.bind_eq_some_iff] at h
  obtain ⟨⟨t1, T1⟩, e1, ⟨t2, T2⟩, e2, ⟨t3, T3⟩, e3, T4, e4, e5⟩ := h
  obtain ⟨f, hn, hp, r3, r2, r1⟩ := steps_eff hx ht hf (by decide) e1 e2 e3 e4
  have hmem : ∀ r, r < T.next → (r ∈ T4.path t3 ↔ r ∈ T.path t) := by
    intro r hr
    rw [hp]
    simp only [List.mem_cons]
    constructor
    · rintro (h | h | h | h)
      · omega
      · omega
      · omega
      · exact h
    · intro h; exact .inr (.inr (.inr h))
  have f' := f.trans (access_eff (N := T.next) (A := T.path t) (sub_one hx) (by omega) hmem e5)
  refine ⟨f'.next, f'.path, fun r hr ha y => ?_, fun r hr ha hb => by simp at hb,
    fun r hr ha hp' y _ => f'.far r hr ha hp' y⟩
  rw [if_neg (by simp)]
  exact f'.near r hr ha y

theorem access_bad {t y : Nat} {w : Window} {T : GTree} (hy : w.Has y) (ht : t < T.next)
    (hp : t ∈ T.path t) (hd : T.perm t y = .disabled) : T.access false t w = none := by
  simp only [GTree.access]
  rw [if_neg]
  intro hall
  have := hall (y - w.lo) (by simp only [Window.Has] at hy; omega) t ht
  rw [show w.lo + (y - w.lo) = y by simp only [Window.Has] at hy; omega] at this
  simp [GTree.change, hd, hp, GPerm.read] at this

theorem use_bad {b : Bool} {t x y : Nat} {w : Window} {T : GTree} (hy : w.Has y) (ht : t < T.next)
    (hp : t ∈ T.path t) (hd : T.perm t y = .disabled) :
    (if b = true then GTree.rules.set t w x T else GTree.rules.get t w x T) = none := by
  have ha := access_bad hy ht hp hd
  cases b with
  | true =>
    have : GTree.rules.mutRef t w T = none := by simp only [GTree.rules, ha, Option.map_none]
    simp [Rules.set, this]
  | false =>
    have : GTree.rules.shrRef t w T = none := by simp only [GTree.rules, ha, Option.map_none]
    simp [Rules.get, this]

/-- The parts: all are reserved, and derived from the pointer. -/
theorem parts_spec {v0 : Ref} {p : Nat} {c : List Ref} (ws : List Window) : ∀ (T : GTree),
    TreeInv T (⟨p, v0.win, false⟩ :: v0 :: c) [] → (∀ w ∈ ws, Sub w v0.win) →
    ∃ vs T', GTree.rules.parts p ws T = some (vs, T') ∧
      TreeInv T' (⟨p, v0.win, false⟩ :: v0 :: c) [] ∧ vs.map Prod.snd = ws ∧ T.next ≤ T'.next ∧
      (∀ r, r < T.next → T'.path r = T.path r) ∧ (∀ r ∈ T'.prot, r ∈ T.prot) ∧
      (∀ r, r < T.next → r ∉ T.path p → r ∉ T.prot → ∀ y, T.perm r y = .reserved →
        T'.perm r y = .reserved) ∧
      (∀ v ∈ vs, T.next ≤ v.1 ∧ v.1 < T'.next ∧ T'.path v.1 = v.1 :: T.path p ∧
        ∀ y, T'.perm v.1 y = .reserved) ∧
      vs.Pairwise (fun a b => a.1 < b.1) := by
  induction ws with
  | nil =>
    intro T h _
    exact ⟨[], T, rfl, h, rfl, le_refl _, fun _ _ => rfl, fun _ h => h, fun _ _ _ _ _ h => h,
      by simp, by simp⟩
  | cons w ws ih =>
    intro T h hs
    have hp := h.known ⟨p, v0.win, false⟩ (.inl (by simp))
    simp only at hp
    obtain ⟨t, T1, e1, h1⟩ := tree_obeys.mutRef h (by simp) (hs w (by simp))
    have h1 := tree_obeys.pop h1 rfl
    obtain ⟨f, q, n, pq, m, pr⟩ := ref_eff (N := T.next) (A := T.path p) (Sub.refl w) (le_refl _)
      (fun _ _ => Iff.rfl) e1
    obtain ⟨vs, T2, e2, h2, m2, n2, p2, pr2, o2, b2, d2⟩ :=
      ih T1 h1 (fun w' hw' => hs w' (by simp [hw']))
    have hpp : T1.path p = T.path p := f.path p hp.1
    have hprot : ∀ r ∈ T.prot, r < T.next := by
      intro r hr
      obtain ⟨u, hu, -, rfl⟩ := h.prot r hr
      exact (h.known u hu).1
    refine ⟨(t, w) :: vs, T2, ?_, h2, by simp [m2], by omega, ?_, ?_, ?_, ?_, ?_⟩
    · have e1' : GTree.rules.mutRef p w T = some (t, T1) := e1
      simp only [Rules.parts, e1', e2, Option.bind_eq_bind, Option.bind_some, Option.pure_def]
    · intro r hr
      rw [p2 r (by omega), f.path r hr]
    · intro r hr
      have := pr2 r hr
      rwa [pr] at this
    · intro r hr hnp hnpr y hy
      refine o2 r (by omega) (by rw [hpp]; exact hnp) (by rw [pr]; exact hnpr) y ?_
      rcases f.far r hr hnp hnpr y with e | ⟨-, e⟩ <;> rw [e, hy]
      rfl
    · intro v hv
      rcases List.mem_cons.1 hv with rfl | hv
      · have hlt : T.next < T1.next := by omega
        have hnp : T.next ∉ T1.path p := by
          rw [hpp]
          intro hc
          exact lt_irrefl _ (h.fresh p hp.1 _ hc)
        have hnpr : T.next ∉ T1.prot := by
          rw [pr]
          exact fun hc => lt_irrefl _ (hprot _ hc)
        simp only [q] at *
        exact ⟨le_refl _, by omega, by rw [p2 _ hlt, pq], fun y => o2 _ hlt hnp hnpr y (m y)⟩
      · obtain ⟨a, b, c, d⟩ := b2 v hv
        exact ⟨by omega, b, by rw [c, hpp], d⟩
    · refine List.pairwise_cons.2 ⟨fun v hv => ?_, d2⟩
      have := (b2 v hv).1
      simp only
      omega

/-- What there is while the parts are used. -/
structure Using (v0 : Ref) (vs : List (Nat × Window)) (A : List Nat) (T : GTree) : Prop where
  base : TreeInv T [v0] []
  tags : ∀ v ∈ vs, v.1 < T.next ∧ T.path v.1 = v.1 :: A ∧ v.1 ∉ A ∧ v.1 ≠ v0.tag ∧ Sub v.2 v0.win
  above : (∀ r ∈ T.path v0.tag, r ∈ A) ∧ ∀ r ∈ A, r < T.next ∧
    (r ∈ T.path v0.tag ∨ v0.tag ∈ T.path r)
  free : ∀ r ∈ A, ∀ x, v0.win.Has x → Free (T.perm r x)
  perm : ∀ (k : Nat) v, vs[k]? = some v → ∀ x, v.2.Has x →
    (T.perm v.1 x = .reserved ∨ T.perm v.1 x = .active ∨ T.perm v.1 x = .disabled) ∧
    (T.perm v.1 x = .active → ∀ (j : Nat) v', vs[j]? = some v' → j ≠ k → v'.2.Has x →
      T.perm v'.1 x = .disabled)

/-- The part can be used. -/
def Good (vs : List (Nat × Window)) (T : GTree) (k : Nat) : Prop :=
  ∀ v, vs[k]? = some v → ∀ x, v.2.Has x → T.perm v.1 x ≠ .disabled

/-- The use is a write to a cell of another part. -/
def Hits (vs : List (Nat × Window)) (u : Use) (k : Nat) : Prop :=
  u.write = true ∧ k ≠ u.view ∧ ∃ v, vs[k]? = some v ∧ v.2.Has u.cell

theorem Using.chain {v0 : Ref} {vs : List (Nat × Window)} {A : List Nat} {T : GTree}
    (h : Using v0 vs A T) {k : Nat} {v : Nat × Window} (hk : vs[k]? = some v) (hg : Good vs T k) :
    TreeInv T [⟨v.1, v.2, false⟩, v0] [] := by
  obtain ⟨t1, t2, t3, -, t4⟩ := h.tags v (List.mem_of_getElem? hk)
  have k0 := h.base.known v0 (.inl (by simp))
  refine ⟨h.base.fresh, ?_, ?_, by simp, ?_, by simp, by simp, ?_⟩
  · intro u hu
    simp only [List.mem_cons, List.not_mem_nil, or_false] at hu
    rcases hu with rfl | rfl
    · exact ⟨t1, by simp [t2]⟩
    · exact k0
  · refine List.pairwise_cons.2 ⟨fun u hu => ?_, by simp⟩
    rw [List.mem_singleton] at hu
    subst hu
    refine ⟨fun r hr => ?_, t4, fun r hr => ?_⟩
    · simp only [t2]
      exact List.mem_cons_of_mem _ (h.above.1 r hr)
    · simp only [t2] at hr
      rcases List.mem_cons.1 hr with rfl | hr
      · right
        rw [t2]
        exact List.mem_cons_of_mem _ (h.above.1 _ k0.2)
      · exact (h.above.2 r hr).2
  · intro u hu x hx r hr
    simp only [List.mem_cons, List.not_mem_nil, or_false] at hu
    rcases hu with rfl | rfl
    · simp only [t2] at hr
      rcases List.mem_cons.1 hr with rfl | hr
      · rcases (h.perm k v hk x hx).1 with e | e | e
        · exact .inl e
        · exact .inr e
        · exact absurd e (hg v hk x hx)
      · exact h.free r hr x (t4 x hx)
    · exact h.base.writable _ (by simp) x hx r hr
  · intro r hr
    obtain ⟨u, hu, ha, ht⟩ := h.base.prot r hr
    exact ⟨u, hu.imp (fun hu => by simp_all) id, ha, ht⟩

/-- What a use of one part means for the others. -/
theorem Using.step {v0 : Ref} {vs : List (Nat × Window)} {A : List Nat} {T T' : GTree}
    (hdis : ∀ (k : Nat) v (j : Nat) v', vs[k]? = some v → vs[j]? = some v' → j ≠ k → v'.1 ≠ v.1)
    (h : Using v0 vs A T) (u : Use) {v : Nat × Window} (hk : vs[u.view]? = some v)
    (hg : Good vs T u.view) (h' : TreeInv T' [⟨v.1, v.2, false⟩, v0] [])
    (f : UEff u.write v.1 u.cell v.2 T T') :
    Using v0 vs A T' ∧
      ∀ j v', vs[j]? = some v' → (Good vs T' j ↔ Good vs T j ∧ ¬ Hits vs u j) := by
  obtain ⟨t1, t2, t3, t5, t4⟩ := h.tags v (List.mem_of_getElem? hk)
  have k0 := h.base.known v0 (.inl (by simp))
  -- the permissions of the parts afterwards
  have hprot : ∀ v' ∈ vs, v'.1 ∉ T.prot := by
    intro v' hv' hc
    obtain ⟨w, hw, -, ht⟩ := h.base.prot _ hc
    simp only [List.mem_singleton, List.not_mem_nil, or_false] at hw
    subst hw
    exact (h.tags v' hv').2.2.2.1 ht.symm
  have own : ∀ y, T'.perm v.1 y = if u.write = true ∧ y = u.cell then .active else T.perm v.1 y :=
    fun y => f.near v.1 t1 (by simp [t2]) y
  have other : ∀ (j : Nat) v', vs[j]? = some v' → j ≠ u.view → ∀ y, v'.2.Has y →
      T'.perm v'.1 y = if u.write = true ∧ y = u.cell then .disabled else T.perm v'.1 y := by
    intro j v' hj hne y hy
    have hm := List.mem_of_getElem? hj
    obtain ⟨s1, s2, s3, -, s4⟩ := h.tags v' hm
    have hnp : v'.1 ∉ T.path v.1 := by
      rw [t2, List.mem_cons]
      exact fun hc => hc.elim (hdis _ _ _ _ hk hj hne) s3
    split
    · rename_i hc
      rw [hc.2]
      exact f.hit _ s1 hnp hc.1
    · rename_i hc
      rcases f.far _ s1 hnp (hprot v' hm) y hc with e | ⟨hw, e⟩
      · exact e
      · rw [e]
        rcases (h.perm j v' hj y hy).1 with q | q | q
        · rw [q]; rfl
        · exact absurd ((h.perm j v' hj y hy).2 q _ v hk hne.symm hw) (hg v hk y hw)
        · rw [q]; rfl
  have keep : ∀ (j : Nat) v', vs[j]? = some v' → j ≠ u.view → ∀ y, v'.2.Has y →
      T.perm v'.1 y = .disabled → T'.perm v'.1 y = .disabled := by
    intro j v' hj hne y hy hd
    rw [other j v' hj hne y hy]
    split
    · rfl
    · exact hd
  refine ⟨⟨tree_obeys.pop h' rfl, ?_, ?_, ?_, ?_⟩, ?_⟩
  · intro v' hv'
    obtain ⟨s1, s2, s3, s5, s4⟩ := h.tags v' hv'
    exact ⟨s1.trans_le f.next, by rw [f.path _ s1, s2], s3, s5, s4⟩
  · rw [f.path _ k0.1]
    refine ⟨h.above.1, fun r hr => ?_⟩
    obtain ⟨a, b⟩ := h.above.2 r hr
    rw [f.path _ a]
    exact ⟨a.trans_le f.next, b⟩
  · intro r hr x hx'
    rw [f.near r (h.above.2 r hr).1 (by rw [t2]; exact List.mem_cons_of_mem _ hr) x]
    split
    · exact .inr rfl
    · exact h.free r hr x hx'
  · intro j v' hj y hy
    by_cases hjk : j = u.view
    · subst hjk
      rw [hk] at hj
      cases hj
      rw [own y]
      split
      · rename_i hc
        refine ⟨.inr (.inl rfl), fun _ i v'' hi hne hy' => ?_⟩
        rw [other i v'' hi hne y hy', if_pos hc]
      · refine ⟨(h.perm _ v hk y hy).1, fun ha i v'' hi hne hy' => ?_⟩
        exact keep i v'' hi hne y hy' ((h.perm _ v hk y hy).2 ha i v'' hi hne hy')
    · rw [other j v' hj hjk y hy]
      split
      · exact ⟨.inr (.inr rfl), fun hc => by cases hc⟩
      · refine ⟨(h.perm _ v' hj y hy).1, fun ha i v'' hi hne hy' => ?_⟩
        have hd := (h.perm _ v' hj y hy).2 ha i v'' hi hne hy'
        by_cases hik : i = u.view
        · subst hik
          rw [hk] at hi
          cases hi
          exact absurd hd (hg v hk y hy')
        · exact keep i v'' hi hik y hy' hd
  · intro j v' hj
    by_cases hjk : j = u.view
    · subst hjk
      constructor
      · intro _
        exact ⟨hg, fun hc => hc.2.1 rfl⟩
      · rintro - v'' hj' y hy
        rw [hk] at hj'
        cases hj'
        rw [own y]
        split
        · decide
        · exact hg v hk y hy
    · constructor
      · intro hG
        refine ⟨fun v'' hj' y hy hd => hG v'' hj' y hy (keep j v'' hj' hjk y hy hd), ?_⟩
        rintro ⟨hw, -, v'', hj', hy⟩
        refine hG v'' hj' _ hy ?_
        rw [other j v'' hj' hjk _ hy, if_pos ⟨hw, rfl⟩]
      · rintro ⟨hG, hn⟩ v'' hj' y hy
        rw [other j v'' hj' hjk y hy]
        split
        · rename_i hc
          exact absurd ⟨hc.1, hjk, v'', hj', hc.2 ▸ hy⟩ hn
        · exact hG v'' hj' y hy

theorem use_good {v0 : Ref} {vs : List (Nat × Window)} {A : List Nat} {T : GTree}
    (hdis : ∀ (k : Nat) v (j : Nat) v', vs[k]? = some v → vs[j]? = some v' → j ≠ k → v'.1 ≠ v.1)
    (h : Using v0 vs A T) (u : Use) {v : Nat × Window} (hk : vs[u.view]? = some v)
    (hg : Good vs T u.view) (hx : v.2.Has u.cell) :
    ∃ T', GTree.rules.use vs u T = some T' ∧ Using v0 vs A T' ∧
      ∀ j v', vs[j]? = some v' → (Good vs T' j ↔ Good vs T j ∧ ¬ Hits vs u j) := by
  have hc := h.chain hk hg
  obtain ⟨t1, t2, t3, t5, t4⟩ := h.tags v (List.mem_of_getElem? hk)
  have : ∃ T', GTree.rules.use vs u T = some T' ∧ TreeInv T' [⟨v.1, v.2, false⟩, v0] [] ∧
      UEff u.write v.1 u.cell v.2 T T' := by
    simp only [Rules.use, hk]
    cases hb : u.write with
    | true =>
      obtain ⟨T', e, h'⟩ := tree_obeys.set hc (by simp) hx
      exact ⟨T', by simpa using e, h', set_eff hx t1 h.base.fresh e⟩
    | false =>
      obtain ⟨T', e, h'⟩ := tree_obeys.get (v := ⟨v.1, v.2, false⟩) hc (.inl rfl) hx
      exact ⟨T', by simpa using e, h', get_eff hx t1 h.base.fresh e⟩
  obtain ⟨T', e, h', f⟩ := this
  obtain ⟨hU, hG⟩ := h.step hdis u hk hg h' f
  exact ⟨T', e, hU, hG⟩

/-- The split. -/
theorem split_using {v0 : Ref} {ws : List Window} {T : GTree} (h : TreeInv T [v0] [])
    (hw : ∀ w ∈ ws, Sub w v0.win) :
    ∃ p T1 vs T2 A, GTree.rules.pointerMut v0.tag v0.win T = some (p, T1) ∧
      GTree.rules.parts p ws T1 = some (vs, T2) ∧ vs.map Prod.snd = ws ∧ Using v0 vs A T2 ∧
      (∀ (k : Nat) v (j : Nat) v', vs[k]? = some v → vs[j]? = some v' → j ≠ k → v'.1 ≠ v.1) ∧
      ∀ v ∈ vs, ∀ y, T2.perm v.1 y = .reserved := by
  obtain ⟨p, T1, e1, h1⟩ := tree_obeys.pointerMut h (by simp)
  obtain ⟨vs, T2, e2, h2, m2, n2, p2, pr2, -, b2, d2⟩ := parts_spec ws T1 h1 hw
  have hp := h1.known ⟨p, v0.win, false⟩ (.inl (by simp))
  simp only at hp
  have k0 := h1.known v0 (.inl (by simp))
  have hab : Above T1 ⟨p, v0.win, false⟩ v0 := (List.pairwise_cons.1 h1.nested).1 v0 (by simp)
  have hU : Using v0 vs (T1.path p) T2 := by
    refine ⟨tree_obeys.pop h2 rfl, ?_, ?_, ?_, ?_⟩
    · intro v hv
      obtain ⟨a, b, c, -⟩ := b2 v hv
      refine ⟨b, c, fun hc => ?_, by omega, hw _ ?_⟩
      · have := h1.fresh p hp.1 _ hc
        omega
      · rw [← m2]
        exact List.mem_map_of_mem hv
    · rw [p2 _ k0.1]
      refine ⟨hab.1, fun r hr => ?_⟩
      have hlt := h1.fresh p hp.1 r hr
      rw [p2 _ hlt]
      exact ⟨by omega, hab.2.2 r hr⟩
    · intro r hr x hx
      refine h2.writable ⟨p, v0.win, false⟩ (by simp) x hx r ?_
      simp only
      rw [p2 _ hp.1]
      exact hr
    · intro k v hk x hx
      obtain ⟨-, -, -, d⟩ := b2 v (List.mem_of_getElem? hk)
      rw [d x]
      exact ⟨.inl rfl, fun hc => by cases hc⟩
  have hdis : ∀ (k : Nat) v (j : Nat) v', vs[k]? = some v → vs[j]? = some v' → j ≠ k →
      v'.1 ≠ v.1 := by
    intro k v j v' hk hj hne
    obtain ⟨lk, rfl⟩ := List.getElem?_eq_some_iff.1 hk
    obtain ⟨lj, rfl⟩ := List.getElem?_eq_some_iff.1 hj
    rw [List.pairwise_iff_getElem] at d2
    rcases Nat.lt_or_gt_of_ne hne with hlt | hlt
    · exact (d2 j k lj lk hlt).ne
    · exact (d2 k j lk lj hlt).ne'
  exact ⟨p, T1, vs, T2, _, e1, e2, m2, hU, hdis, fun v hv => (b2 v hv).2.2.2⟩

/-- The uses: no use may follow a write of another part to its own cells. -/
theorem uses_exact {v0 : Ref} {ws : List Window} {us : List Use} {vs : List (Nat × Window)}
    {A : List Nat} {T2 : GTree} (m2 : vs.map Prod.snd = ws) (hU : Using v0 vs A T2)
    (hdis : ∀ (k : Nat) v (j : Nat) v', vs[k]? = some v → vs[j]? = some v' → j ≠ k → v'.1 ≠ v.1)
    (b2 : ∀ v ∈ vs, ∀ y, T2.perm v.1 y = .reserved) (hu : ∀ u ∈ us, u.Valid ws) :
    (GTree.rules.uses vs us T2).isSome ↔ us.Pairwise (fun u v => ¬ Tree.Clash ws u v) := by
  have hget : ∀ (k : Nat) (v : Nat × Window), vs[k]? = some v → ws[k]? = some v.2 := by
    intro k v hk
    rw [← m2, List.getElem?_map, hk]; rfl
  have hget' : ∀ (k : Nat) (w : Window), ws[k]? = some w → ∃ t, vs[k]? = some (t, w) := by
    intro k w hk
    rw [← m2, List.getElem?_map, Option.map_eq_some_iff] at hk
    obtain ⟨⟨t, w'⟩, hk, rfl⟩ := hk
    exact ⟨t, hk⟩
  have := uses_iff GTree.rules vs (Using v0 vs A) (Good vs) (Hits vs)
    (fun u => u.Valid ws)
    (by
      rintro s u hI ⟨w, hk, hx⟩ hg
      obtain ⟨t, hk⟩ := hget' _ _ hk
      obtain ⟨s', e, h', hj⟩ := use_good hdis hI u hk hg hx
      refine ⟨s', e, h', ?_⟩
      rintro v ⟨w', hk', -⟩
      obtain ⟨t', hk'⟩ := hget' _ _ hk'
      exact hj _ _ hk')
    (by
      rintro s u hI ⟨w, hk, hx⟩ hg
      obtain ⟨t, hk⟩ := hget' _ _ hk
      simp only [Good, not_forall, not_not] at hg
      obtain ⟨v, hk', y, hy, hd⟩ := hg
      rw [hk] at hk'
      cases hk'
      obtain ⟨s1, s2, -⟩ := hI.tags _ (List.mem_of_getElem? hk)
      simp only [Rules.use, hk]
      exact use_bad hy s1 (by rw [s2]; simp) hd)
    us T2 hU hu
  rw [this]
  have hclash : ∀ u v : Use, Hits vs u v.view ↔ Tree.Clash ws u v := by
    intro u v
    simp only [Hits, Tree.Clash]
    refine and_congr_right fun _ => and_congr_right fun _ => ?_
    constructor
    · rintro ⟨z, hz, hc⟩
      exact ⟨z.2, hget _ _ hz, hc⟩
    · rintro ⟨w, hz, hc⟩
      obtain ⟨t, hz⟩ := hget' _ _ hz
      exact ⟨(t, w), hz, hc⟩
  simp only [hclash]
  refine ⟨fun h => h.2, fun h => ⟨fun u _ v hk x hx => ?_, h⟩⟩
  rw [b2 v (List.mem_of_getElem? hk) x]
  decide

/-- Tree Borrows: no use may follow a write of another part to its own cells. -/
theorem splitAndUse_iff {v0 : Ref} {ws : List Window} {us : List Use} {T : GTree}
    (h : TreeInv T [v0] []) (hw : ∀ w ∈ ws, Sub w v0.win) (hu : ∀ u ∈ us, u.Valid ws) :
    (GTree.rules.splitAndUse v0.tag v0.win ws us T).isSome ↔
      us.Pairwise (fun u v => ¬ Tree.Clash ws u v) := by
  obtain ⟨p, T1, vs, T2, A, e1, e2, m2, hU, hdis, b2⟩ := split_using h hw
  simp only [Rules.splitAndUse, e1, e2, Option.bind_eq_bind, Option.bind_some]
  exact uses_exact m2 hU hdis b2 hu

end TSplit

end Householder.Spec
