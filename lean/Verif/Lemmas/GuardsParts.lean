import Verif.Model.GuardsMul
import Verif.Lemmas.GuardsSplitTree

/-!
# Lemmas: products of the parts of one split matrix, under the rules with protectors
-/

namespace Householder.Spec

open Borrow

/-- An access of the kernel: to a cell, through the pointer of which operand. -/
inductive Hit where
  | a (x : Nat)
  | b (x : Nat)
  | c (x : Nat) (write : Bool)

/-- The accesses, through the pointers with the tags `ta`, `tb` and `tc`. -/
def hits {S : Type} (R : Rules S) (ta tb tc : Nat) : List Hit → S → Option S
  | [], s => some s
  | .a x :: us, s => (R.access false ta (.one x) s).bind (hits R ta tb tc us)
  | .b x :: us, s => (R.access false tb (.one x) s).bind (hits R ta tb tc us)
  | .c x w :: us, s => (R.access w tc (.one x) s).bind (hits R ta tb tc us)

/-- The accesses stay in the windows of the operands. -/
def Hit.In (wa wb wc : Window) : Hit → Prop
  | .a x => wa.Has x
  | .b x => wb.Has x
  | .c x _ => wc.Has x

/-- The second access reads a factor where the first wrote the result. -/
def Hit.Spoils : Hit → Hit → Prop
  | .c x true, .a y => x = y
  | .c x true, .b y => x = y
  | _, _ => False

/-- The access reads a factor in a cell of `W`. -/
def Hit.Late (W : Nat → Prop) : Hit → Prop
  | .a x => W x
  | .b x => W x
  | .c _ _ => False

/-- Pointers to three of the parts, and accesses. -/
def threeHits {S : Type} (R : Rules S) (vs : List (Nat × Window)) (ka kb kc : Nat) (us : List Hit)
    (s : S) : Option S :=
  match vs[ka]?, vs[kb]?, vs[kc]? with
  | some va, some vb, some vc => do
    let (pa, s) ← R.pointer va.1 va.2 s
    let (pb, s) ← R.pointer vb.1 vb.2 s
    let (pc, s) ← R.pointerMut vc.1 vc.2 s
    hits R pa pb pc us s
  | _, _, _ => some s

/-- The same after a split. -/
def partsHits {S : Type} (R : Rules S) (t : Nat) (w : Window) (ws : List Window) (ka kb kc : Nat)
    (us : List Hit) (s : S) : Option S := do
  let (p, s) ← R.pointerMut t w s
  let (vs, s) ← R.parts p ws s
  threeHits R vs ka kb kc us s

theorem exists_part {vs : List (Nat × Window)} {ws : List Window} (h : vs.map Prod.snd = ws) {k : Nat}
    {w : Window} (hk : ws[k]? = some w) : ∃ t, vs[k]? = some (t, w) := by
  rw [← h, List.getElem?_map, Option.map_eq_some_iff] at hk
  obtain ⟨⟨t, w'⟩, hk, rfl⟩ := hk
  exact ⟨t, hk⟩

/-! ## Tree Borrows -/

namespace TSplit

theorem read_ok {t x : Nat} {T : GTree} (hp : ∀ r ∈ T.prot, r ∈ T.path t)
    (hd : ∀ r ∈ T.path t, T.perm r x ≠ .disabled) : ∃ T', T.access false t (.one x) = some T' := by
  simp only [GTree.access]
  rw [if_pos]
  · exact ⟨_, rfl⟩
  · intro i hi r _
    have : (Window.one x).lo + i = x := by simp only [Window.one] at hi ⊢; omega
    rw [this]
    simp only [GTree.change, Bool.false_eq_true, if_false]
    by_cases hr : r ∈ T.path t
    · have := hd r hr
      cases hq : T.perm r x <;> simp_all [GPerm.read]
    · have h' : r ∉ T.prot := fun hc => hr (hp r hc)
      cases hq : T.perm r x <;> simp_all [GPerm.read]

theorem write_ok {t x : Nat} {T : GTree} (hp : ∀ r ∈ T.prot, r ∈ T.path t)
    (hd : ∀ r ∈ T.path t, Free (T.perm r x)) : ∃ T', T.access true t (.one x) = some T' := by
  simp only [GTree.access]
  rw [if_pos]
  · exact ⟨_, rfl⟩
  · intro i hi r _
    have : (Window.one x).lo + i = x := by simp only [Window.one] at hi ⊢; omega
    rw [this]
    simp only [GTree.change, if_true]
    by_cases hr : r ∈ T.path t
    · rcases hd r hr with e | e <;> simp [e, hr, GPerm.write]
    · have h' : r ∉ T.prot := fun hc => hr (hp r hc)
      simp [hr, h', GPerm.write]

theorem has_one {x y : Nat} : (Window.one x).Has y ↔ y = x := by
  simp only [Window.Has, Window.one]; omega

/-- What a read of one cell does. -/
theorem read_one {t x : Nat} {T T' : GTree} (h : T.access false t (.one x) = some T')
    (hp : ∀ r ∈ T.prot, r ∈ T.path t) : T'.next = T.next ∧ T'.path = T.path ∧ T'.prot = T.prot ∧
      ∀ r, r < T.next → ∀ y, T'.perm r y =
        if y = x ∧ r ∉ T.path t then faded (T.perm r y) else T.perm r y := by
  obtain ⟨h1, h2, h3, h4, h5⟩ := access_cases h
  refine ⟨h1, h2, h3, fun r hr y => ?_⟩
  by_cases hy : y = x
  · subst hy
    have hc := h5 r y hr (has_one.2 rfl)
    by_cases hr' : r ∈ T.path t
    · rw [if_neg (by simp [hr']), change_near hc hr']
    · rw [if_pos ⟨rfl, hr'⟩, change_far hc hr' fun hc' => hr' (hp r hc')]
  · rw [if_neg fun hc => hy hc.1, h4 r y fun hc => hy (has_one.1 hc)]

/-- What a write to one cell does. -/
theorem write_one {t x : Nat} {T T' : GTree} (h : T.access true t (.one x) = some T') :
    T'.next = T.next ∧ T'.path = T.path ∧ T'.prot = T.prot ∧
      ∀ r, r < T.next → ∀ y, T'.perm r y =
        if y = x then (if r ∈ T.path t then .active else .disabled) else T.perm r y := by
  obtain ⟨h1, h2, h3, h4, h5⟩ := access_cases h
  refine ⟨h1, h2, h3, fun r hr y => ?_⟩
  by_cases hy : y = x
  · subst hy
    have hc := h5 r y hr (has_one.2 rfl)
    rw [if_pos rfl]
    split
    · exact change_write_near hc ‹_›
    · exact change_write_far hc ‹_›
  · rw [if_neg hy, h4 r y fun hc => hy (has_one.1 hc)]

theorem faded_disabled {p : GPerm} : faded p = .disabled ↔ p = .disabled := by cases p <;> simp [faded]

theorem faded_same {p : GPerm} (h : p ≠ .active) : faded p = p := by cases p <;> simp_all [faded]

/-- What the kernel keeps for a pointer to a factor, if `W` are the cells written to. -/
structure Factor (t tc : Nat) (w : Window) (W : Nat → Prop) (T : GTree) : Prop where
  tag : t < T.next ∧ t ∈ T.path t ∧ ∀ r ∈ T.path t, r < T.next
  off : t ∉ T.path tc
  prot : ∀ r ∈ T.prot, r ∈ T.path t
  apart : ∀ r ∈ T.path tc, r ∉ T.path t → ∀ x, T.perm r x = .active → W x
  live : ∀ x, w.Has x → ¬ W x → ∀ r ∈ T.path t, T.perm r x ≠ .disabled
  dead : ∀ x, W x → T.perm t x = .disabled

/-- What the kernel keeps for the pointer to the result. -/
structure Result (tc : Nat) (w : Window) (T : GTree) : Prop where
  tag : tc < T.next ∧ ∀ r ∈ T.path tc, r < T.next
  prot : ∀ r ∈ T.prot, r ∈ T.path tc
  free : ∀ x, w.Has x → ∀ r ∈ T.path tc, Free (T.perm r x)

/-- A read through any pointer that is related to what is protected leaves the factors as they
are. -/
theorem Factor.read {t tc u x : Nat} {w : Window} {W : Nat → Prop} {T T' : GTree}
    (h : Factor t tc w W T) (hc : ∀ r ∈ T.path tc, r < T.next)
    (ha : T.access false u (.one x) = some T') (hp : ∀ r ∈ T.prot, r ∈ T.path u) :
    Factor t tc w W T' := by
  obtain ⟨e1, e2, e3, e4⟩ := read_one ha hp
  refine ⟨by rw [e1, e2]; exact h.tag, by rw [e2]; exact h.off, by rw [e2, e3]; exact h.prot, ?_, ?_,
    ?_⟩
  · intro r hr hr' y hy
    rw [e2] at hr hr'
    rw [e4 r (hc r hr)] at hy
    refine h.apart r hr hr' y ?_
    split at hy
    · exact absurd hy (by cases T.perm r y <;> simp [faded])
    · exact hy
  · intro y hy hW r hr
    rw [e2] at hr
    rw [e4 r (h.tag.2.2 r hr)]
    split
    · rw [Ne, faded_disabled]
      exact h.live y hy hW r hr
    · exact h.live y hy hW r hr
  · intro y hW
    rw [e4 t h.tag.1]
    split
    · rw [faded_disabled]; exact h.dead y hW
    · exact h.dead y hW

theorem Factor.write {t tc x : Nat} {w : Window} {W : Nat → Prop} {T T' : GTree}
    (h : Factor t tc w W T) (hc : ∀ r ∈ T.path tc, r < T.next)
    (ha : T.access true tc (.one x) = some T') : Factor t tc w (fun y => W y ∨ y = x) T' := by
  obtain ⟨e1, e2, e3, e4⟩ := write_one ha
  refine ⟨by rw [e1, e2]; exact h.tag, by rw [e2]; exact h.off, by rw [e2, e3]; exact h.prot, ?_, ?_,
    ?_⟩
  · intro r hr hr' y hy
    rw [e2] at hr hr'
    rw [e4 r (hc r hr)] at hy
    split at hy
    · exact .inr ‹_›
    · exact .inl (h.apart r hr hr' y hy)
  · intro y hy hW r hr
    rw [e2] at hr
    rw [e4 r (h.tag.2.2 r hr), if_neg fun hc => hW (.inr hc)]
    exact h.live y hy (fun hc => hW (.inl hc)) r hr
  · intro y hW
    rw [e4 t h.tag.1]
    split
    · rw [if_neg h.off]
    · rename_i hne
      exact h.dead y (hW.resolve_right hne)

/-- A read of a factor in a cell that has not been written to leaves the result as it is. -/
theorem Result.other {t tc x : Nat} {w w' : Window} {W : Nat → Prop} {T T' : GTree}
    (h : Result tc w T) (hf : Factor t tc w' W T) (hW : ¬ W x)
    (ha : T.access false t (.one x) = some T') : Result tc w T' := by
  obtain ⟨e1, e2, e3, e4⟩ := read_one ha hf.prot
  refine ⟨by rw [e1, e2]; exact h.tag, by rw [e2, e3]; exact h.prot, ?_⟩
  intro y hy r hr
  rw [e2] at hr
  rw [e4 r (h.tag.2 r hr)]
  split
  · rename_i hc
    have hne : T.perm r y ≠ .active := fun hact => hW (hc.1 ▸ hf.apart r hr hc.2 y hact)
    rw [faded_same hne]
    exact h.free y hy r hr
  · exact h.free y hy r hr

theorem Result.own {b : Bool} {tc x : Nat} {w : Window} {T T' : GTree} (h : Result tc w T)
    (ha : T.access b tc (.one x) = some T') : Result tc w T' := by
  cases b with
  | false =>
    obtain ⟨e1, e2, e3, e4⟩ := read_one ha h.prot
    refine ⟨by rw [e1, e2]; exact h.tag, by rw [e2, e3]; exact h.prot, ?_⟩
    intro y hy r hr
    rw [e2] at hr
    rw [e4 r (h.tag.2 r hr), if_neg fun hc => hc.2 hr]
    exact h.free y hy r hr
  | true =>
    obtain ⟨e1, e2, e3, e4⟩ := write_one ha
    refine ⟨by rw [e1, e2]; exact h.tag, by rw [e2, e3]; exact h.prot, ?_⟩
    intro y hy r hr
    rw [e2] at hr
    rw [e4 r (h.tag.2 r hr), if_pos hr]
    split
    · exact .inr rfl
    · exact h.free y hy r hr

/-- The kernel under Tree Borrows: it may not read a factor where it has written the result. -/
theorem hits_iff {ta tb tc : Nat} {wa wb wc : Window} (us : List Hit) :
    ∀ {W : Nat → Prop} {T : GTree}, Factor ta tc wa W T → Factor tb tc wb W T → Result tc wc T →
    (∀ u ∈ us, u.In wa wb wc) →
    ((hits GTree.rules ta tb tc us T).isSome ↔
      (∀ u ∈ us, ¬ u.Late W) ∧ us.Pairwise fun u v => ¬ u.Spoils v) := by
  induction us with
  | nil => intro W T _ _ _ _; simp [hits]
  | cons u us ih =>
    intro W T hA hB hC hin
    have hus : ∀ v ∈ us, v.In wa wb wc := fun v hv => hin v (by simp [hv])
    have hu := hin u (by simp)
    have none_of : ∀ {t x : Nat} {w : Window}, Factor t tc w W T → W x →
        T.access false t (.one x) = none := fun hF hW =>
      access_bad (has_one.2 rfl) hF.tag.1 hF.tag.2.1 (hF.dead _ hW)
    cases u with
    | a x =>
      simp only [List.mem_cons, forall_eq_or_imp, List.pairwise_cons, Hit.Late, Hit.Spoils,
        not_false_eq_true, implies_true, true_and]
      by_cases hW : W x
      · have : GTree.rules.access false ta (.one x) T = none := none_of hA hW
        simp [hits, this, hW]
      · obtain ⟨T', e⟩ := read_ok hA.prot (hA.live x hu hW)
        have e' : GTree.rules.access false ta (.one x) T = some T' := e
        simp only [hits, e', Option.bind_some, hW, not_false_eq_true, true_and]
        exact ih (hA.read hC.tag.2 e hA.prot) (hB.read hC.tag.2 e hA.prot) (hC.other hA hW e) hus
    | b x =>
      simp only [List.mem_cons, forall_eq_or_imp, List.pairwise_cons, Hit.Late, Hit.Spoils,
        not_false_eq_true, implies_true, true_and]
      by_cases hW : W x
      · have : GTree.rules.access false tb (.one x) T = none := none_of hB hW
        simp [hits, this, hW]
      · obtain ⟨T', e⟩ := read_ok hB.prot (hB.live x hu hW)
        have e' : GTree.rules.access false tb (.one x) T = some T' := e
        simp only [hits, e', Option.bind_some, hW, not_false_eq_true, true_and]
        exact ih (hA.read hC.tag.2 e hB.prot) (hB.read hC.tag.2 e hB.prot) (hC.other hB hW e) hus
    | c x w =>
      cases w with
      | false =>
        simp only [List.mem_cons, forall_eq_or_imp, List.pairwise_cons, Hit.Late, Hit.Spoils,
          not_false_eq_true, implies_true, true_and]
        obtain ⟨T', e⟩ := read_ok hC.prot (x := x) fun r hr => by
          rcases hC.free x hu r hr with e | e <;> rw [e] <;> decide
        have e' : GTree.rules.access false tc (.one x) T = some T' := e
        simp only [hits, e', Option.bind_some]
        exact ih (hA.read hC.tag.2 e hC.prot) (hB.read hC.tag.2 e hC.prot) (hC.own e) hus
      | true =>
        obtain ⟨T', e⟩ := write_ok hC.prot (hC.free x hu)
        have e' : GTree.rules.access true tc (.one x) T = some T' := e
        simp only [hits, e', Option.bind_some]
        rw [ih (hA.write hC.tag.2 e) (hB.write hC.tag.2 e) (hC.own e) hus]
        have key : ∀ v : Hit, ¬ v.Late (fun y => W y ∨ y = x) ↔
            ¬ v.Late W ∧ ¬ (Hit.c x true).Spoils v := by
          intro v
          cases v <;> simp [Hit.Late, Hit.Spoils, eq_comm]
        simp only [List.mem_cons, forall_eq_or_imp, List.pairwise_cons]
        constructor
        · rintro ⟨p, q⟩
          exact ⟨⟨id, fun v hv => ((key v).1 (p v hv)).1⟩, fun v hv => ((key v).1 (p v hv)).2, q⟩
        · rintro ⟨⟨-, p⟩, p', q⟩
          exact ⟨fun v hv => (key v).2 ⟨p v hv, p' v hv⟩, q⟩

/-- The end of the protection of a reference changes nothing on the way to it. -/
theorem leave_near {t r : Nat} {w : Window} {T T' : GTree} (h : T.leave t w = some T')
    (hr : r < T.next) (hrt : r ∈ T.path t) (hq : ∀ y, T.perm t y ≠ .active)
    (hne : t ∈ T.path r → r = t) : ∀ y, T'.perm r y = T.perm r y := by
  simp only [GTree.leave] at h
  split at h
  · rename_i hall
    cases h
    intro y
    show (if w.Has y ∧ r < T.next then (T.ending t r y).getD .disabled else T.perm r y) = T.perm r y
    split
    · rename_i hy
      have e : T.ending t r y = T.change false t r y := by
        simp only [GTree.ending]
        rw [if_neg fun hc => hc.2 (hne hc.1)]
        simp [hq y]
      have hs : (T.ending t r y).isSome := by
        have := hall (y - w.lo) (by have := hy.1; simp only [Window.Has] at this; omega) r hr
        rwa [show w.lo + (y - w.lo) = y by have := hy.1; simp only [Window.Has] at this; omega] at this
      rw [e] at hs ⊢
      obtain ⟨p, hp⟩ := Option.isSome_iff_exists.1 hs
      rw [hp, Option.getD_some]
      exact change_near hp hrt
    · rfl
  · cases h

/-- Making a pointer. -/
theorem pointer_steps {t : Nat} {w : Window} {T T1 T2 T4 : GTree} {p : GPerm} {t1 t2 : Nat}
    (hf : ∀ r, r < T.next → ∀ q ∈ T.path r, q < T.next) (ht : t < T.next) (hp : p ≠ .active)
    (e1 : (T.access false t w).map (GTree.push p t) = some (t1, T1))
    (e2 : (T1.access false t1 w).map (GTree.push p t1) = some (t2, T2))
    (e4 : GTree.leave t2 w { T2 with prot := t2 :: T2.prot } = some T4) :
    REff T.next (T.path t) w T T4 ∧ T4.path t2 = t2 :: t1 :: T.path t ∧
      t2 < T4.next ∧ T.next ≤ t1 ∧ t1 < t2 ∧ (∀ y, T4.perm t2 y = p ∧ T4.perm t1 y = p) ∧
      ∀ r ∈ T4.prot, r ∈ T.prot := by
  obtain ⟨f1, q1, n1, p1, m1, r1⟩ := ref_eff (N := T.next) (A := T.path t) (Sub.refl w) (le_refl _)
    (fun _ _ => Iff.rfl) e1
  have hA1 : ∀ r, r < T.next → (r ∈ T1.path t1 ↔ r ∈ T.path t) := by
    intro r hr
    rw [p1, List.mem_cons]
    exact ⟨fun h => h.resolve_left (by omega), .inr⟩
  obtain ⟨f2, q2, n2, p2, m2, r2⟩ := ref_eff (N := T.next) (A := T.path t) (Sub.refl w) (by omega)
    hA1 e2
  obtain ⟨g2, -, -, -, -, -⟩ := ref_eff (N := T1.next) (A := T1.path t1) (Sub.refl w) (le_refl _)
    (fun _ _ => Iff.rfl) e2
  have hA2 : ∀ r, r < T.next → (r ∈ T2.path t2 ↔ r ∈ T.path t) := by
    intro r hr
    rw [p2, List.mem_cons, hA1 r hr]
    exact ⟨fun h => h.resolve_left (by omega), .inr⟩
  have f3 : REff T.next (T.path t) w T2 { T2 with prot := t2 :: T2.prot } :=
    enter_eff (t := t2) (by omega)
  have hold : ∀ r, r < T.next → T2.path r = T.path r := by
    intro r hr
    rw [f2.path r (by omega), f1.path r hr]
  obtain ⟨f4, hp4, hn4⟩ := leave_eff (N := T.next) (A := T.path t) (w := w)
    (T := { T2 with prot := t2 :: T2.prot }) (by omega) (by simp only; omega)
    hA2 (fun r hr q hq => by simp only [hold r hr] at hq; exact hf r hr q hq)
    (fun y _ => by simp only [m2 y]; exact hp) e4
  have ht1 : T2.path t1 = t1 :: T.path t := by rw [g2.path t1 (by omega), p1]
  have ht2 : t2 ∉ T2.path t1 := by
    rw [ht1, List.mem_cons]
    rintro (h | h)
    · omega
    · have := hf t ht _ h
      omega
  have l2 := leave_near (T := { T2 with prot := t2 :: T2.prot }) (r := t2) e4 (by simp only; omega)
    (by simp [p2]) (fun y => by simp only [m2 y]; exact hp) (fun _ => rfl)
  have l1 := leave_near (T := { T2 with prot := t2 :: T2.prot }) (r := t1) e4 (by simp only; omega)
    (by simp [p2, p1]) (fun y => by simp only [m2 y]; exact hp) (fun h => absurd h ht2)
  simp only at hn4
  refine ⟨((f1.trans f2).trans f3).trans f4, ?_, by omega, by omega, by omega, fun y => ⟨?_, ?_⟩, ?_⟩
  · rw [hp4, p2, p1]
  · rw [l2 y, m2 y]
  · rw [l1 y]
    simp only
    rw [g2.near t1 (by omega) (by rw [p1]; simp) y, m1 y]
  · intro r hr
    simp only [GTree.leave] at e4
    split at e4
    · cases e4
      simp only [List.mem_filter, List.mem_cons, decide_eq_true_eq] at hr
      have := hr.1.resolve_left hr.2
      rwa [r2, r1] at this
    · cases e4

theorem pointer_eff {t q : Nat} {w : Window} {T T' : GTree}
    (hf : ∀ r, r < T.next → ∀ q ∈ T.path r, q < T.next) (ht : t < T.next)
    (h : GTree.rules.pointer t w T = some (q, T')) : ∃ t1,
    REff T.next (T.path t) w T T' ∧ T'.path q = q :: t1 :: T.path t ∧
      q < T'.next ∧ T.next ≤ t1 ∧ t1 < q ∧ (∀ y, T'.perm q y = .frozen ∧ T'.perm t1 y = .frozen) ∧
      ∀ r ∈ T'.prot, r ∈ T.prot := by
  simp only [Rules.pointer, Option.bind_eq_bind, Option.bind_eq_some_iff, Option.pure_def,
    Option.some.injEq, Prod.mk.injEq] at h
  obtain ⟨⟨t1, T1⟩, e1, ⟨t2, T2⟩, e2, ⟨t3, T3⟩, e3, T4, e4, rfl, rfl⟩ := h
  simp only [GTree.rules, Option.some.injEq, Prod.mk.injEq] at e3
  obtain ⟨rfl, rfl⟩ := e3
  exact ⟨t1, pointer_steps hf ht (by decide) e1 e2 e4⟩

theorem pointerMut_eff {t q : Nat} {w : Window} {T T' : GTree}
    (hf : ∀ r, r < T.next → ∀ q ∈ T.path r, q < T.next) (ht : t < T.next)
    (h : GTree.rules.pointerMut t w T = some (q, T')) : ∃ t1,
    REff T.next (T.path t) w T T' ∧ T'.path q = q :: t1 :: T.path t ∧
      q < T'.next ∧ T.next ≤ t1 ∧ t1 < q ∧
      (∀ y, T'.perm q y = .reserved ∧ T'.perm t1 y = .reserved) ∧
      ∀ r ∈ T'.prot, r ∈ T.prot := by
  simp only [Rules.pointerMut, Option.bind_eq_bind, Option.bind_eq_some_iff, Option.pure_def,
    Option.some.injEq, Prod.mk.injEq] at h
  obtain ⟨⟨t1, T1⟩, e1, ⟨t2, T2⟩, e2, ⟨t3, T3⟩, e3, T4, e4, rfl, rfl⟩ := h
  simp only [GTree.rules, Option.some.injEq, Prod.mk.injEq] at e3
  obtain ⟨rfl, rfl⟩ := e3
  exact ⟨t1, pointer_steps hf ht (by decide) e1 e2 e4⟩

theorem REff.use {t : Nat} {w : Window} {T T' : GTree} (f : REff T.next (T.path t) w T T') (x : Nat) :
    UEff false t x w T T' :=
  ⟨f.next, f.path, fun r hr ha y => by rw [if_neg (by simp)]; exact f.near r hr ha y,
    fun r hr ha hb => by simp at hb, fun r hr ha hp y _ => f.far r hr ha hp y⟩

theorem REff.stay {A : List Nat} {w : Window} {T T' : GTree} (f : REff T.next A w T T') {r y : Nat}
    {p : GPerm} (hr : r < T.next) (hp : r ∉ T.prot) (h : T.perm r y = p) (ha : p ≠ .active) :
    T'.perm r y = p := by
  by_cases hA : r ∈ A
  · rw [f.near r hr hA y, h]
  · rcases f.far r hr hA hp y with e | ⟨-, e⟩
    · rw [e, h]
    · rw [e, h, faded_same ha]

/-- What holds of the parts before the kernel runs. -/
structure Ready (v0 : Ref) (vs : List (Nat × Window)) (A : List Nat) (T : GTree) : Prop where
  parts : Using v0 vs A T
  unused : ∀ v ∈ vs, ∀ y, T.perm v.1 y = .reserved

theorem Ready.prot {v0 : Ref} {vs : List (Nat × Window)} {A : List Nat} {T : GTree}
    (h : Ready v0 vs A T) : ∀ r ∈ T.prot, r = v0.tag := by
  intro r hr
  obtain ⟨w, hw, -, ht⟩ := h.parts.base.prot r hr
  simp only [List.mem_singleton, List.not_mem_nil, or_false] at hw
  subst hw
  exact ht.symm

theorem Ready.good {v0 : Ref} {vs : List (Nat × Window)} {A : List Nat} {T : GTree}
    (h : Ready v0 vs A T) (k : Nat) : Good vs T k := by
  intro v hk x _
  rw [h.unused v (List.mem_of_getElem? hk) x]
  decide

theorem Ready.step {v0 : Ref} {vs : List (Nat × Window)} {A : List Nat} {T T' : GTree}
    (hdis : ∀ (k : Nat) v (j : Nat) v', vs[k]? = some v → vs[j]? = some v' → j ≠ k → v'.1 ≠ v.1)
    (h : Ready v0 vs A T) {k : Nat} {v : Nat × Window} (hk : vs[k]? = some v)
    (h' : TreeInv T' [⟨v.1, v.2, false⟩, v0] []) (f : REff T.next (T.path v.1) v.2 T T') :
    Ready v0 vs A T' := by
  refine ⟨(h.parts.step hdis ⟨k, 0, false⟩ hk (h.good k) h' (f.use 0)).1, fun u hu y => ?_⟩
  obtain ⟨a, -, -, b, -⟩ := h.parts.tags u hu
  exact f.stay a (fun hc => b (h.prot _ hc)) (h.unused u hu y) (by decide)

/-- The factors' pointers when the kernel starts. -/
theorem Ready.factor {v0 : Ref} {vs : List (Nat × Window)} {A : List Nat} {T : GTree}
    (h : Ready v0 vs A T) {va vc : Nat × Window} (ha : va ∈ vs) (hc : vc ∈ vs)
    {pa pa1 pc pc1 : Nat} (epa : T.path pa = pa :: pa1 :: va.1 :: A)
    (epc : T.path pc = pc :: pc1 :: vc.1 :: A) (lt : pa < T.next ∧ pa1 < T.next) (hpA : pa ∉ A)
    (hpa : ∀ y, T.perm pa y = .frozen ∧ T.perm pa1 y = .frozen)
    (hpc : ∀ y, T.perm pc y = .reserved ∧ T.perm pc1 y = .reserved) :
    Factor pa pc va.2 (fun _ => False) T := by
  obtain ⟨a1, a2, a3, a4, a5⟩ := h.parts.tags va ha
  have k0 := h.parts.base.known v0 (.inl (by simp))
  have hA : ∀ r ∈ A, r < T.next := fun r hr => (h.parts.above.2 r hr).1
  refine ⟨⟨lt.1, by simp [epa], ?_⟩, ?_, ?_, ?_, ?_, fun x hx => hx.elim⟩
  · rw [epa]
    intro r hr
    simp only [List.mem_cons] at hr
    rcases hr with rfl | rfl | rfl | hr
    exacts [lt.1, lt.2, a1, hA r hr]
  · rw [epc]
    intro hr
    have hf := (hpa 0).1
    simp only [List.mem_cons] at hr
    rcases hr with e | e | e | hr
    · rw [e, (hpc 0).1] at hf; cases hf
    · rw [e, (hpc 0).2] at hf; cases hf
    · rw [e, h.unused vc hc 0] at hf; cases hf
    · exact hpA hr
  · intro r hr
    rw [h.prot r hr, epa]
    have := h.parts.above.1 _ k0.2
    simp [this]
  · intro r hr hr' x hx
    rw [epc] at hr
    rw [epa] at hr'
    simp only [List.mem_cons, not_or] at hr hr'
    rcases hr with rfl | rfl | rfl | hr
    · rw [(hpc x).1] at hx; cases hx
    · rw [(hpc x).2] at hx; cases hx
    · rw [h.unused vc hc x] at hx; cases hx
    · exact absurd hr hr'.2.2.2
  · intro x hx _ r hr
    rw [epa] at hr
    simp only [List.mem_cons] at hr
    rcases hr with rfl | rfl | rfl | hr
    · rw [(hpa x).1]; decide
    · rw [(hpa x).2]; decide
    · rw [h.unused va ha x]; decide
    · rcases h.parts.free r hr x (a5 x hx) with e | e <;> rw [e] <;> decide

theorem Ready.result {v0 : Ref} {vs : List (Nat × Window)} {A : List Nat} {T : GTree}
    (h : Ready v0 vs A T) {vc : Nat × Window} (hc : vc ∈ vs) {pc pc1 : Nat}
    (epc : T.path pc = pc :: pc1 :: vc.1 :: A) (lt : pc < T.next ∧ pc1 < T.next)
    (hpc : ∀ y, T.perm pc y = .reserved ∧ T.perm pc1 y = .reserved) : Result pc vc.2 T := by
  obtain ⟨a1, a2, a3, a4, a5⟩ := h.parts.tags vc hc
  have k0 := h.parts.base.known v0 (.inl (by simp))
  refine ⟨⟨lt.1, ?_⟩, ?_, ?_⟩
  · rw [epc]
    intro r hr
    simp only [List.mem_cons] at hr
    rcases hr with rfl | rfl | rfl | hr
    exacts [lt.1, lt.2, a1, (h.parts.above.2 r hr).1]
  · intro r hr
    rw [h.prot r hr, epc]
    have := h.parts.above.1 _ k0.2
    simp [this]
  · intro x hx r hr
    rw [epc] at hr
    simp only [List.mem_cons] at hr
    rcases hr with rfl | rfl | rfl | hr
    · exact .inl (hpc x).1
    · exact .inl (hpc x).2
    · exact .inl (h.unused vc hc x)
    · exact h.parts.free r hr x (a5 x hx)

/-- Tree Borrows: a product of parts is defined if the kernel never reads a factor where it has
written the result. -/
theorem threeHits_iff {v0 : Ref} {ws : List Window} {us : List Hit} {vs : List (Nat × Window)}
    {A : List Nat} {T2 : GTree} {ka kb kc : Nat} {wa wb wc : Window} (m2 : vs.map Prod.snd = ws)
    (hU : Using v0 vs A T2)
    (hdis : ∀ (k : Nat) v (j : Nat) v', vs[k]? = some v → vs[j]? = some v' → j ≠ k → v'.1 ≠ v.1)
    (b2 : ∀ v ∈ vs, ∀ y, T2.perm v.1 y = .reserved)
    (ha : ws[ka]? = some wa) (hb : ws[kb]? = some wb) (hc : ws[kc]? = some wc)
    (hu : ∀ u ∈ us, u.In wa wb wc) :
    (threeHits GTree.rules vs ka kb kc us T2).isSome ↔ us.Pairwise fun u v => ¬ u.Spoils v := by
  obtain ⟨ta, ha⟩ := exists_part m2 ha
  obtain ⟨tb, hb⟩ := exists_part m2 hb
  obtain ⟨tc, hc⟩ := exists_part m2 hc
  have ma := List.mem_of_getElem? ha
  have mb := List.mem_of_getElem? hb
  have mc := List.mem_of_getElem? hc
  have r2 : Ready v0 vs A T2 := ⟨hU, b2⟩
  -- the pointer of the first factor
  have c2 := hU.chain ha (r2.good ka)
  obtain ⟨pa, T3, e3, i3⟩ := Obeys.pointer tree_obeys (v := ⟨ta, wa, false⟩) c2 (.inl rfl)
  obtain ⟨pa1, f3, q3, n3, l3, l3', m3, s3⟩ := pointer_eff hU.base.fresh (hU.tags _ ma).1 e3
  have r3 : Ready v0 vs A T3 := r2.step hdis ha (tree_obeys.weaken i3 (by simp) (by simp)) f3
  -- the pointer of the second factor
  have c3 := r3.parts.chain hb (r3.good kb)
  obtain ⟨pb, T4, e4, i4⟩ := Obeys.pointer tree_obeys (v := ⟨tb, wb, false⟩) c3 (.inl rfl)
  obtain ⟨pb1, f4, q4, n4, l4, l4', m4, s4⟩ :=
    pointer_eff r3.parts.base.fresh (r3.parts.tags _ mb).1 e4
  have r4 : Ready v0 vs A T4 := r3.step hdis hb (tree_obeys.weaken i4 (by simp) (by simp)) f4
  -- the pointer of the result
  have c4 := r4.parts.chain hc (r4.good kc)
  obtain ⟨pc, T5, e5, i5⟩ := Obeys.pointerMut tree_obeys (v := ⟨tc, wc, false⟩) c4 (by simp)
  obtain ⟨pc1, f5, q5, n5, l5, l5', m5, s5⟩ :=
    pointerMut_eff r4.parts.base.fresh (r4.parts.tags _ mc).1 e5
  have r5 : Ready v0 vs A T5 := r4.step hdis hc (tree_obeys.pop i5 rfl) f5
  have v0lt : v0.tag < T2.next := (hU.base.known v0 (.inl (by simp))).1
  have hn34 := f4.next
  have hn45 := f5.next
  have np3 : ∀ r, T2.next ≤ r → r ∉ T3.prot := fun r hr hc => by have := r3.prot r hc; omega
  have np4 : ∀ r, T2.next ≤ r → r ∉ T4.prot := fun r hr hc => by have := r4.prot r hc; omega
  have hn23 := f3.next
  have pathA : T5.path pa = pa :: pa1 :: ta :: A := by
    rw [f5.path _ (by omega), f4.path _ n3, q3, (hU.tags _ ma).2.1]
  have pathB : T5.path pb = pb :: pb1 :: tb :: A := by
    rw [f5.path _ n4, q4, (r3.parts.tags _ mb).2.1]
  have pathC : T5.path pc = pc :: pc1 :: tc :: A := by
    rw [q5, (r4.parts.tags _ mc).2.1]
  have permA : ∀ y, T5.perm pa y = .frozen ∧ T5.perm pa1 y = .frozen := fun y =>
    ⟨f5.stay (by omega) (np4 _ (by omega)) (f4.stay n3 (np3 _ (by omega)) (m3 y).1 (by decide))
      (by decide),
    f5.stay (by omega) (np4 _ (by omega)) (f4.stay (by omega) (np3 _ l3) (m3 y).2 (by decide))
      (by decide)⟩
  have permB : ∀ y, T5.perm pb y = .frozen ∧ T5.perm pb1 y = .frozen := fun y =>
    ⟨f5.stay n4 (np4 _ (by omega)) (m4 y).1 (by decide),
    f5.stay (by omega) (np4 _ (by omega)) (m4 y).2 (by decide)⟩
  have hA : ∀ r ∈ A, r < T2.next := fun r hr => (hU.above.2 r hr).1
  have hk := hits_iff (ta := pa) (tb := pb) (tc := pc) us
    (r5.factor (va := (ta, wa)) (vc := (tc, wc)) ma mc pathA pathC
      ⟨by omega, by omega⟩ (fun hr => by have := hA _ hr; omega) permA m5)
    (r5.factor (va := (tb, wb)) (vc := (tc, wc)) mb mc pathB pathC
      ⟨by omega, by omega⟩ (fun hr => by have := hA _ hr; omega) permB m5)
    (r5.result (vc := (tc, wc)) mc pathC ⟨by omega, by omega⟩ m5) hu
  have e3' : GTree.rules.pointer ta wa T2 = some (pa, T3) := e3
  have e4' : GTree.rules.pointer tb wb T3 = some (pb, T4) := e4
  have e5' : GTree.rules.pointerMut tc wc T4 = some (pc, T5) := e5
  simp only [threeHits, ha, hb, hc, e3', e4', e5', Option.bind_eq_bind, Option.bind_some]
  rw [hk]
  refine ⟨fun h => h.2, fun h => ⟨fun u _ hl => ?_, h⟩⟩
  cases u <;> exact hl

theorem partsHits_iff {v0 : Ref} {ws : List Window} {us : List Hit} {T : GTree} {ka kb kc : Nat}
    {wa wb wc : Window} (h : TreeInv T [v0] []) (hw : ∀ w ∈ ws, Sub w v0.win)
    (ha : ws[ka]? = some wa) (hb : ws[kb]? = some wb) (hc : ws[kc]? = some wc)
    (hu : ∀ u ∈ us, u.In wa wb wc) :
    (partsHits GTree.rules v0.tag v0.win ws ka kb kc us T).isSome ↔
      us.Pairwise fun u v => ¬ u.Spoils v := by
  obtain ⟨p, T1, vs, T2, A, e1, e2, m2, hU, hdis, b2⟩ := split_using h hw
  simp only [partsHits, e1, e2, Option.bind_eq_bind, Option.bind_some]
  exact threeHits_iff m2 hU hdis b2 ha hb hc hu

end TSplit

/-! ## Stacked Borrows -/

namespace GSplit

theorem pointer_eff {t q : Nat} {w : Window} {g g' : GStacks}
    (h : GStacks.rules.pointer t w g = some (q, g')) : Eff w g g' ∧ g.cells.next ≤ q := by
  simp only [Rules.pointer, Option.bind_eq_bind, Option.bind_eq_some_iff, Option.pure_def,
    Option.some.injEq, Prod.mk.injEq] at h
  obtain ⟨⟨t1, g1⟩, e1, ⟨t2, g2⟩, e2, ⟨t3, g3⟩, e3, g4, e4, rfl, rfl⟩ := h
  have f1 := ref_eff (Sub.refl w) e1
  have f2 := ref_eff (Sub.refl w) e2
  have f3 : Eff w (GStacks.rules.enter t2 g2) g3 := ref_eff (Sub.refl w) e3
  have f3' : Eff w g2 g3 := ⟨f3.next, f3.outside, f3.absent⟩
  have f4 : Eff w g3 g4 := by
    simp only [GStacks.rules, Option.some.injEq] at e4
    subst e4
    exact ⟨le_refl _, fun _ _ => rfl, fun _ _ _ h => h⟩
  refine ⟨((f1.trans f2).trans f3').trans f4, ?_⟩
  simp only [GStacks.rules, Option.map_eq_some_iff] at e3
  obtain ⟨g5, e5, e6⟩ := e3
  have f5 := access_eff (Sub.refl w) e5
  have n5 : g2.cells.next ≤ g5.cells.next := f5.next
  simp only [GStacks.push, Stacks.push, Prod.mk.injEq] at e6
  have n1 := f1.next
  have n2 : g1.cells.next ≤ g2.cells.next := f2.next
  have n6 := e6.1
  simp only at n1 n5 n6 ⊢
  omega

theorem pointerMut_eff {t q : Nat} {w : Window} {g g' : GStacks}
    (h : GStacks.rules.pointerMut t w g = some (q, g')) : Eff w g g' := by
  simp only [Rules.pointerMut, Option.bind_eq_bind, Option.bind_eq_some_iff, Option.pure_def,
    Option.some.injEq, Prod.mk.injEq] at h
  obtain ⟨⟨t1, g1⟩, e1, ⟨t2, g2⟩, e2, ⟨t3, g3⟩, e3, g4, e4, rfl, rfl⟩ := h
  have f1 := ref_eff (Sub.refl w) e1
  have f2 := ref_eff (Sub.refl w) e2
  have f3 : Eff w (GStacks.rules.enter t2 g2) g3 := ref_eff (Sub.refl w) e3
  have f3' : Eff w g2 g3 := ⟨f3.next, f3.outside, f3.absent⟩
  have f4 : Eff w g3 g4 := by
    simp only [GStacks.rules, Option.some.injEq] at e4
    subst e4
    exact ⟨le_refl _, fun _ _ => rfl, fun _ _ _ h => h⟩
  exact ((f1.trans f2).trans f3').trans f4

theorem pointer_dead {t : Nat} {w : Window} {g : GStacks} (h : Dead g (t, w)) :
    GStacks.rules.pointer t w g = none ∧ GStacks.rules.pointerMut t w g = none := by
  obtain ⟨y, hy, ha⟩ := h
  have h1 : GStacks.rules.mutRef t w g = none := by
    simp only [GStacks.rules, access_dead hy ha, Option.map_none]
  have h2 : GStacks.rules.shrRef t w g = none := by
    simp only [GStacks.rules, access_dead hy ha, Option.map_none]
  exact ⟨by simp [Rules.pointer, h2], by simp [Rules.pointerMut, h1]⟩

/-- A shared reference is not touched by what happens elsewhere. -/
theorem frame_shared {g g' : GStacks} {v0 a : Ref} {w : Window} {c sh : List Ref}
    (h : StackInv g [v0] [a]) (h' : StackInv g' c sh) (hv : v0 ∈ c)
    (harg : ∀ v, v ∈ c ∨ v ∈ sh → v.arg = true → v = v0) (f : Eff w g g')
    (hd : ¬ a.win.Meets w) (hab : ∀ x, ¬ a.win.Has x → Absent a.tag (g.cells.stack x)) :
    StackInv g' [v0] [a] := by
  have same : ∀ x, a.win.Has x → g'.cells.stack x = g.cells.stack x := fun x hx =>
    f.outside x fun hx' => hd ⟨x, hx, hx'⟩
  refine ⟨h'.ordered, h'.fresh, ?_, by simp, h.above, ?_, ?_, ?_, ?_⟩
  · rintro v (hv' | hv')
    · rw [List.mem_singleton] at hv'
      subst hv'
      exact h'.known _ (.inl hv)
    · exact (h.known v (.inr hv')).trans_le f.next
  · intro v hv'
    rw [List.mem_singleton] at hv'
    subst hv'
    exact h'.writable _ hv
  · intro v hv' x hx
    rw [List.mem_singleton] at hv'
    subst hv'
    rw [same x hx]
    exact h.readable _ (by simp) x hx
  · intro v hv' x e he ht
    rw [List.mem_singleton] at hv'
    subst hv'
    by_cases hx : v.win.Has x
    · rw [same x hx] at he
      exact h.only _ (by simp) x e he ht
    · exact absurd ht (f.absent _ x (h.known v (.inr (by simp))) (hab x hx) e he)
  · intro r hr
    obtain ⟨u, hu, ha, ht⟩ := h'.prot r hr
    have := harg u hu ha
    subst this
    exact ⟨u, .inl (by simp), ha, ht⟩

/-- Nor is a mutable one. -/
theorem frame_chain {g g' : GStacks} {v0 v : Ref} {w : Window} {c sh : List Ref}
    (h : StackInv g [v, v0] []) (h' : StackInv g' c sh) (hv : v0 ∈ c)
    (harg : ∀ u, u ∈ c ∨ u ∈ sh → u.arg = true → u = v0) (f : Eff w g g')
    (hd : ¬ v.win.Meets w) : StackInv g' [v, v0] [] := by
  have same : ∀ x, v.win.Has x → g'.cells.stack x = g.cells.stack x := fun x hx =>
    f.outside x fun hx' => hd ⟨x, hx, hx'⟩
  refine ⟨h'.ordered, h'.fresh, ?_, h.nested, by simp, ?_, by simp, by simp, ?_⟩
  · intro u hu
    simp only [List.mem_cons, List.not_mem_nil, or_false] at hu
    rcases hu with rfl | rfl
    · exact (h.known u (.inl (by simp))).trans_le f.next
    · exact h'.known u (.inl hv)
  · intro u hu x hx
    simp only [List.mem_cons, List.not_mem_nil, or_false] at hu
    rcases hu with rfl | rfl
    · rw [same x hx]
      exact h.writable u (by simp) x hx
    · exact h'.writable u hv x hx
  · intro r hr
    obtain ⟨u, hu, ha, ht⟩ := h'.prot r hr
    have := harg u hu ha
    subst this
    exact ⟨u, .inl (by simp), ha, ht⟩

theorem merge {g : GStacks} {v0 a b : Ref} (ha : StackInv g [v0] [a]) (hb : StackInv g [v0] [b]) :
    StackInv g [v0] [a, b] := by
  have two : ∀ {P : Ref → Prop}, (∀ v ∈ [a], P v) → (∀ v ∈ [b], P v) → ∀ v ∈ [a, b], P v := by
    intro P h1 h2 v hv
    simp only [List.mem_cons, List.not_mem_nil, or_false] at hv
    rcases hv with rfl | rfl
    · exact h1 v (by simp)
    · exact h2 v (by simp)
  refine ⟨ha.ordered, ha.fresh, ?_, by simp, two ha.above hb.above, ha.writable,
    two ha.readable hb.readable, two ha.only hb.only, ?_⟩
  · rintro v (hv | hv)
    · exact ha.known v (.inl hv)
    · exact two (P := fun v => v.tag < g.cells.next) (fun v hv => ha.known v (.inr hv))
        (fun v hv => hb.known v (.inr hv)) v hv
  · intro r hr
    obtain ⟨u, hu, ha', ht⟩ := ha.prot r hr
    exact ⟨u, hu.imp id (fun hu => by simp_all), ha', ht⟩

/-- What the kernel keeps. -/
structure Kept (v0 a b c : Ref) (g : GStacks) : Prop where
  shared : StackInv g [v0] [a, b]
  chain : StackInv g [c, v0] []
  onlyA : ∀ x, ¬ a.win.Has x → Absent a.tag (g.cells.stack x)
  onlyB : ∀ x, ¬ b.win.Has x → Absent b.tag (g.cells.stack x)

theorem Kept.left {v0 a b c : Ref} {g : GStacks} (h : Kept v0 a b c g) (hb : b.arg = false) :
    StackInv g [v0] [a] := stack_obeys.weaken h.shared (by simp) (by
      intro v hv hv'
      simp only [List.mem_cons, List.not_mem_nil, or_false] at hv
      rcases hv with rfl | rfl
      · simp
      · rw [hb] at hv'; cases hv')

theorem Kept.right {v0 a b c : Ref} {g : GStacks} (h : Kept v0 a b c g) (ha : a.arg = false) :
    StackInv g [v0] [b] := stack_obeys.weaken h.shared (by simp) (by
      intro v hv hv'
      simp only [List.mem_cons, List.not_mem_nil, or_false] at hv
      rcases hv with rfl | rfl
      · rw [ha] at hv'; cases hv'
      · simp)

theorem Kept.read {v0 a b c d : Ref} {g : GStacks} (h : Kept v0 a b c g) (hna : a.arg = false)
    (hnb : b.arg = false) (hd : d ∈ [a, b]) (hdis : ¬ c.win.Meets d.win) {x : Nat}
    (hx : d.win.Has x) :
    ∃ g', GStacks.rules.access false d.tag (.one x) g = some g' ∧ Kept v0 a b c g' := by
  obtain ⟨g', e, h'⟩ := stack_obeys.read h.shared (.inr hd) (sub_one hx)
  have f : Eff d.win g g' := access_eff (sub_one hx) e
  refine ⟨g', e, h', frame_chain h.chain h' (by simp) ?_ f hdis, fun y hy => ?_, fun y hy => ?_⟩
  · intro u hu ha
    simp only [List.mem_cons, List.not_mem_nil, or_false] at hu
    rcases hu with hu | rfl | rfl
    · exact hu
    · rw [hna] at ha; cases ha
    · rw [hnb] at ha; cases ha
  · exact f.absent _ y (h.shared.known a (.inr (by simp))) (h.onlyA y hy)
  · exact f.absent _ y (h.shared.known b (.inr (by simp))) (h.onlyB y hy)

theorem Kept.own {v0 a b c : Ref} {g : GStacks} (h : Kept v0 a b c g) (hna : a.arg = false)
    (hnb : b.arg = false) (hnc : c.arg = false) (hda : ¬ a.win.Meets c.win)
    (hdb : ¬ b.win.Meets c.win) {x : Nat} (hx : c.win.Has x) (w : Bool) :
    ∃ g', GStacks.rules.access w c.tag (.one x) g = some g' ∧ Kept v0 a b c g' := by
  have : ∃ g', GStacks.rules.access w c.tag (.one x) g = some g' ∧ StackInv g' [c, v0] [] := by
    cases w with
    | true => exact stack_obeys.write h.chain (by simp) (sub_one hx)
    | false => exact stack_obeys.read h.chain (.inl rfl) (sub_one hx)
  obtain ⟨g', e, h'⟩ := this
  have f : Eff c.win g g' := access_eff (sub_one hx) e
  have harg : ∀ u, u ∈ [c, v0] ∨ u ∈ ([] : List Ref) → u.arg = true → u = v0 := by
    intro u hu ha
    simp only [List.mem_cons, List.not_mem_nil, or_false] at hu
    rcases hu with rfl | hu
    · rw [hnc] at ha; cases ha
    · exact hu
  refine ⟨g', e, merge (frame_shared (h.left hnb) h' (by simp) harg f hda h.onlyA)
    (frame_shared (h.right hna) h' (by simp) harg f hdb h.onlyB), h', fun y hy => ?_, fun y hy => ?_⟩
  · exact f.absent _ y (h.shared.known a (.inr (by simp))) (h.onlyA y hy)
  · exact f.absent _ y (h.shared.known b (.inr (by simp))) (h.onlyB y hy)

/-- The kernel under Stacked Borrows, if the result meets none of the factors. -/
theorem hits_ok {v0 a b c : Ref} (hna : a.arg = false) (hnb : b.arg = false) (hnc : c.arg = false)
    (hda : ¬ a.win.Meets c.win) (hdb : ¬ b.win.Meets c.win) (us : List Hit) :
    ∀ {g : GStacks}, Kept v0 a b c g → (∀ u ∈ us, u.In a.win b.win c.win) →
    (hits GStacks.rules a.tag b.tag c.tag us g).isSome := by
  have flip : ∀ {v w : Window}, ¬ v.Meets w → ¬ w.Meets v := by
    rintro v w h ⟨x, p, q⟩
    exact h ⟨x, q, p⟩
  induction us with
  | nil => intro g _ _; rfl
  | cons u us ih =>
    intro g h hin
    have hus : ∀ v ∈ us, v.In a.win b.win c.win := fun v hv => hin v (by simp [hv])
    have hu := hin u (by simp)
    cases u with
    | a x =>
      obtain ⟨g', e, h'⟩ := h.read hna hnb (d := a) (by simp) (flip hda) hu
      simp only [hits, e, Option.bind_some]
      exact ih h' hus
    | b x =>
      obtain ⟨g', e, h'⟩ := h.read hna hnb (d := b) (by simp) (flip hdb) hu
      simp only [hits, e, Option.bind_some]
      exact ih h' hus
    | c x w =>
      obtain ⟨g', e, h'⟩ := h.own hna hnb hnc hda hdb hu w
      simp only [hits, e, Option.bind_some]
      exact ih h' hus

/-- After a use of one part the others are as before. -/
theorem Using.step {v0 : Ref} {vs : List (Nat × Window)} {D : Nat → Prop} {g g' : GStacks}
    (hdis : ∀ k v j v', vs[k]? = some v → vs[j]? = some v' → k ≠ j → ¬ D k → ¬ D j →
      ¬ v.2.Meets v'.2) (h : Using v0 vs D g) {k : Nat} {v : Nat × Window} (hk : vs[k]? = some v)
    (hd : ¬ D k) (h' : StackInv g' [⟨v.1, v.2, false⟩, v0] []) (f : Eff v.2 g g') :
    Using v0 vs D g' := by
  refine ⟨stack_obeys.pop h' rfl, ?_, ?_, ?_⟩
  · intro u hu
    obtain ⟨t1, t2, t3⟩ := h.tags u hu
    exact ⟨t1, t2.trans_le f.next, t3⟩
  · intro j u hj hdj
    by_cases hjk : j = k
    · subst hjk
      rw [hk] at hj
      cases hj
      exact h'.writable ⟨v.1, v.2, false⟩ (by simp)
    · exact eff_alive f (h.alive j u hj hdj) (hdis j u k v hj hk hjk hdj hd)
  · intro j u hj hdj
    exact eff_dead f (h.tags u (List.mem_of_getElem? hj)).2.1 (h.dead j u hj hdj)

/-- Stacked Borrows: a product of parts is defined exactly if no later part meets any of the three. -/
theorem threeHits_iff {v0 : Ref} {ws : List Window} {us : List Hit} {vs : List (Nat × Window)}
    {g2 : GStacks} {ka kb kc : Nat} {wa wb wc : Window} (m2 : vs.map Prod.snd = ws)
    (hU : Using v0 vs (Late ws) g2)
    (hdis : ∀ (k : Nat) (v : Nat × Window) (j : Nat) (v' : Nat × Window), vs[k]? = some v →
        vs[j]? = some v' → k ≠ j → ¬ Late ws k → ¬ Late ws j → ¬ v.2.Meets v'.2)
    (ha : ws[ka]? = some wa) (hb : ws[kb]? = some wb) (hc : ws[kc]? = some wc) (hca : kc ≠ ka)
    (hcb : kc ≠ kb) (hu : ∀ u ∈ us, u.In wa wb wc) :
    (threeHits GStacks.rules vs ka kb kc us g2).isSome ↔
      ¬ Late ws ka ∧ ¬ Late ws kb ∧ ¬ Late ws kc := by
  obtain ⟨ta, ha⟩ := exists_part m2 ha
  obtain ⟨tb, hb⟩ := exists_part m2 hb
  obtain ⟨tc, hc⟩ := exists_part m2 hc
  simp only [threeHits, ha, hb, hc, Option.bind_eq_bind]
  -- the pointer of the first factor
  by_cases da : Late ws ka
  · simp [(pointer_dead (hU.dead _ _ ha da)).1, da]
  obtain ⟨pa, g3, e3, i3⟩ := Obeys.pointer stack_obeys (v := ⟨ta, wa, false⟩) (hU.chain ha da)
    (.inl rfl)
  have e3' : GStacks.rules.pointer ta wa g2 = some (pa, g3) := e3
  obtain ⟨f3, n3⟩ := pointer_eff e3
  have U3 : Using v0 vs (Late ws) g3 :=
    hU.step hdis ha da (stack_obeys.weaken i3 (by simp) (by simp)) f3
  have onlyA3 : ∀ x, ¬ wa.Has x → Absent pa (g3.cells.stack x) := by
    intro x hx e he
    rw [f3.outside x hx] at he
    have := hU.base.fresh x e he
    omega
  have kA3 : pa < g3.cells.next := i3.known ⟨pa, wa, false⟩ (.inr (by simp))
  have s3 : StackInv g3 [v0] [⟨pa, wa, false⟩] := stack_obeys.pop i3 rfl
  simp only [e3', Option.bind_some]
  -- the pointer of the second factor
  by_cases db : Late ws kb
  · simp [(pointer_dead (U3.dead _ _ hb db)).1, db]
  obtain ⟨pb, g4, e4, i4⟩ := Obeys.pointer stack_obeys (v := ⟨tb, wb, false⟩) (U3.chain hb db)
    (.inl rfl)
  have e4' : GStacks.rules.pointer tb wb g3 = some (pb, g4) := e4
  obtain ⟨f4, n4⟩ := pointer_eff e4
  have U4 : Using v0 vs (Late ws) g4 :=
    U3.step hdis hb db (stack_obeys.weaken i4 (by simp) (by simp)) f4
  have onlyB4 : ∀ x, ¬ wb.Has x → Absent pb (g4.cells.stack x) := by
    intro x hx e he
    rw [f4.outside x hx] at he
    have := U3.base.fresh x e he
    omega
  have kB4 : pb < g4.cells.next := i4.known ⟨pb, wb, false⟩ (.inr (by simp))
  have onlyA4 : ∀ x, ¬ wa.Has x → Absent pa (g4.cells.stack x) := fun x hx =>
    f4.absent _ x kA3 (onlyA3 x hx)
  have s4b : StackInv g4 [v0] [⟨pb, wb, false⟩] := stack_obeys.pop i4 rfl
  have s4a : StackInv g4 [v0] [⟨pa, wa, false⟩] := by
    by_cases hab : kb = ka
    · subst hab
      rw [ha] at hb
      cases hb
      obtain ⟨pb', g4', e4'', i4'⟩ := Obeys.pointer stack_obeys (v := ⟨ta, wa, false⟩) i3 (.inl rfl)
      have e : some (pb', g4') = some (pb, g4) := e4''.symm.trans e4
      cases e
      exact stack_obeys.weaken (stack_obeys.pop i4' rfl) (by simp) (by simp)
    · refine frame_shared s3 i4 (by simp) ?_ f4 (hdis _ _ _ _ ha hb (Ne.symm hab) da db) onlyA3
      intro u hu hua
      simp only [List.mem_cons, List.not_mem_nil, or_false] at hu
      rcases hu with (rfl | rfl) | rfl
      · cases hua
      · rfl
      · cases hua
  simp only [e4', Option.bind_some]
  -- the pointer of the result
  by_cases dc : Late ws kc
  · simp [(pointer_dead (U4.dead _ _ hc dc)).2, dc]
  obtain ⟨pc, g5, e5, i5⟩ := Obeys.pointerMut stack_obeys (v := ⟨tc, wc, false⟩) (U4.chain hc dc)
    (by simp)
  have e5' : GStacks.rules.pointerMut tc wc g4 = some (pc, g5) := e5
  have f5 := pointerMut_eff e5
  have harg : ∀ u, u ∈ [(⟨pc, wc, false⟩ : Ref), ⟨tc, wc, false⟩, v0] ∨ u ∈ ([] : List Ref) →
      u.arg = true → u = v0 := by
    intro u hu hua
    simp only [List.mem_cons, List.not_mem_nil, or_false] at hu
    rcases hu with rfl | rfl | rfl
    · cases hua
    · cases hua
    · rfl
  have hac : ¬ wa.Meets wc := hdis _ _ _ _ ha hc (Ne.symm hca) da dc
  have hbc : ¬ wb.Meets wc := hdis _ _ _ _ hb hc (Ne.symm hcb) db dc
  have K : Kept v0 ⟨pa, wa, false⟩ ⟨pb, wb, false⟩ ⟨pc, wc, false⟩ g5 :=
    ⟨merge (frame_shared s4a i5 (by simp) harg f5 hac onlyA4)
      (frame_shared s4b i5 (by simp) harg f5 hbc onlyB4),
      stack_obeys.delete (c1 := [_]) i5 rfl,
      fun x hx => f5.absent _ x (kA3.trans_le f4.next) (onlyA4 x hx),
      fun x hx => f5.absent _ x kB4 (onlyB4 x hx)⟩
  have := hits_ok (v0 := v0) (a := ⟨pa, wa, false⟩) (b := ⟨pb, wb, false⟩) (c := ⟨pc, wc, false⟩) rfl rfl
    rfl hac hbc us K hu
  simp only [e5', Option.bind_some, da, db, dc, not_false_eq_true, and_self, iff_true]
  exact this

theorem partsHits_iff {v0 : Ref} {ws : List Window} {us : List Hit} {g : GStacks} {ka kb kc : Nat}
    {wa wb wc : Window} (h : StackInv g [v0] []) (hw : ∀ w ∈ ws, Sub w v0.win)
    (ha : ws[ka]? = some wa) (hb : ws[kb]? = some wb) (hc : ws[kc]? = some wc) (hca : kc ≠ ka)
    (hcb : kc ≠ kb) (hu : ∀ u ∈ us, u.In wa wb wc) :
    (partsHits GStacks.rules v0.tag v0.win ws ka kb kc us g).isSome ↔
      ¬ Late ws ka ∧ ¬ Late ws kb ∧ ¬ Late ws kc := by
  obtain ⟨p, g1, vs, g2, e1, e2, m2, hU, hdis⟩ := split_using h hw
  simp only [partsHits, e1, e2, Option.bind_eq_bind, Option.bind_some]
  exact threeHits_iff m2 hU hdis ha hb hc hca hcb hu

end GSplit

end Householder.Spec
