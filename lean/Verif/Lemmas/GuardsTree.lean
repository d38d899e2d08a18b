import Verif.Lemmas.Guards

/-!
# Lemmas: Tree Borrows with protectors
-/

namespace Householder.Spec

open Borrow

/-- The reference `a` was derived from `b`, or is `b`, and everything between them too. -/
def Above (T : GTree) (a b : Ref) : Prop :=
  (∀ r ∈ T.path b.tag, r ∈ T.path a.tag) ∧ Sub a.win b.win ∧
    ∀ r ∈ T.path a.tag, r ∈ T.path b.tag ∨ b.tag ∈ T.path r

/-- The permission allows a write. -/
def Free (p : GPerm) : Prop := p = .reserved ∨ p = .active

/-- The permission of a shared reference. -/
def Quiet (p : GPerm) : Prop := p = .frozen ∨ p = .disabled

/-- The invariant for Tree Borrows. -/
structure TreeInv (T : GTree) (c sh : List Ref) : Prop where
  fresh : ∀ r, r < T.next → ∀ q ∈ T.path r, q < T.next
  known : ∀ v, v ∈ c ∨ v ∈ sh → v.tag < T.next ∧ v.tag ∈ T.path v.tag
  nested : c.Pairwise (Above T)
  above : ∀ v ∈ sh, ∀ u ∈ c, Above T v u
  writable : ∀ v ∈ c, ∀ x, v.win.Has x → ∀ r ∈ T.path v.tag, Free (T.perm r x)
  readable : ∀ v ∈ sh, ∀ x, v.win.Has x → ∀ r ∈ T.path v.tag, T.perm r x ≠ .disabled
  quiet : ∀ v ∈ sh, ∀ x, Quiet (T.perm v.tag x)
  prot : ∀ r ∈ T.prot, ∃ v, (v ∈ c ∨ v ∈ sh) ∧ v.arg = true ∧ v.tag = r

theorem Above.refl (T : GTree) (a : Ref) : Above T a a :=
  ⟨fun _ h => h, Sub.refl _, fun _ h => .inl h⟩

namespace TreeInv

variable {T : GTree} {c sh : List Ref}

theorem weaken {sh' : List Ref} (h : TreeInv T c sh) (hsub : ∀ v ∈ sh', v ∈ sh)
    (harg : ∀ v ∈ sh, v.arg = true → v ∈ sh') : TreeInv T c sh' := by
  refine ⟨h.fresh, fun v hv => h.known v (hv.imp id (hsub v)), h.nested,
    fun v hv => h.above v (hsub v hv), h.writable, fun v hv => h.readable v (hsub v hv),
    fun v hv => h.quiet v (hsub v hv), fun r hr => ?_⟩
  obtain ⟨u, hu, ha, ht⟩ := h.prot r hr
  exact ⟨u, hu.imp id (fun hu => harg u hu ha), ha, ht⟩

/-- Only the permissions change. -/
theorem update (h : TreeInv T c sh) (perm : Nat → Nat → GPerm) (prot : List Nat)
    (hW : ∀ u ∈ c, ∀ r ∈ T.path u.tag, ∀ x, Free (T.perm r x) → Free (perm r x))
    (hR : ∀ v ∈ sh, ∀ r ∈ T.path v.tag, ∀ x, T.perm r x ≠ .disabled → perm r x ≠ .disabled)
    (hQ : ∀ v ∈ sh, ∀ x, Quiet (T.perm v.tag x) → Quiet (perm v.tag x))
    (hP : ∀ r ∈ prot, r ∈ T.prot) :
    TreeInv { T with perm := perm, prot := prot } c sh :=
  ⟨h.fresh, h.known, h.nested, h.above, fun v hv x hx r hr => hW v hv r hr x (h.writable v hv x hx r hr),
    fun v hv x hx r hr => hR v hv r hr x (h.readable v hv x hx r hr),
    fun v hv x => hQ v hv x (h.quiet v hv x), fun r hr => h.prot r (hP r hr)⟩

/-- A usable reference is above every reference of the chain. -/
theorem below (h : TreeInv T c sh) {v : Ref} (hv : Usable c sh v) {u : Ref} (hu : u ∈ c) :
    Above T v u := by
  rcases hv with hv | hv
  · cases c with
    | nil => cases hv
    | cons w c =>
      simp only [List.head?_cons, Option.some.injEq] at hv
      subst hv
      rcases List.mem_cons.1 hu with rfl | hu
      · exact Above.refl T _
      · exact (List.pairwise_cons.1 h.nested).1 u hu
  · exact h.above v hv u hu

theorem usable_known (h : TreeInv T c sh) {v : Ref} (hv : Usable c sh v) :
    v.tag < T.next ∧ v.tag ∈ T.path v.tag :=
  h.known v (hv.imp (fun hv => List.mem_of_mem_head? hv) id)

theorem notDisabled (h : TreeInv T c sh) {v : Ref} (hv : Usable c sh v) {x : Nat}
    (hx : v.win.Has x) : ∀ r ∈ T.path v.tag, T.perm r x ≠ .disabled := by
  rcases hv with hv | hv
  · intro r hr
    rcases h.writable v (List.mem_of_mem_head? hv) x hx r hr with e | e <;> rw [e] <;> decide
  · exact h.readable v hv x hx

/-- What a read does. -/
theorem changeRead {t r x : Nat} (hn : r ∈ T.path t → T.perm r x ≠ .disabled)
    (hp : r ∉ T.path t → r ∈ T.prot → T.perm r x ≠ .active) :
    ∃ p, T.change false t r x = some p ∧ (r ∈ T.path t → p = T.perm r x) ∧
      (T.perm r x ≠ .disabled → p ≠ .disabled) ∧ (Quiet (T.perm r x) → Quiet p) := by
  simp only [GTree.change, Bool.false_eq_true, if_false, Quiet]
  by_cases h1 : r ∈ T.path t <;> by_cases h2 : r ∈ T.prot <;>
    cases hq : T.perm r x <;> simp_all [GPerm.read]

/-- What a write does. -/
theorem changeWrite {t r x : Nat} (hn : r ∈ T.path t → Free (T.perm r x))
    (hp : r ∉ T.path t → r ∉ T.prot) :
    ∃ p, T.change true t r x = some p ∧ (r ∈ T.path t → p = .active) := by
  simp only [GTree.change, if_true, Free] at *
  by_cases h1 : r ∈ T.path t
  · rcases hn h1 with e | e <;> simp [e, h1, GPerm.write]
  · have := hp h1
    simp [h1, this, GPerm.write]

theorem read (h : TreeInv T c sh) {v : Ref} {w : Window} (hv : Usable c sh v)
    (hw : Sub w v.win) : ∃ T', T.access false v.tag w = some T' ∧ T'.next = T.next ∧
      T'.path = T.path ∧ TreeInv T' c sh := by
  have key : ∀ r x, w.Has x → ∃ p, T.change false v.tag r x = some p ∧
      (r ∈ T.path v.tag → p = T.perm r x) ∧ (T.perm r x ≠ .disabled → p ≠ .disabled) ∧
      (Quiet (T.perm r x) → Quiet p) := by
    intro r x hx
    refine changeRead (h.notDisabled hv (hw x hx) r) ?_
    intro hr hpr
    obtain ⟨u, hu, -, rfl⟩ := h.prot r hpr
    rcases hu with hu | hu
    · exact absurd ((h.below hv hu).1 _ (h.known u (.inl hu)).2) hr
    · rcases h.quiet u hu x with e | e <;> rw [e] <;> decide
  refine ⟨_, if_pos ?_, rfl, rfl, ?_⟩
  · intro i hi r _
    obtain ⟨p, e, -⟩ := key r (w.lo + i) ⟨by omega, by omega⟩
    rw [e]
    rfl
  · refine h.update _ T.prot ?_ ?_ ?_ (fun _ hr => hr)
    · intro u hu r hr x hf
      split
      · obtain ⟨p, e, hp, -⟩ := key r x (by tauto)
        rw [e, Option.getD_some, hp ((h.below hv hu).1 r hr)]
        exact hf
      · exact hf
    · intro u hu r hr x hf
      split
      · obtain ⟨p, e, -, hp, -⟩ := key r x (by tauto)
        rw [e, Option.getD_some]
        exact hp hf
      · exact hf
    · intro u hu x hf
      split
      · obtain ⟨p, e, -, -, hp⟩ := key u.tag x (by tauto)
        rw [e, Option.getD_some]
        exact hp hf
      · exact hf

theorem write {v : Ref} (h : TreeInv T (v :: c) sh) (hs : ∀ u ∈ sh, u.arg = false) {w : Window}
    (hw : Sub w v.win) : ∃ T', T.access true v.tag w = some T' ∧ TreeInv T' (v :: c) [] := by
  replace h : TreeInv T (v :: c) [] := h.weaken (by simp) (fun u hu ha => by
    rw [hs u hu] at ha; cases ha)
  have key : ∀ r x, w.Has x → ∃ p, T.change true v.tag r x = some p ∧
      (r ∈ T.path v.tag → p = .active) := by
    intro r x hx
    refine changeWrite (h.writable v (by simp) x (hw x hx) r) ?_
    intro hr hpr
    obtain ⟨u, hu, -, rfl⟩ := h.prot r hpr
    rcases hu with hu | hu
    · exact absurd ((h.below (.inl rfl) hu).1 _ (h.known u (.inl hu)).2) hr
    · cases hu
  refine ⟨_, if_pos ?_, ?_⟩
  · intro i hi r _
    obtain ⟨p, e, -⟩ := key r (w.lo + i) ⟨by omega, by omega⟩
    rw [e]
    rfl
  · refine h.update _ T.prot ?_ (by simp) (by simp) (fun _ hr => hr)
    intro u hu r hr x hf
    split
    · obtain ⟨p, e, hp⟩ := key r x (by tauto)
      rw [e, Option.getD_some, hp ((h.below (.inl rfl) hu).1 r hr)]
      exact .inr rfl
    · exact hf

/-- References that exist keep their paths when a new one is made. -/
theorem push_path {p : GPerm} {t r : Nat} (hr : r < T.next) :
    (T.push p t).2.path r = T.path r := by
  simp only [GTree.push]
  rw [if_neg (by omega)]

theorem push_perm {p : GPerm} {t r x : Nat} (hr : r < T.next) :
    (T.push p t).2.perm r x = T.perm r x := by
  simp only [GTree.push]
  rw [if_neg (by omega)]

theorem push_new {p : GPerm} {t : Nat} :
    (T.push p t).2.path T.next = T.next :: T.path t := by
  simp [GTree.push]

theorem push_newPerm {p : GPerm} {t x : Nat} : (T.push p t).2.perm T.next x = p := by
  simp [GTree.push]

theorem push_above (h : TreeInv T c sh) {p : GPerm} {t : Nat} {a b : Ref}
    (ha : a ∈ c ∨ a ∈ sh) (hb : b ∈ c ∨ b ∈ sh) (hab : Above T a b) :
    Above (T.push p t).2 a b := by
  obtain ⟨h1, h2, h3⟩ := hab
  refine ⟨?_, h2, ?_⟩
  · rw [push_path (h.known a ha).1, push_path (h.known b hb).1]
    exact h1
  · rw [push_path (h.known a ha).1, push_path (h.known b hb).1]
    intro r hr
    rw [push_path (h.fresh _ (h.known a ha).1 r hr)]
    exact h3 r hr

theorem push_aboveNew (h : TreeInv T c sh) {p : GPerm} {v b : Ref} {w : Window} {f : Bool}
    (hv : Usable c sh v) (hb : b ∈ c) (hw : Sub w v.win) :
    Above (T.push p v.tag).2 ⟨T.next, w, f⟩ b := by
  obtain ⟨h1, h2, h3⟩ := h.below hv hb
  have kb := h.known b (.inl hb)
  refine ⟨?_, hw.trans h2, ?_⟩
  · rw [push_new, push_path kb.1]
    exact fun r hr => List.mem_cons_of_mem _ (h1 r hr)
  · rw [push_new, push_path kb.1]
    intro r hr
    rcases List.mem_cons.1 hr with rfl | hr
    · refine .inr ?_
      rw [push_new]
      exact List.mem_cons_of_mem _ (h1 _ kb.2)
    · rw [push_path (h.fresh _ (h.usable_known hv).1 r hr)]
      exact h3 r hr

theorem push_fresh (h : TreeInv T c sh) {p : GPerm} {v : Ref} (hv : Usable c sh v) :
    ∀ r, r < (T.push p v.tag).2.next → ∀ q ∈ (T.push p v.tag).2.path r,
      q < (T.push p v.tag).2.next := by
  intro r hr q hq
  have hr' : r < T.next + 1 := hr
  show q < T.next + 1
  by_cases e : r = T.next
  · subst e
    rw [push_new] at hq
    rcases List.mem_cons.1 hq with rfl | hq
    · omega
    · have := h.fresh _ (h.usable_known hv).1 q hq
      omega
  · rw [push_path (by omega)] at hq
    have := h.fresh r (by omega) q hq
    omega

theorem pushMut {v : Ref} (h : TreeInv T (v :: c) []) {w : Window} (hw : Sub w v.win) :
    TreeInv (T.push .reserved v.tag).2 (⟨T.next, w, false⟩ :: v :: c) [] := by
  have hv : Usable (v :: c) [] v := .inl rfl
  refine ⟨h.push_fresh hv, ?_, ?_, by simp, ?_, by simp, by simp, ?_⟩
  · intro u hu
    rcases hu with hu | hu
    · rcases List.mem_cons.1 hu with rfl | hu
      · exact ⟨Nat.lt_succ_self _, by rw [push_new]; exact List.mem_cons_self⟩
      · have k := h.known u (.inl hu)
        refine ⟨Nat.lt_succ_of_lt k.1, ?_⟩
        rw [push_path k.1]
        exact k.2
    · cases hu
  · refine List.pairwise_cons.2 ⟨fun u hu => h.push_aboveNew hv hu hw, ?_⟩
    refine h.nested.imp_of_mem ?_
    intro a b ha hb hab
    exact h.push_above (.inl ha) (.inl hb) hab
  · intro u hu x hx r hr
    rcases List.mem_cons.1 hu with rfl | hu
    · have hx' : w.Has x := hx
      have hr' : r ∈ (T.push .reserved v.tag).2.path T.next := hr
      rw [push_new] at hr'
      rcases List.mem_cons.1 hr' with rfl | hr'
      · rw [push_newPerm]
        exact .inl rfl
      · rw [push_perm (h.fresh _ (h.usable_known hv).1 r hr')]
        exact h.writable v (by simp) x (hw x hx') r hr'
    · have k := h.known u (.inl hu)
      rw [push_path k.1] at hr
      rw [push_perm (h.fresh _ k.1 r hr)]
      exact h.writable u hu x hx r hr
  · intro r hr
    obtain ⟨u, hu, h'⟩ := h.prot r hr
    rcases hu with hu | hu
    · exact ⟨u, .inl (List.mem_cons_of_mem _ hu), h'⟩
    · cases hu

theorem pushShared (h : TreeInv T c sh) {v : Ref} (hv : Usable c sh v) {w : Window}
    (hw : Sub w v.win) :
    TreeInv (T.push .frozen v.tag).2 c (⟨T.next, w, false⟩ :: sh) := by
  refine ⟨h.push_fresh hv, ?_, ?_, ?_, ?_, ?_, ?_, ?_⟩
  · intro u hu
    rcases hu with hu | hu
    · have k := h.known u (.inl hu)
      refine ⟨Nat.lt_succ_of_lt k.1, ?_⟩
      rw [push_path k.1]
      exact k.2
    · rcases List.mem_cons.1 hu with rfl | hu
      · exact ⟨Nat.lt_succ_self _, by rw [push_new]; exact List.mem_cons_self⟩
      · have k := h.known u (.inr hu)
        refine ⟨Nat.lt_succ_of_lt k.1, ?_⟩
        rw [push_path k.1]
        exact k.2
  · refine h.nested.imp_of_mem ?_
    intro a b ha hb hab
    exact h.push_above (.inl ha) (.inl hb) hab
  · intro u hu z hz
    rcases List.mem_cons.1 hu with rfl | hu
    · exact h.push_aboveNew hv hz hw
    · exact h.push_above (.inr hu) (.inl hz) (h.above u hu z hz)
  · intro u hu x hx r hr
    have k := h.known u (.inl hu)
    rw [push_path k.1] at hr
    rw [push_perm (h.fresh _ k.1 r hr)]
    exact h.writable u hu x hx r hr
  · intro u hu x hx r hr
    rcases List.mem_cons.1 hu with rfl | hu
    · have hx' : w.Has x := hx
      have hr' : r ∈ (T.push .frozen v.tag).2.path T.next := hr
      rw [push_new] at hr'
      rcases List.mem_cons.1 hr' with rfl | hr'
      · rw [push_newPerm]
        decide
      · rw [push_perm (h.fresh _ (h.usable_known hv).1 r hr')]
        exact h.notDisabled hv (hw x hx') r hr'
    · have k := h.known u (.inr hu)
      rw [push_path k.1] at hr
      rw [push_perm (h.fresh _ k.1 r hr)]
      exact h.readable u hu x hx r hr
  · intro u hu x
    rcases List.mem_cons.1 hu with rfl | hu
    · show Quiet ((T.push .frozen v.tag).2.perm T.next x)
      rw [push_newPerm]
      exact .inl rfl
    · rw [push_perm (h.known u (.inr hu)).1]
      exact h.quiet u hu x
  · intro r hr
    obtain ⟨u, hu, h'⟩ := h.prot r hr
    rcases hu with hu | hu
    · exact ⟨u, .inl hu, h'⟩
    · exact ⟨u, .inr (List.mem_cons_of_mem _ hu), h'⟩

/-- Changing the flags only. -/
theorem relabel {c' sh' : List Ref} (h : TreeInv T c sh)
    (hc : List.Forall₂ (fun a b : Ref => a.tag = b.tag ∧ a.win = b.win) c c')
    (hs : List.Forall₂ (fun a b : Ref => a.tag = b.tag ∧ a.win = b.win) sh sh')
    (hp : ∀ r ∈ T.prot, ∃ v, (v ∈ c' ∨ v ∈ sh') ∧ v.arg = true ∧ v.tag = r) :
    TreeInv T c' sh' := by
  have find : ∀ {l l' : List Ref},
      List.Forall₂ (fun a b : Ref => a.tag = b.tag ∧ a.win = b.win) l l' → ∀ b ∈ l',
      ∃ a ∈ l, a.tag = b.tag ∧ a.win = b.win := by
    intro l l' hl
    induction hl with
    | nil => simp
    | cons hab _ ih =>
      intro b hb
      rcases List.mem_cons.1 hb with rfl | hb
      · exact ⟨_, List.mem_cons_self, hab⟩
      · obtain ⟨a, ha, h'⟩ := ih b hb
        exact ⟨a, List.mem_cons_of_mem _ ha, h'⟩
  have hab : ∀ {a b a' b' : Ref}, a.tag = a'.tag ∧ a.win = a'.win → b.tag = b'.tag ∧ b.win = b'.win →
      Above T a b → Above T a' b' := by
    intro a b a' b' e1 e2 h
    simp only [Above] at *
    rw [← e1.1, ← e1.2, ← e2.1, ← e2.2]
    exact h
  refine ⟨h.fresh, ?_, ?_, ?_, ?_, ?_, ?_, hp⟩
  · intro v hv
    rcases hv with hv | hv
    · obtain ⟨a, ha, e, -⟩ := find hc v hv
      exact e ▸ h.known a (.inl ha)
    · obtain ⟨a, ha, e, -⟩ := find hs v hv
      exact e ▸ h.known a (.inr ha)
  · have hn := h.nested
    clear h hp
    induction hc with
    | nil => exact .nil
    | cons e hl ih =>
      rw [List.pairwise_cons] at hn ⊢
      refine ⟨fun b hb => ?_, ih hn.2⟩
      obtain ⟨a, ha, e'⟩ := find hl b hb
      exact hab e e' (hn.1 a ha)
  · intro v hv u hu
    obtain ⟨a, ha, e⟩ := find hs v hv
    obtain ⟨b, hb, e'⟩ := find hc u hu
    exact hab e e' (h.above a ha b hb)
  · intro v hv
    obtain ⟨a, ha, e, e'⟩ := find hc v hv
    rw [← e, ← e']
    exact h.writable a ha
  · intro v hv
    obtain ⟨a, ha, e, e'⟩ := find hs v hv
    rw [← e, ← e']
    exact h.readable a ha
  · intro v hv
    obtain ⟨a, ha, e, e'⟩ := find hs v hv
    rw [← e]
    exact h.quiet a ha

theorem same (l : List Ref) : List.Forall₂ (fun a b : Ref => a.tag = b.tag ∧ a.win = b.win) l l :=
  List.forall₂_same.2 fun _ _ => ⟨rfl, rfl⟩

theorem same_mid (l1 l2 : List Ref) (t : Nat) (w : Window) (a b : Bool) :
    List.Forall₂ (fun a b : Ref => a.tag = b.tag ∧ a.win = b.win) (l1 ++ ⟨t, w, a⟩ :: l2)
      (l1 ++ ⟨t, w, b⟩ :: l2) :=
  List.rel_append (same l1) (.cons ⟨rfl, rfl⟩ (same l2))

/-- Where a reference of the chain stands to another one. -/
theorem order (h : TreeInv T c sh) {u z : Ref} (hu : u ∈ c) (hz : z ∈ c ∨ z ∈ sh) {r : Nat}
    (hr : r ∈ T.path z.tag) : r ∈ T.path u.tag ∨ u.tag ∈ T.path r := by
  rcases hz with hz | hz
  · obtain ⟨a, b, rfl⟩ := List.append_of_mem hu
    have hn := h.nested
    simp only [List.pairwise_append, List.pairwise_cons] at hn
    rcases List.mem_append.1 hz with hz | hz
    · exact (hn.2.2 z hz u (by simp)).2.2 r hr
    · rcases List.mem_cons.1 hz with rfl | hz
      · exact .inl hr
      · exact .inl ((hn.2.1.1 z hz).1 r hr)
  · exact (h.above z hz u hu).2.2 r hr

/-- The end of the protection of a reference of the chain. -/
theorem leave {u : Ref} (h : TreeInv T c sh) (hu : u ∈ c) :
    ∃ T', T.leave u.tag u.win = some T' ∧ T'.prot = T.prot.filter (· ≠ u.tag) ∧
      TreeInv T' c sh := by
  have ku := h.known u (.inl hu)
  have key : ∀ r x, u.win.Has x → ∃ p, T.ending u.tag r x = some p ∧
      ∀ z, (z ∈ c ∨ z ∈ sh) → r ∈ T.path z.tag →
        p = T.perm r x ∨ (Free (T.perm r x) ∧ p = .active) := by
    intro r x hx
    simp only [GTree.ending]
    split
    · exact ⟨_, rfl, fun _ _ _ => .inl rfl⟩
    · rename_i hd
      have hfar : ∀ z, (z ∈ c ∨ z ∈ sh) → r ∈ T.path z.tag → r ∈ T.path u.tag := by
        intro z hz hr
        rcases h.order hu hz hr with h' | h'
        · exact h'
        · have : r = u.tag := by tauto
          exact this ▸ ku.2
      have hpr : r ∉ T.path u.tag → r ∉ T.prot := by
        intro hr hp
        obtain ⟨z, hz, -, rfl⟩ := h.prot r hp
        exact hr (hfar z hz (h.known z hz).2)
      have hfree := h.writable u hu x hx
      cases decide (T.perm u.tag x = .active) with
      | true =>
        obtain ⟨p, e, hp⟩ := changeWrite (T := T) (t := u.tag) (r := r) (x := x) (hfree r) hpr
        exact ⟨p, e, fun z hz hr => .inr ⟨hfree r (hfar z hz hr), hp (hfar z hz hr)⟩⟩
      | false =>
        obtain ⟨p, e, hp, -⟩ := changeRead (T := T) (t := u.tag) (r := r) (x := x)
          (fun hr => by rcases hfree r hr with e | e <;> rw [e] <;> decide)
          (fun hr hp => absurd hp (hpr hr))
        exact ⟨p, e, fun z hz hr => .inl (hp (hfar z hz hr))⟩
  refine ⟨_, if_pos ?_, rfl, ?_⟩
  · intro i hi r _
    obtain ⟨p, e, -⟩ := key r (u.win.lo + i) ⟨by omega, by omega⟩
    rw [e]
    rfl
  · refine h.update _ _ ?_ ?_ ?_ (fun r hr => (List.mem_filter.1 hr).1)
    · intro z hz r hr x hf
      split
      · obtain ⟨p, e, hp⟩ := key r x (by tauto)
        rw [e, Option.getD_some]
        rcases hp z (.inl hz) hr with e | ⟨-, e⟩
        · exact e ▸ hf
        · exact .inr e
      · exact hf
    · intro z hz r hr x hf
      split
      · obtain ⟨p, e, hp⟩ := key r x (by tauto)
        rw [e, Option.getD_some]
        rcases hp z (.inr hz) hr with e | ⟨-, e⟩
        · exact e ▸ hf
        · rw [e]; decide
      · exact hf
    · intro z hz x hf
      split
      · obtain ⟨p, e, hp⟩ := key z.tag x (by tauto)
        rw [e, Option.getD_some]
        rcases hp z (.inr hz) (h.known z (.inr hz)).2 with e | ⟨e, -⟩
        · exact e ▸ hf
        · rcases hf with hf | hf <;> rw [hf] at e <;> rcases e with e | e <;> cases e
      · exact hf

/-- The end of the protection of a shared reference. -/
theorem leaveShared {u : Ref} (h : TreeInv T c sh) (hu : u ∈ sh) :
    ∃ T', T.leave u.tag u.win = some T' ∧ T'.prot = T.prot.filter (· ≠ u.tag) ∧
      TreeInv T' c sh := by
  have hus : Usable c sh u := .inr hu
  have key : ∀ r x, u.win.Has x → ∃ p, T.ending u.tag r x = some p ∧
      (r ∈ T.path u.tag → p = T.perm r x) ∧ (T.perm r x ≠ .disabled → p ≠ .disabled) ∧
      (Quiet (T.perm r x) → Quiet p) := by
    intro r x hx
    simp only [GTree.ending]
    split
    · exact ⟨_, rfl, fun _ => rfl, id, id⟩
    · have hna : decide (T.perm u.tag x = .active) = false := by
        rcases h.quiet u hu x with e | e <;> rw [e] <;> decide
      rw [hna]
      refine changeRead (h.notDisabled hus hx r) ?_
      intro hr hpr
      obtain ⟨z, hz, -, rfl⟩ := h.prot r hpr
      rcases hz with hz | hz
      · exact absurd ((h.below hus hz).1 _ (h.known z (.inl hz)).2) hr
      · rcases h.quiet z hz x with e | e <;> rw [e] <;> decide
  refine ⟨_, if_pos ?_, rfl, ?_⟩
  · intro i hi r _
    obtain ⟨p, e, -⟩ := key r (u.win.lo + i) ⟨by omega, by omega⟩
    rw [e]
    rfl
  · refine h.update _ _ ?_ ?_ ?_ (fun r hr => (List.mem_filter.1 hr).1)
    · intro z hz r hr x hf
      split
      · obtain ⟨p, e, hp, -⟩ := key r x (by tauto)
        rw [e, Option.getD_some, hp ((h.below hus hz).1 r hr)]
        exact hf
      · exact hf
    · intro z hz r hr x hf
      split
      · obtain ⟨p, e, -, hp, -⟩ := key r x (by tauto)
        rw [e, Option.getD_some]
        exact hp hf
      · exact hf
    · intro z hz x hf
      split
      · obtain ⟨p, e, -, -, hp⟩ := key z.tag x (by tauto)
        rw [e, Option.getD_some]
        exact hp hf
      · exact hf

/-- Protecting more. -/
theorem protect (h : TreeInv T c sh) {t : Nat}
    (hp : ∃ v, (v ∈ c ∨ v ∈ sh) ∧ v.arg = true ∧ v.tag = t) :
    TreeInv { T with prot := t :: T.prot } c sh :=
  ⟨h.fresh, h.known, h.nested, h.above, h.writable, h.readable, h.quiet, fun r hr => by
    rcases List.mem_cons.1 hr with rfl | hr
    · exact hp
    · exact h.prot r hr⟩

end TreeInv

/-- The invariant is kept by Tree Borrows. -/
theorem tree_obeys : Obeys GTree.rules TreeInv where
  weaken := fun h hsub harg => h.weaken hsub harg
  delete := by
    intro s c1 c2 sh v h hv
    have hin : ∀ u, u ∈ c1 ++ c2 → u ∈ c1 ++ v :: c2 := by
      intro u hu
      simp only [List.mem_append, List.mem_cons] at *
      tauto
    refine ⟨h.fresh, fun u hu => h.known u (hu.imp (hin u) id),
      h.nested.sublist (by simp), fun z hz u hu => h.above z hz u (hin u hu),
      fun u hu => h.writable u (hin u hu), h.readable, h.quiet, fun r hr => ?_⟩
    obtain ⟨u, hu, ha, ht⟩ := h.prot r hr
    refine ⟨u, hu.imp (fun hu => ?_) id, ha, ht⟩
    simp only [List.mem_append, List.mem_cons] at *
    rcases hu with hu | rfl | hu
    · exact .inl hu
    · rw [hv] at ha; cases ha
    · exact .inr hu
  enter := by
    intro s c sh t w a h
    refine (h.relabel (c' := ⟨t, w, true⟩ :: c) (TreeInv.same_mid [] c t w a true)
      (TreeInv.same sh) ?_).protect ⟨_, .inl List.mem_cons_self, rfl, rfl⟩
    intro r hr
    obtain ⟨u, hu, ha, ht⟩ := h.prot r hr
    rcases hu with hu | hu
    · rcases List.mem_cons.1 hu with rfl | hu
      · exact ⟨_, .inl List.mem_cons_self, rfl, ht⟩
      · exact ⟨u, .inl (List.mem_cons_of_mem _ hu), ha, ht⟩
    · exact ⟨u, .inr hu, ha, ht⟩
  enterShared := by
    intro s c sh t w a h
    refine (h.relabel (sh' := ⟨t, w, true⟩ :: sh) (TreeInv.same c)
      (TreeInv.same_mid [] sh t w a true) ?_).protect ⟨_, .inr List.mem_cons_self, rfl, rfl⟩
    intro r hr
    obtain ⟨u, hu, ha, ht⟩ := h.prot r hr
    rcases hu with hu | hu
    · exact ⟨u, .inl hu, ha, ht⟩
    · rcases List.mem_cons.1 hu with rfl | hu
      · exact ⟨_, .inr List.mem_cons_self, rfl, ht⟩
      · exact ⟨u, .inr (List.mem_cons_of_mem _ hu), ha, ht⟩
  leave := by
    intro s c1 c2 sh t w a h
    obtain ⟨T', e, hp, h'⟩ := h.leave (u := ⟨t, w, a⟩) (by simp)
    refine ⟨T', e, h'.relabel (TreeInv.same_mid c1 c2 t w a false) (TreeInv.same sh) ?_⟩
    intro r hr
    obtain ⟨u, hu, ha, ht⟩ := h'.prot r hr
    rw [hp] at hr
    simp only [List.mem_filter, decide_eq_true_eq] at hr
    refine ⟨u, hu.imp (fun hu => ?_) id, ha, ht⟩
    simp only [List.mem_append, List.mem_cons] at *
    rcases hu with hu | rfl | hu
    · exact .inl hu
    · exact absurd ht.symm hr.2
    · exact .inr (.inr hu)
  leaveShared := by
    intro s c sh1 sh2 t w a h
    obtain ⟨T', e, hp, h'⟩ := h.leaveShared (u := ⟨t, w, a⟩) (by simp)
    refine ⟨T', e, h'.relabel (TreeInv.same c) (TreeInv.same_mid sh1 sh2 t w a false) ?_⟩
    intro r hr
    obtain ⟨u, hu, ha, ht⟩ := h'.prot r hr
    rw [hp] at hr
    simp only [List.mem_filter, decide_eq_true_eq] at hr
    refine ⟨u, hu.imp id (fun hu => ?_), ha, ht⟩
    simp only [List.mem_append, List.mem_cons] at *
    rcases hu with hu | rfl | hu
    · exact .inl hu
    · exact absurd ht.symm hr.2
    · exact .inr (.inr hu)
  mutRef := by
    intro s c sh v w h hs hw
    replace h : TreeInv s (v :: c) [] := h.weaken (by simp) (fun u hu ha => by
      rw [hs u hu] at ha; cases ha)
    obtain ⟨T', e, hn, -, h'⟩ := h.read (.inl rfl) hw
    exact ⟨_, _, by simp only [GTree.rules, e, Option.map_some]; rfl, h'.pushMut hw⟩
  mutRaw := by
    intro s c sh v w h hs hw
    replace h : TreeInv s (v :: c) [] := h.weaken (by simp) (fun u hu ha => by
      rw [hs u hu] at ha; cases ha)
    refine ⟨_, _, rfl, h.fresh, ?_, ?_, by simp, ?_, by simp, by simp, ?_⟩
    · intro u hu
      rcases hu with hu | hu
      · rcases List.mem_cons.1 hu with rfl | hu
        · exact h.known v (.inl (by simp))
        · exact h.known u (.inl hu)
      · cases hu
    · refine List.pairwise_cons.2 ⟨fun u hu => ?_, h.nested⟩
      obtain ⟨h1, h2, h3⟩ := h.below (.inl rfl) hu
      exact ⟨h1, hw.trans h2, h3⟩
    · intro u hu x hx
      rcases List.mem_cons.1 hu with rfl | hu
      · exact h.writable v (by simp) x (hw x hx)
      · exact h.writable u hu x hx
    · intro r hr
      obtain ⟨u, hu, h'⟩ := h.prot r hr
      rcases hu with hu | hu
      · exact ⟨u, .inl (List.mem_cons_of_mem _ hu), h'⟩
      · cases hu
  shrRef := by
    intro s c sh v w h hv hw
    obtain ⟨T', e, hn, -, h'⟩ := h.read hv hw
    exact ⟨_, _, by simp only [GTree.rules, e, Option.map_some]; rfl, h'.pushShared hv hw⟩
  shrRaw := by
    intro s c sh v w h hv hw
    refine ⟨_, _, rfl, h.fresh, ?_, h.nested, ?_, h.writable, ?_, ?_, ?_⟩
    · intro u hu
      rcases hu with hu | hu
      · exact h.known u (.inl hu)
      · rcases List.mem_cons.1 hu with rfl | hu
        · exact h.known v (.inr hv)
        · exact h.known u (.inr hu)
    · intro z hz u hu
      rcases List.mem_cons.1 hz with rfl | hz
      · obtain ⟨h1, h2, h3⟩ := h.above v hv u hu
        exact ⟨h1, hw.trans h2, h3⟩
      · exact h.above z hz u hu
    · intro z hz x hx
      rcases List.mem_cons.1 hz with rfl | hz
      · exact h.readable v hv x (hw x hx)
      · exact h.readable z hz x hx
    · intro z hz
      rcases List.mem_cons.1 hz with rfl | hz
      · exact h.quiet v hv
      · exact h.quiet z hz
    · intro r hr
      obtain ⟨u, hu, h'⟩ := h.prot r hr
      rcases hu with hu | hu
      · exact ⟨u, .inl hu, h'⟩
      · exact ⟨u, .inr (List.mem_cons_of_mem _ hu), h'⟩
  write := by
    intro s c sh v w h hs hw
    exact h.write hs hw
  read := by
    intro s c sh v w h hv hw
    obtain ⟨T', e, -, -, h'⟩ := h.read hv hw
    exact ⟨T', e, h'⟩

end Householder.Spec
