import Verif.Model.Guards
import Verif.Lemmas.Borrow

/-!
# Lemmas: what a chain of references needs, and Stacked Borrows with protectors
-/

namespace Householder.Spec

open Borrow

/-- A reference that is in use: its tag, its cells, and whether it is protected. -/
structure Ref where
  tag : Nat
  win : Window
  arg : Bool

/-- The cells of `v` are cells of `w`. -/
def Sub (v w : Window) : Prop := ∀ x, v.Has x → w.Has x

theorem Sub.refl (w : Window) : Sub w w := fun _ h => h
theorem Sub.trans {u v w : Window} (h : Sub u v) (h' : Sub v w) : Sub u w := fun x hx => h' x (h x hx)

theorem sub_one {w : Window} {x : Nat} (h : w.Has x) : Sub (.one x) w := by
  intro y hy
  have : y = x := by simp only [Window.Has, Window.one] at hy; omega
  exact this ▸ h

/-- The reference is the last mutable one or one of the shared ones. -/
def Usable (c sh : List Ref) (v : Ref) : Prop := c.head? = some v ∨ v ∈ sh

/-- What the two aliasing models have in common. `I s c sh`: the references of the chain `c` may
all be used for writing (the last, which is the first of the list, now), those of `sh` for
reading. -/
structure Obeys {S : Type} (R : Rules S) (I : S → List Ref → List Ref → Prop) : Prop where
  weaken : ∀ {s c sh sh'}, I s c sh → (∀ v ∈ sh', v ∈ sh) → (∀ v ∈ sh, v.arg = true → v ∈ sh') →
    I s c sh'
  delete : ∀ {s c1 c2 sh v}, I s (c1 ++ v :: c2) sh → v.arg = false → I s (c1 ++ c2) sh
  enter : ∀ {s c sh t w a}, I s (⟨t, w, a⟩ :: c) sh → I (R.enter t s) (⟨t, w, true⟩ :: c) sh
  enterShared : ∀ {s c sh t w a}, I s c (⟨t, w, a⟩ :: sh) → I (R.enter t s) c (⟨t, w, true⟩ :: sh)
  leave : ∀ {s c1 c2 sh t w a}, I s (c1 ++ ⟨t, w, a⟩ :: c2) sh →
    ∃ s', R.leave t w s = some s' ∧ I s' (c1 ++ ⟨t, w, false⟩ :: c2) sh
  leaveShared : ∀ {s c sh1 sh2 t w a}, I s c (sh1 ++ ⟨t, w, a⟩ :: sh2) →
    ∃ s', R.leave t w s = some s' ∧ I s' c (sh1 ++ ⟨t, w, false⟩ :: sh2)
  mutRef : ∀ {s c sh v w}, I s (v :: c) sh → (∀ u ∈ sh, u.arg = false) → Sub w v.win →
    ∃ t s', R.mutRef v.tag w s = some (t, s') ∧ I s' (⟨t, w, false⟩ :: v :: c) []
  mutRaw : ∀ {s c sh v w}, I s (v :: c) sh → (∀ u ∈ sh, u.arg = false) → Sub w v.win →
    ∃ t s', R.mutRaw v.tag w s = some (t, s') ∧ I s' (⟨t, w, false⟩ :: v :: c) []
  shrRef : ∀ {s c sh v w}, I s c sh → Usable c sh v → Sub w v.win →
    ∃ t s', R.shrRef v.tag w s = some (t, s') ∧ I s' c (⟨t, w, false⟩ :: sh)
  shrRaw : ∀ {s c sh v w}, I s c sh → v ∈ sh → Sub w v.win →
    ∃ t s', R.shrRaw v.tag w s = some (t, s') ∧ I s' c (⟨t, w, false⟩ :: sh)
  write : ∀ {s c sh v w}, I s (v :: c) sh → (∀ u ∈ sh, u.arg = false) → Sub w v.win →
    ∃ s', R.access true v.tag w s = some s' ∧ I s' (v :: c) []
  read : ∀ {s c sh v w}, I s c sh → Usable c sh v → Sub w v.win →
    ∃ s', R.access false v.tag w s = some s' ∧ I s' c sh

namespace Obeys

variable {S : Type} {R : Rules S} {I : S → List Ref → List Ref → Prop} (H : Obeys R I)

include H

theorem pop {s : S} {v : Ref} {c sh : List Ref} (h : I s (v :: c) sh) (hv : v.arg = false) :
    I s c sh := H.delete (c1 := []) h hv

/-- Writing an element through the last mutable reference. -/
theorem set {s : S} {v : Ref} {c sh : List Ref} (h : I s (v :: c) sh)
    (hs : ∀ u ∈ sh, u.arg = false) {x : Nat} (hx : v.win.Has x) :
    ∃ s', R.set v.tag v.win x s = some s' ∧ I s' (v :: c) [] := by
  obtain ⟨t1, s1, e1, h1⟩ := H.mutRef h hs (Sub.refl v.win)
  obtain ⟨t2, s2, e2, h2⟩ := H.mutRef h1 (by simp) (Sub.refl v.win)
  have h3 := H.enter h2
  obtain ⟨t4, s4, e4, h4⟩ := H.mutRef h3 (by simp) (sub_one hx)
  obtain ⟨s5, e5, h5⟩ := H.leave (c1 := [_]) h4
  obtain ⟨s6, e6, h6⟩ := H.write h5 (by simp) (Sub.refl _)
  refine ⟨s6, ?_, H.pop (H.pop (H.pop h6 rfl) rfl) rfl⟩
  simp only [Rules.set, e1, e2, e4, e5, Option.bind_eq_bind, Option.bind_some]
  exact e6

/-- Reading an element. -/
theorem get {s : S} {v : Ref} {c sh : List Ref} (h : I s c sh) (hv : Usable c sh v) {x : Nat}
    (hx : v.win.Has x) :
    ∃ s', R.get v.tag v.win x s = some s' ∧ I s' c sh := by
  obtain ⟨t1, s1, e1, h1⟩ := H.shrRef h hv (Sub.refl v.win)
  obtain ⟨t2, s2, e2, h2⟩ := H.shrRef (v := ⟨t1, v.win, false⟩) h1 (.inr (by simp))
    (Sub.refl v.win)
  have h3 := H.enterShared h2
  obtain ⟨t4, s4, e4, h4⟩ := H.shrRef (v := ⟨t2, v.win, true⟩) h3 (.inr (by simp)) (sub_one hx)
  obtain ⟨s5, e5, h5⟩ := H.leaveShared (sh1 := [_]) h4
  obtain ⟨s6, e6, h6⟩ := H.read (v := ⟨t4, .one x, false⟩) h5 (.inr (by simp)) (Sub.refl _)
  refine ⟨s6, ?_, H.weaken h6 (fun u hu => by simp [hu]) ?_⟩
  · simp only [Rules.get, e1, e2, e4, e5, Option.bind_eq_bind, Option.bind_some]
    exact e6
  · intro u hu ha
    simp only [List.mem_append, List.mem_cons, List.not_mem_nil, or_false] at hu
    rcases hu with rfl | rfl | rfl | hu
    · cases ha
    · cases ha
    · cases ha
    · exact hu

/-- Making a mutable view of the last mutable reference. -/
theorem viewMut {s : S} {v : Ref} {c sh : List Ref} (h : I s (v :: c) sh)
    (hs : ∀ u ∈ sh, u.arg = false) {w : Window} (hw : Sub w v.win) :
    ∃ t s', R.viewMut v.tag v.win w s = some (t, s') ∧ I s' (⟨t, w, false⟩ :: v :: c) [] := by
  obtain ⟨t1, s1, e1, h1⟩ := H.mutRef h hs (Sub.refl v.win)
  obtain ⟨t2, s2, e2, h2⟩ := H.mutRef h1 (by simp) (Sub.refl v.win)
  have h3 := H.enter h2
  obtain ⟨t4, s4, e4, h4⟩ := H.mutRaw h3 (by simp) (Sub.refl v.win)
  obtain ⟨s5, e5, h5⟩ := H.leave (c1 := [_]) h4
  obtain ⟨t6, s6, e6, h6⟩ := H.mutRef h5 (by simp) hw
  refine ⟨t6, s6, ?_, ?_⟩
  · simp only [Rules.viewMut, Rules.pointerMut, e1, e2, e4, e5, Option.bind_eq_bind,
      Option.bind_some, Option.pure_def]
    exact e6
  · exact H.delete (c1 := [_]) (H.delete (c1 := [_]) (H.delete (c1 := [_]) h6 rfl) rfl) rfl

/-- Making a shared view. -/
theorem view {s : S} {v : Ref} {c sh : List Ref} (h : I s c sh) (hv : Usable c sh v)
    {w : Window} (hw : Sub w v.win) :
    ∃ t s', R.view v.tag v.win w s = some (t, s') ∧ I s' c (⟨t, w, false⟩ :: sh) := by
  obtain ⟨t1, s1, e1, h1⟩ := H.shrRef h hv (Sub.refl v.win)
  obtain ⟨t2, s2, e2, h2⟩ := H.shrRef (v := ⟨t1, v.win, false⟩) h1 (.inr (by simp))
    (Sub.refl v.win)
  have h3 := H.enterShared h2
  obtain ⟨t4, s4, e4, h4⟩ := H.shrRaw (v := ⟨t2, v.win, true⟩) h3 (by simp) (Sub.refl v.win)
  obtain ⟨s5, e5, h5⟩ := H.leaveShared (sh1 := [_]) h4
  obtain ⟨t6, s6, e6, h6⟩ := H.shrRef (v := ⟨t4, v.win, false⟩) h5 (.inr (by simp)) hw
  refine ⟨t6, s6, ?_, H.weaken h6 (fun u hu => ?_) ?_⟩
  · simp only [Rules.view, Rules.pointer, e1, e2, e4, e5, Option.bind_eq_bind,
      Option.bind_some, Option.pure_def]
    exact e6
  · simp only [List.mem_cons] at hu
    rcases hu with rfl | hu <;> simp [*]
  · intro u hu ha
    simp only [List.cons_append, List.nil_append, List.mem_cons] at hu
    rcases hu with rfl | rfl | rfl | rfl | hu
    · cases ha
    · cases ha
    · cases ha
    · cases ha
    · exact List.mem_cons_of_mem _ hu

/-- Accesses through the last mutable reference. -/
theorem accesses {v : Ref} {c : List Ref} (us : List (Nat × Bool)) :
    ∀ {s : S}, I s (v :: c) [] → (∀ u ∈ us, v.win.Has u.1) →
    ∃ s', R.accesses v.tag us s = some s' ∧ I s' (v :: c) [] := by
  induction us with
  | nil => exact fun h _ => ⟨_, rfl, h⟩
  | cons u us ih =>
    intro s h hu
    have hw : Sub (.one u.1) v.win := sub_one (hu u (by simp))
    have : ∃ s', R.access u.2 v.tag (.one u.1) s = some s' ∧ I s' (v :: c) [] := by
      cases u.2 with
      | true => exact H.write h (by simp) hw
      | false => exact H.read h (.inl rfl) hw
    obtain ⟨s1, e1, h1⟩ := this
    obtain ⟨s2, e2, h2⟩ := ih h1 (fun u' hu' => hu u' (by simp [hu']))
    exact ⟨s2, by simp only [Rules.accesses, e1, Option.bind_some, e2], h2⟩

end Obeys

/-! ## Stacked Borrows -/

/-- The stack is in the order in which the references were made. -/
def Ordered (k : Stack) : Prop := k.Pairwise fun e f => f.tag < e.tag

/-- A read keeps what is not unique, and what is not newer than the reader. -/
theorem read_ordered {t : Nat} {k : Stack} (ho : Ordered k) {g : Entry} (hg : g ∈ k)
    (hgr : g.Grants false t) : ∃ k', k.read t = some k' ∧ Ordered k' ∧
      (∀ e ∈ k', ∃ e0 ∈ k, e0.tag = e.tag ∧ (e0.perm = e.perm ∨ t < e.tag ∧ e0.perm = .unique)) ∧
      (∀ e ∈ k, e.tag ≤ t ∨ e.perm ≠ .unique → e ∈ k') := by
  obtain ⟨a, b, rfl⟩ := List.append_of_mem hg
  have ho' := ho
  simp only [Ordered, List.pairwise_append, List.pairwise_cons] at ho
  have hlt : ∀ e ∈ a, t < e.tag := fun e he => by
    have := ho.2.2 e he g (by simp)
    rw [← hgr.1]; exact this
  have ha : Absent t a := fun e he => by have := hlt e he; omega
  refine ⟨_, read_at ha hgr, ?_, ?_, ?_⟩
  · simp only [Ordered, List.pairwise_append, List.pairwise_cons, List.pairwise_map]
    refine ⟨ho.1.imp ?_, ho.2.1, ?_⟩
    · intro e f h
      split <;> split <;> exact h
    · intro e he f hf
      obtain ⟨e0, he0, rfl⟩ := List.mem_map.1 he
      have := ho.2.2 e0 he0 f hf
      split <;> exact this
  · intro e he
    rcases List.mem_append.1 he with he | he
    · obtain ⟨e0, he0, rfl⟩ := List.mem_map.1 he
      refine ⟨e0, by simp [he0], ?_⟩
      have := hlt e0 he0
      split
      · exact ⟨rfl, .inr ⟨this, ‹_›⟩⟩
      · exact ⟨rfl, .inl rfl⟩
    · exact ⟨e, List.mem_append.2 (.inr he), rfl, .inl rfl⟩
  · intro e he h
    rcases List.mem_append.1 he with he | he
    · have hl := hlt e he
      have hn : e.perm ≠ .unique := by
        rcases h with h | h
        · omega
        · exact h
      exact List.mem_append.2 (.inl (List.mem_map.2 ⟨e, he, by rw [if_neg hn]⟩))
    · exact List.mem_append.2 (.inr he)

/-- A write keeps what is not newer than the writer. -/
theorem write_ordered {t : Nat} {k : Stack} (ho : Ordered k) {g : Entry} (hg : g ∈ k)
    (hgr : g.Grants true t) : ∃ k', k.write t = some k' ∧ Ordered k' ∧ (∀ e ∈ k', e ∈ k) ∧
      (∀ e ∈ k, e.tag ≤ t → e ∈ k') := by
  obtain ⟨a, b, rfl⟩ := List.append_of_mem hg
  have ho' := ho
  simp only [Ordered, List.pairwise_append, List.pairwise_cons] at ho
  have hlt : ∀ e ∈ a, t < e.tag := fun e he => by
    have := ho.2.2 e he g (by simp)
    rw [← hgr.1]; exact this
  have hd : (a ++ g :: b).dropWhile (fun e => decide (¬ e.Grants true t)) = g :: b := by
    rw [dropWhile_append_of (fun e he => by
      simpa using not_grants_of_tag (b := true) (by have := hlt e he; omega))]
    simp [List.dropWhile_cons, hgr]
  have ht : (a ++ g :: b).takeWhile (fun e => decide (¬ e.Grants true t)) = a := by
    rw [takeWhile_append_of (fun e he => by
      simpa using not_grants_of_tag (b := true) (by have := hlt e he; omega))]
    simp [List.takeWhile_cons, hgr]
  have hw : ∃ kept, Stack.write t (a ++ g :: b) = some (kept ++ g :: b) ∧ kept.Sublist a := by
    simp only [Stack.write, hd, ht]
    refine ⟨_, rfl, ?_⟩
    split
    · have := (List.takeWhile_sublist (l := a.reverse) (fun e => decide (e.perm = .sharedRW))).reverse
      simpa using this
    · exact List.nil_sublist _
  obtain ⟨kept, e, hsub⟩ := hw
  refine ⟨_, e, ?_, ?_, ?_⟩
  · exact ho'.sublist (hsub.append (List.Sublist.refl _))
  · intro f hf
    exact (hsub.append (List.Sublist.refl _)).subset hf
  · intro f hf hle
    rcases List.mem_append.1 hf with hf | hf
    · have := hlt f hf; omega
    · exact List.mem_append.2 (.inr hf)

/-- The invariant for Stacked Borrows. -/
structure StackInv (g : GStacks) (c sh : List Ref) : Prop where
  ordered : ∀ x, Ordered (g.cells.stack x)
  fresh : ∀ x, ∀ e ∈ g.cells.stack x, e.tag < g.cells.next
  known : ∀ v, v ∈ c ∨ v ∈ sh → v.tag < g.cells.next
  nested : c.Pairwise fun a b => b.tag < a.tag ∧ Sub a.win b.win
  above : ∀ v ∈ sh, ∀ u ∈ c, u.tag < v.tag ∧ Sub v.win u.win
  writable : ∀ v ∈ c, ∀ x, v.win.Has x → ∃ e ∈ g.cells.stack x, e.Grants true v.tag
  readable : ∀ v ∈ sh, ∀ x, v.win.Has x → ⟨.sharedRO, v.tag⟩ ∈ g.cells.stack x
  only : ∀ v ∈ sh, ∀ x, ∀ e ∈ g.cells.stack x, e.tag = v.tag → e.perm = .sharedRO
  prot : ∀ r ∈ g.prot, ∃ v, (v ∈ c ∨ v ∈ sh) ∧ v.arg = true ∧ v.tag = r

theorem grants_true_false {t : Nat} {e : Entry} (h : e.Grants true t) : e.Grants false t := by
  refine ⟨h.1, ?_⟩
  have := h.2
  cases hp : e.perm <;> simp_all

theorem grants_shared {t : Nat} : Entry.Grants false t ⟨.sharedRO, t⟩ := ⟨rfl, rfl⟩

namespace StackInv

variable {g : GStacks} {c sh : List Ref}

/-- The chain's tags are at most the tag of a usable reference, whose window is in theirs. -/
theorem below (h : StackInv g c sh) {v : Ref} (hv : Usable c sh v) {u : Ref} (hu : u ∈ c) :
    u.tag ≤ v.tag ∧ Sub v.win u.win := by
  rcases hv with hv | hv
  · cases c with
    | nil => cases hv
    | cons w c =>
      simp only [List.head?_cons, Option.some.injEq] at hv
      subst hv
      rcases List.mem_cons.1 hu with rfl | hu
      · exact ⟨le_refl _, Sub.refl _⟩
      · have := (List.pairwise_cons.1 h.nested).1 u hu
        exact ⟨this.1.le, this.2⟩
  · have := h.above v hv u hu
    exact ⟨this.1.le, this.2⟩

theorem grants (h : StackInv g c sh) {v : Ref} (hv : Usable c sh v) {x : Nat} (hx : v.win.Has x) :
    ∃ e ∈ g.cells.stack x, e.Grants false v.tag := by
  rcases hv with hv | hv
  · obtain ⟨e, he, hg⟩ := h.writable v (List.mem_of_mem_head? hv) x hx
    exact ⟨e, he, grants_true_false hg⟩
  · exact ⟨_, h.readable v hv x hx, grants_shared⟩

theorem read (h : StackInv g c sh) {v : Ref} {w : Window} (hv : Usable c sh v)
    (hw : Sub w v.win) : ∃ g', g.access false v.tag w = some g' ∧ g'.cells.next = g.cells.next ∧
      StackInv g' c sh := by
  have key : ∀ x, ∃ k', w.Has x → (g.cells.stack x).read v.tag = some k' ∧ Ordered k' ∧
      (∀ e ∈ k', ∃ e0 ∈ g.cells.stack x, e0.tag = e.tag ∧
        (e0.perm = e.perm ∨ v.tag < e.tag ∧ e0.perm = .unique)) ∧
      (∀ e ∈ g.cells.stack x, e.tag ≤ v.tag ∨ e.perm ≠ .unique → e ∈ k') := by
    intro x
    by_cases hx : w.Has x
    · obtain ⟨e, he, hg⟩ := h.grants hv (hw x hx)
      obtain ⟨k', hk⟩ := read_ordered (h.ordered x) he hg
      exact ⟨k', fun _ => hk⟩
    · exact ⟨[], fun hx' => absurd hx' hx⟩
  choose f hf using key
  have ea := Stacks.access_some (b := false) (t := v.tag) (w := w) (s := g.cells) (f := f)
    (fun x hx => by simpa using (hf x hx).1)
  set k : Nat → Stack := fun x => if w.Has x then f x else g.cells.stack x with hk
  have keep : ∀ x, ∀ e ∈ g.cells.stack x, e.tag ≤ v.tag ∨ e.perm ≠ .unique → e ∈ k x := by
    intro x e he hc
    simp only [hk]
    split
    · exact (hf x ‹_›).2.2.2 e he hc
    · exact he
  have back : ∀ x, ∀ e ∈ k x, ∃ e0 ∈ g.cells.stack x, e0.tag = e.tag ∧
      (e0.perm = e.perm ∨ v.tag < e.tag ∧ e0.perm = .unique) := by
    intro x e he
    simp only [hk] at he
    split at he
    · exact (hf x ‹_›).2.2.1 e he
    · exact ⟨e, he, rfl, .inl rfl⟩
  have hp : ∀ x, ∀ e ∈ g.cells.stack x, e.tag ∈ g.prot → e ∈ k x := by
    intro x e he hr
    obtain ⟨u, hu, -, hut⟩ := h.prot _ hr
    rcases hu with hu | hu
    · exact keep x e he (.inl (hut ▸ (h.below hv hu).1))
    · refine keep x e he (.inr ?_)
      rw [h.only u hu x e he hut.symm]
      decide
  refine ⟨⟨⟨k, g.cells.next⟩, g.prot⟩, ?_, rfl, ?_⟩
  · simp only [GStacks.access, ea]
    rw [if_pos]
    intro i _ e he hr
    exact hp _ e he hr
  · constructor
    · intro x
      show Ordered (k x)
      simp only [hk]
      split
      · exact (hf x ‹_›).2.1
      · exact h.ordered x
    · intro x e he
      obtain ⟨e0, he0, ht, -⟩ := back x e he
      exact ht ▸ h.fresh x e0 he0
    · exact h.known
    · exact h.nested
    · exact h.above
    · intro u hu x hx
      obtain ⟨e, he, hg⟩ := h.writable u hu x hx
      exact ⟨e, keep x e he (.inl (hg.1 ▸ (h.below hv hu).1)), hg⟩
    · intro u hu x hx
      exact keep x _ (h.readable u hu x hx) (.inr (by simp))
    · intro u hu x e he ht
      obtain ⟨e0, he0, ht0, hp0⟩ := back x e he
      have := h.only u hu x e0 he0 (ht0.trans ht)
      rcases hp0 with hp0 | ⟨-, hp0⟩
      · exact hp0 ▸ this
      · rw [this] at hp0
        cases hp0
    · exact h.prot

theorem write {v : Ref} (h : StackInv g (v :: c) sh) (hs : ∀ u ∈ sh, u.arg = false) {w : Window}
    (hw : Sub w v.win) : ∃ g', g.access true v.tag w = some g' ∧ g'.cells.next = g.cells.next ∧
      StackInv g' (v :: c) [] := by
  have key : ∀ x, ∃ k', w.Has x → (g.cells.stack x).write v.tag = some k' ∧ Ordered k' ∧
      (∀ e ∈ k', e ∈ g.cells.stack x) ∧ (∀ e ∈ g.cells.stack x, e.tag ≤ v.tag → e ∈ k') := by
    intro x
    by_cases hx : w.Has x
    · obtain ⟨e, he, hg⟩ := h.writable v (by simp) x (hw x hx)
      obtain ⟨k', hk⟩ := write_ordered (h.ordered x) he hg
      exact ⟨k', fun _ => hk⟩
    · exact ⟨[], fun hx' => absurd hx' hx⟩
  choose f hf using key
  have ea := Stacks.access_some (b := true) (t := v.tag) (w := w) (s := g.cells) (f := f)
    (fun x hx => by simpa using (hf x hx).1)
  set k : Nat → Stack := fun x => if w.Has x then f x else g.cells.stack x with hk
  have keep : ∀ x, ∀ e ∈ g.cells.stack x, e.tag ≤ v.tag → e ∈ k x := by
    intro x e he hc
    simp only [hk]
    split
    · exact (hf x ‹_›).2.2.2 e he hc
    · exact he
  have back : ∀ x, ∀ e ∈ k x, e ∈ g.cells.stack x := by
    intro x e he
    simp only [hk] at he
    split at he
    · exact (hf x ‹_›).2.2.1 e he
    · exact he
  have hp' : ∀ r ∈ g.prot, ∃ u ∈ v :: c, u.arg = true ∧ u.tag = r := by
    intro r hr
    obtain ⟨u, hu, ha, hut⟩ := h.prot _ hr
    rcases hu with hu | hu
    · exact ⟨u, hu, ha, hut⟩
    · rw [hs u hu] at ha; cases ha
  have hle : ∀ u ∈ v :: c, u.tag ≤ v.tag := fun u hu => (h.below (.inl rfl) hu).1
  refine ⟨⟨⟨k, g.cells.next⟩, g.prot⟩, ?_, rfl, ?_⟩
  · simp only [GStacks.access, ea]
    rw [if_pos]
    intro i _ e he hr
    obtain ⟨u, hu, -, hut⟩ := hp' _ hr
    exact keep _ e he (hut ▸ hle u hu)
  · constructor
    · intro x
      show Ordered (k x)
      simp only [hk]
      split
      · exact (hf x ‹_›).2.1
      · exact h.ordered x
    · intro x e he
      exact h.fresh x e (back x e he)
    · intro u hu
      exact h.known u (by simpa using .inl (by simpa using hu))
    · exact h.nested
    · simp
    · intro u hu x hx
      obtain ⟨e, he, hg⟩ := h.writable u hu x hx
      exact ⟨e, keep x e he (hg.1 ▸ hle u hu), hg⟩
    · simp
    · simp
    · intro r hr
      obtain ⟨u, hu, h'⟩ := hp' r hr
      exact ⟨u, .inl hu, h'⟩

/-- A new mutable reference or raw pointer. -/
theorem pushMut {v : Ref} (h : StackInv g (v :: c) []) {w : Window} (hw : Sub w v.win) {p : Perm}
    (hp : p = .unique ∨ p = .sharedRW) :
    StackInv (g.push p w).2 (⟨g.cells.next, w, false⟩ :: v :: c) [] := by
  have hst : ∀ x, (g.push p w).2.cells.stack x =
      if w.Has x then ⟨p, g.cells.next⟩ :: g.cells.stack x else g.cells.stack x := fun _ => rfl
  have hn : (g.push p w).2.cells.next = g.cells.next + 1 := rfl
  constructor
  · intro x
    rw [hst]
    split
    · exact List.pairwise_cons.2 ⟨fun e he => h.fresh x e he, h.ordered x⟩
    · exact h.ordered x
  · intro x e he
    rw [hst] at he
    rw [hn]
    split at he
    · rcases List.mem_cons.1 he with rfl | he
      · exact Nat.lt_succ_self _
      · exact Nat.lt_succ_of_lt (h.fresh x e he)
    · exact Nat.lt_succ_of_lt (h.fresh x e he)
  · intro u hu
    rw [hn]
    rcases hu with hu | hu
    · rcases List.mem_cons.1 hu with rfl | hu
      · exact Nat.lt_succ_self _
      · exact Nat.lt_succ_of_lt (h.known u (.inl hu))
    · cases hu
  · refine List.pairwise_cons.2 ⟨fun u hu => ⟨h.known u (.inl hu), ?_⟩, h.nested⟩
    exact hw.trans (h.below (.inl rfl) hu).2
  · simp
  · intro u hu x hx
    rw [hst]
    rcases List.mem_cons.1 hu with rfl | hu
    · have hx' : w.Has x := hx
      rw [if_pos hx']
      refine ⟨_, List.mem_cons_self, rfl, ?_⟩
      rcases hp with rfl | rfl <;> trivial
    · obtain ⟨e, he, hg⟩ := h.writable u hu x hx
      refine ⟨e, ?_, hg⟩
      split
      · exact List.mem_cons_of_mem _ he
      · exact he
  · simp
  · simp
  · intro r hr
    obtain ⟨u, hu, h'⟩ := h.prot r hr
    rcases hu with hu | hu
    · exact ⟨u, .inl (List.mem_cons_of_mem _ hu), h'⟩
    · cases hu

/-- A new shared reference or raw pointer. -/
theorem pushShared (h : StackInv g c sh) {v : Ref} (hv : Usable c sh v) {w : Window}
    (hw : Sub w v.win) :
    StackInv (g.push .sharedRO w).2 c (⟨g.cells.next, w, false⟩ :: sh) := by
  have hst : ∀ x, (g.push .sharedRO w).2.cells.stack x =
      if w.Has x then ⟨.sharedRO, g.cells.next⟩ :: g.cells.stack x else g.cells.stack x :=
    fun _ => rfl
  have hn : (g.push .sharedRO w).2.cells.next = g.cells.next + 1 := rfl
  have hmem : ∀ x, ∀ e ∈ g.cells.stack x, e ∈ (g.push .sharedRO w).2.cells.stack x := by
    intro x e he
    rw [hst]
    split
    · exact List.mem_cons_of_mem _ he
    · exact he
  have hback : ∀ x, ∀ e ∈ (g.push .sharedRO w).2.cells.stack x,
      e = ⟨.sharedRO, g.cells.next⟩ ∨ e ∈ g.cells.stack x := by
    intro x e he
    rw [hst] at he
    split at he
    · exact List.mem_cons.1 he
    · exact .inr he
  constructor
  · intro x
    rw [hst]
    split
    · exact List.pairwise_cons.2 ⟨fun e he => h.fresh x e he, h.ordered x⟩
    · exact h.ordered x
  · intro x e he
    rw [hn]
    rcases hback x e he with rfl | he
    · exact Nat.lt_succ_self _
    · exact Nat.lt_succ_of_lt (h.fresh x e he)
  · intro u hu
    rw [hn]
    rcases hu with hu | hu
    · exact Nat.lt_succ_of_lt (h.known u (.inl hu))
    · rcases List.mem_cons.1 hu with rfl | hu
      · exact Nat.lt_succ_self _
      · exact Nat.lt_succ_of_lt (h.known u (.inr hu))
  · exact h.nested
  · intro u hu z hz
    rcases List.mem_cons.1 hu with rfl | hu
    · exact ⟨h.known z (.inl hz), hw.trans (h.below hv hz).2⟩
    · exact h.above u hu z hz
  · intro u hu x hx
    obtain ⟨e, he, hg⟩ := h.writable u hu x hx
    exact ⟨e, hmem x e he, hg⟩
  · intro u hu x hx
    rcases List.mem_cons.1 hu with rfl | hu
    · have hx' : w.Has x := hx
      rw [hst, if_pos hx']
      exact List.mem_cons_self
    · exact hmem x _ (h.readable u hu x hx)
  · intro u hu x e he ht
    rcases hback x e he with rfl | he
    · rfl
    · rcases List.mem_cons.1 hu with rfl | hu
      · have := h.fresh x e he
        simp only at ht
        omega
      · exact h.only u hu x e he ht
  · intro r hr
    obtain ⟨u, hu, h'⟩ := h.prot r hr
    rcases hu with hu | hu
    · exact ⟨u, .inl hu, h'⟩
    · exact ⟨u, .inr (List.mem_cons_of_mem _ hu), h'⟩

end StackInv

/-- The invariant is kept by Stacked Borrows. -/
theorem stack_obeys : Obeys GStacks.rules StackInv where
  weaken := by
    intro s c sh sh' h hsub harg
    refine ⟨h.ordered, h.fresh, fun v hv => h.known v (hv.imp id (hsub v)), h.nested,
      fun v hv => h.above v (hsub v hv), h.writable, fun v hv => h.readable v (hsub v hv),
      fun v hv => h.only v (hsub v hv), fun r hr => ?_⟩
    obtain ⟨u, hu, ha, ht⟩ := h.prot r hr
    exact ⟨u, hu.imp id (fun hu => harg u hu ha), ha, ht⟩
  delete := by
    intro s c1 c2 sh v h hv
    have hin : ∀ u, u ∈ c1 ++ c2 → u ∈ c1 ++ v :: c2 := by
      intro u hu
      simp only [List.mem_append, List.mem_cons] at *
      tauto
    refine ⟨h.ordered, h.fresh, fun u hu => h.known u (hu.imp (hin u) id),
      h.nested.sublist (by simp), fun z hz u hu => h.above z hz u (hin u hu),
      fun u hu => h.writable u (hin u hu), h.readable, h.only, fun r hr => ?_⟩
    obtain ⟨u, hu, ha, ht⟩ := h.prot r hr
    refine ⟨u, hu.imp (fun hu => ?_) id, ha, ht⟩
    simp only [List.mem_append, List.mem_cons] at *
    rcases hu with hu | rfl | hu
    · exact .inl hu
    · rw [hv] at ha; cases ha
    · exact .inr hu
  enter := by
    intro s c sh t w a h
    refine ⟨h.ordered, h.fresh, ?_, ?_, ?_, ?_, h.readable, h.only, ?_⟩
    · intro u hu
      rcases hu with hu | hu
      · rcases List.mem_cons.1 hu with rfl | hu
        · exact h.known ⟨t, w, a⟩ (by simp)
        · exact h.known u (by simp [hu])
      · exact h.known u (.inr hu)
    · exact List.pairwise_cons.2 ⟨fun u hu => (List.pairwise_cons.1 h.nested).1 u hu,
        (List.pairwise_cons.1 h.nested).2⟩
    · intro z hz u hu
      rcases List.mem_cons.1 hu with rfl | hu
      · exact h.above z hz ⟨t, w, a⟩ (by simp)
      · exact h.above z hz u (by simp [hu])
    · intro u hu
      rcases List.mem_cons.1 hu with rfl | hu
      · exact h.writable ⟨t, w, a⟩ (by simp)
      · exact h.writable u (by simp [hu])
    · intro r hr
      rcases List.mem_cons.1 hr with rfl | hr
      · exact ⟨_, .inl List.mem_cons_self, rfl, rfl⟩
      · obtain ⟨u, hu, ha, ht⟩ := h.prot r hr
        rcases hu with hu | hu
        · rcases List.mem_cons.1 hu with rfl | hu
          · exact ⟨_, .inl List.mem_cons_self, rfl, ht⟩
          · exact ⟨u, .inl (List.mem_cons_of_mem _ hu), ha, ht⟩
        · exact ⟨u, .inr hu, ha, ht⟩
  enterShared := by
    intro s c sh t w a h
    refine ⟨h.ordered, h.fresh, ?_, h.nested, ?_, h.writable, ?_, ?_, ?_⟩
    · intro u hu
      rcases hu with hu | hu
      · exact h.known u (.inl hu)
      · rcases List.mem_cons.1 hu with rfl | hu
        · exact h.known ⟨t, w, a⟩ (by simp)
        · exact h.known u (by simp [hu])
    · intro z hz
      rcases List.mem_cons.1 hz with rfl | hz
      · exact h.above ⟨t, w, a⟩ (by simp)
      · exact h.above z (by simp [hz])
    · intro z hz
      rcases List.mem_cons.1 hz with rfl | hz
      · exact h.readable ⟨t, w, a⟩ (by simp)
      · exact h.readable z (by simp [hz])
    · intro z hz
      rcases List.mem_cons.1 hz with rfl | hz
      · exact h.only ⟨t, w, a⟩ (by simp)
      · exact h.only z (by simp [hz])
    · intro r hr
      rcases List.mem_cons.1 hr with rfl | hr
      · exact ⟨_, .inr List.mem_cons_self, rfl, rfl⟩
      · obtain ⟨u, hu, ha, ht⟩ := h.prot r hr
        rcases hu with hu | hu
        · exact ⟨u, .inl hu, ha, ht⟩
        · rcases List.mem_cons.1 hu with rfl | hu
          · exact ⟨_, .inr List.mem_cons_self, rfl, ht⟩
          · exact ⟨u, .inr (List.mem_cons_of_mem _ hu), ha, ht⟩
  leave := by
    intro s c1 c2 sh t w a h
    refine ⟨_, rfl, ?_⟩
    have hin : ∀ u, u ∈ c1 ++ ⟨t, w, false⟩ :: c2 → ∃ u' ∈ c1 ++ ⟨t, w, a⟩ :: c2,
        u'.tag = u.tag ∧ u'.win = u.win := by
      intro u hu
      simp only [List.mem_append, List.mem_cons] at *
      rcases hu with hu | rfl | hu
      · exact ⟨u, .inl hu, rfl, rfl⟩
      · exact ⟨⟨t, w, a⟩, .inr (.inl rfl), rfl, rfl⟩
      · exact ⟨u, .inr (.inr hu), rfl, rfl⟩
    refine ⟨h.ordered, h.fresh, ?_, ?_, ?_, ?_, h.readable, h.only, ?_⟩
    · intro u hu
      rcases hu with hu | hu
      · obtain ⟨u', hu', e, -⟩ := hin u hu
        exact e ▸ h.known u' (.inl hu')
      · exact h.known u (.inr hu)
    · have := h.nested
      simp only [List.pairwise_append, List.pairwise_cons, List.mem_cons, forall_eq_or_imp] at *
      exact this
    · intro z hz u hu
      obtain ⟨u', hu', e, e'⟩ := hin u hu
      rw [← e, ← e']
      exact h.above z hz u' hu'
    · intro u hu
      obtain ⟨u', hu', e, e'⟩ := hin u hu
      rw [← e, ← e']
      exact h.writable u' hu'
    · intro r hr
      simp only [List.mem_filter, decide_eq_true_eq] at hr
      obtain ⟨u, hu, ha, ht⟩ := h.prot r hr.1
      refine ⟨u, hu.imp (fun hu => ?_) id, ha, ht⟩
      simp only [List.mem_append, List.mem_cons] at *
      rcases hu with hu | rfl | hu
      · exact .inl hu
      · exact absurd ht.symm hr.2
      · exact .inr (.inr hu)
  leaveShared := by
    intro s c sh1 sh2 t w a h
    refine ⟨_, rfl, ?_⟩
    have hin : ∀ u, u ∈ sh1 ++ ⟨t, w, false⟩ :: sh2 → ∃ u' ∈ sh1 ++ ⟨t, w, a⟩ :: sh2,
        u'.tag = u.tag ∧ u'.win = u.win := by
      intro u hu
      simp only [List.mem_append, List.mem_cons] at *
      rcases hu with hu | rfl | hu
      · exact ⟨u, .inl hu, rfl, rfl⟩
      · exact ⟨⟨t, w, a⟩, .inr (.inl rfl), rfl, rfl⟩
      · exact ⟨u, .inr (.inr hu), rfl, rfl⟩
    refine ⟨h.ordered, h.fresh, ?_, h.nested, ?_, h.writable, ?_, ?_, ?_⟩
    · intro u hu
      rcases hu with hu | hu
      · exact h.known u (.inl hu)
      · obtain ⟨u', hu', e, -⟩ := hin u hu
        exact e ▸ h.known u' (.inr hu')
    · intro z hz
      obtain ⟨u', hu', e, e'⟩ := hin z hz
      rw [← e, ← e']
      exact h.above u' hu'
    · intro u hu
      obtain ⟨u', hu', e, e'⟩ := hin u hu
      rw [← e, ← e']
      exact h.readable u' hu'
    · intro u hu
      obtain ⟨u', hu', e, e'⟩ := hin u hu
      rw [← e]
      exact h.only u' hu'
    · intro r hr
      simp only [List.mem_filter, decide_eq_true_eq] at hr
      obtain ⟨u, hu, ha, ht⟩ := h.prot r hr.1
      refine ⟨u, hu.imp id (fun hu => ?_), ha, ht⟩
      simp only [List.mem_append, List.mem_cons] at *
      rcases hu with hu | rfl | hu
      · exact .inl hu
      · exact absurd ht.symm hr.2
      · exact .inr (.inr hu)
  mutRef := by
    intro s c sh v w h hs hw
    obtain ⟨g', e, hn, h'⟩ := h.write hs hw
    exact ⟨_, _, by simp only [GStacks.rules, e, Option.map_some]; rfl, h'.pushMut hw (.inl rfl)⟩
  mutRaw := by
    intro s c sh v w h hs hw
    obtain ⟨g', e, hn, h'⟩ := h.write hs hw
    exact ⟨_, _, by simp only [GStacks.rules, e, Option.map_some]; rfl, h'.pushMut hw (.inr rfl)⟩
  shrRef := by
    intro s c sh v w h hv hw
    obtain ⟨g', e, hn, h'⟩ := h.read hv hw
    exact ⟨_, _, by simp only [GStacks.rules, e, Option.map_some]; rfl, h'.pushShared hv hw⟩
  shrRaw := by
    intro s c sh v w h hv hw
    obtain ⟨g', e, hn, h'⟩ := h.read (.inr hv) hw
    exact ⟨_, _, by simp only [GStacks.rules, e, Option.map_some]; rfl, h'.pushShared (.inr hv) hw⟩
  write := by
    intro s c sh v w h hs hw
    obtain ⟨g', e, -, h'⟩ := h.write hs hw
    exact ⟨g', e, h'⟩
  read := by
    intro s c sh v w h hv hw
    obtain ⟨g', e, -, h'⟩ := h.read hv hw
    exact ⟨g', e, h'⟩

end Householder.Spec
