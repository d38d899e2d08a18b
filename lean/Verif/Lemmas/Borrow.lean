import Verif.Model.Borrow
import Mathlib.Data.List.TakeWhile
import Mathlib.Tactic.Ring
import Mathlib.Tactic.Linarith

/-!
# Facts about the two aliasing models
-/

namespace Householder

namespace Borrow

/-! ## Stacked Borrows -/

/-- No entry of the stack belongs to the reference `t`. -/
def Absent (t : Nat) (k : Stack) : Prop := ∀ e ∈ k, e.tag ≠ t

/-- The reference `t` has a unique entry on top of `B`, and above it there are only references
made later, none of them a raw pointer. -/
def Live (t : Nat) (B k : Stack) : Prop :=
  ∃ above, k = above ++ ⟨.unique, t⟩ :: B ∧ ∀ e ∈ above, t < e.tag ∧ e.perm ≠ .sharedRW

theorem not_grants_of_tag {t : Nat} {b : Bool} {e : Entry} (h : e.tag ≠ t) : ¬ e.Grants b t :=
  fun hg => h hg.1

theorem dropWhile_append_of {p : Entry → Bool} {l r : List Entry} (h : ∀ e ∈ l, p e = true) :
    (l ++ r).dropWhile p = r.dropWhile p := by
  induction l with
  | nil => rfl
  | cons a l ih =>
    rw [List.cons_append, List.dropWhile_cons_of_pos (h a (by simp))]
    exact ih fun e he => h e (by simp [he])

theorem takeWhile_append_of {p : Entry → Bool} {l r : List Entry} (h : ∀ e ∈ l, p e = true) :
    (l ++ r).takeWhile p = l ++ r.takeWhile p := by
  induction l with
  | nil => rfl
  | cons a l ih =>
    rw [List.cons_append, List.takeWhile_cons_of_pos (h a (by simp)), List.cons_append,
      ih fun e he => h e (by simp [he])]

theorem read_at {t : Nat} {above below : Stack} {g : Entry} (ha : Absent t above)
    (hg : g.Grants false t) :
    Stack.read t (above ++ g :: below) = some (above.map
      (fun e => if e.perm = .unique then { e with perm := .disabled } else e) ++ g :: below) := by
  have hp : ∀ e ∈ above, (decide (¬ e.Grants false t)) = true := fun e he => by
    simpa using not_grants_of_tag (ha e he)
  unfold Stack.read
  rw [dropWhile_append_of hp, takeWhile_append_of hp,
    List.dropWhile_cons_of_neg (by simpa using hg), List.takeWhile_cons_of_neg (by simpa using hg)]
  simp

theorem write_at {t : Nat} {above below : Stack} {g : Entry} (ha : Absent t above)
    (hg : g.Grants true t) (hk : g.perm = .unique ∨ ∀ e ∈ above, e.perm ≠ .sharedRW) :
    Stack.write t (above ++ g :: below) = some (g :: below) := by
  have hp : ∀ e ∈ above, (decide (¬ e.Grants true t)) = true := fun e he => by
    simpa using not_grants_of_tag (ha e he)
  unfold Stack.write
  rw [dropWhile_append_of hp, takeWhile_append_of hp,
    List.dropWhile_cons_of_neg (by simpa using hg), List.takeWhile_cons_of_neg (by simpa using hg)]
  simp only [List.append_nil]
  congr 1
  rcases hk with hk | hk
  · simp [hk]
  · split
    · have : (above.reverse.takeWhile fun e => decide (e.perm = .sharedRW)) = [] := by
        rw [List.takeWhile_eq_nil_iff]
        intro h0
        simpa using hk _ (List.mem_reverse.mp (List.getElem_mem h0))
      simp [this]
    · simp

theorem absent_of_lt {t : Nat} {k : Stack} (h : ∀ e ∈ k, t < e.tag ∧ e.perm ≠ .sharedRW) :
    Absent t k := fun e he => by have := (h e he).1; omega

theorem read_live {t : Nat} {B k : Stack} (h : Live t B k) :
    ∃ k', k.read t = some k' ∧ Live t B k' := by
  obtain ⟨above, rfl, ha⟩ := h
  refine ⟨_, read_at (absent_of_lt ha) ⟨rfl, trivial⟩, _, rfl, ?_⟩
  intro e he
  rw [List.mem_map] at he
  obtain ⟨e0, h0, rfl⟩ := he
  have := ha e0 h0
  split
  · exact ⟨this.1, by simp⟩
  · exact this

theorem write_live {t : Nat} {B k : Stack} (h : Live t B k) :
    ∃ k', k.write t = some k' ∧ Live t B k' := by
  obtain ⟨above, rfl, ha⟩ := h
  exact ⟨_, write_at (absent_of_lt ha) ⟨rfl, trivial⟩ (.inl rfl), [], rfl, by simp⟩

theorem dropWhile_absent {t : Nat} {b : Bool} {k : Stack} (h : Absent t k) :
    k.dropWhile (fun e => decide (¬ e.Grants b t)) = [] := by
  rw [List.dropWhile_eq_nil_iff]
  intro e he
  simpa using not_grants_of_tag (h e he)

theorem read_absent {t : Nat} {k : Stack} (h : Absent t k) : k.read t = none := by
  unfold Stack.read
  rw [dropWhile_absent h]

theorem write_absent {t : Nat} {k : Stack} (h : Absent t k) : k.write t = none := by
  unfold Stack.write
  rw [dropWhile_absent h]

theorem mem_of_dropWhile {p : Entry → Bool} {k below : Stack} {g : Entry}
    (h : k.dropWhile p = g :: below) {e : Entry} (he : e ∈ g :: below) : e ∈ k :=
  (List.dropWhile_sublist p).subset (h ▸ he)

/-- A read leaves the same tags in the stack. -/
theorem tag_of_read {t : Nat} {k k' : Stack} (h : k.read t = some k') {e : Entry} (he : e ∈ k') :
    ∃ e0 ∈ k, e0.tag = e.tag := by
  unfold Stack.read at h
  split at h
  · cases h
  · rename_i g below hd
    cases h
    rw [List.mem_append] at he
    rcases he with he | he
    · rw [List.mem_map] at he
      obtain ⟨e0, h0, rfl⟩ := he
      refine ⟨e0, (List.takeWhile_sublist _).subset h0, ?_⟩
      split <;> rfl
    · exact ⟨e, mem_of_dropWhile hd he, rfl⟩

/-- A write leaves only entries that were in the stack. -/
theorem mem_of_write {t : Nat} {k k' : Stack} (h : k.write t = some k') {e : Entry}
    (he : e ∈ k') : e ∈ k := by
  unfold Stack.write at h
  split at h
  · cases h
  · rename_i g below hd
    simp only at h
    cases h
    rw [List.mem_append] at he
    rcases he with he | he
    · split at he
      · rw [List.mem_reverse] at he
        have := (List.takeWhile_sublist _).subset he
        exact (List.takeWhile_sublist _).subset (List.mem_reverse.mp this)
      · simp at he
    · exact mem_of_dropWhile hd he

theorem tag_of_step {b : Bool} {t : Nat} {k k' : Stack}
    (h : (if b = true then k.write t else k.read t) = some k') {e : Entry} (he : e ∈ k') :
    ∃ e0 ∈ k, e0.tag = e.tag := by
  cases b
  · exact tag_of_read (by simpa using h) he
  · exact ⟨e, mem_of_write (by simpa using h) he, rfl⟩

namespace Stacks

theorem access_some {b : Bool} {t : Nat} {w : Window} {s : Stacks}
    {f : Nat → Stack} (h : ∀ x, w.Has x →
      (if b = true then (s.stack x).write t else (s.stack x).read t) = some (f x)) :
    s.access b t w = some { s with stack := fun x => if w.Has x then f x else s.stack x } := by
  unfold access
  simp only
  rw [if_pos]
  · congr 2
    funext x
    split
    · rename_i hx
      rw [h x hx]; rfl
    · rfl
  · intro i hi
    rw [h _ ⟨Nat.le_add_right _ _, Nat.add_lt_add_left hi _⟩]
    rfl

theorem access_none {b : Bool} {t : Nat} {w : Window} {s : Stacks} {x : Nat} (hx : w.Has x)
    (h : Absent t (s.stack x)) : s.access b t w = none := by
  unfold access
  simp only
  rw [if_neg]
  intro hall
  have := hall (x - w.lo) (by obtain ⟨h1, h2⟩ := hx; omega)
  rw [Nat.add_sub_cancel' hx.1] at this
  cases b
  · simp [read_absent h] at this
  · simp [write_absent h] at this

theorem access_stack {b : Bool} {t : Nat} {w : Window} {s s' : Stacks}
    (h : s.access b t w = some s') :
    s'.next = s.next ∧ (∀ x, ¬ w.Has x → s'.stack x = s.stack x) ∧
      ∀ x, w.Has x → (if b = true then (s.stack x).write t else (s.stack x).read t)
        = some (s'.stack x) := by
  unfold access at h
  simp only at h
  by_cases hall : ∀ i, i < w.len → (if b = true then (s.stack (w.lo + i)).write t
      else (s.stack (w.lo + i)).read t).isSome
  · rw [if_pos hall] at h
    cases h
    refine ⟨rfl, fun x hx => by simp [hx], fun x hx => ?_⟩
    simp only [hx, if_true]
    have := hall (x - w.lo) (by obtain ⟨h1, h2⟩ := hx; omega)
    rw [Nat.add_sub_cancel' hx.1] at this
    rw [Option.isSome_iff_exists] at this
    obtain ⟨k, hk⟩ := this
    rw [hk]
    rfl
  · rw [if_neg hall] at h
    cases h

/-- No access brings back a tag. -/
theorem access_absent {b : Bool} {t : Nat} {w : Window} {s s' : Stacks}
    (h : s.access b t w = some s') {u x : Nat} (hu : Absent u (s.stack x)) :
    Absent u (s'.stack x) := by
  obtain ⟨-, h1, h2⟩ := access_stack h
  by_cases hx : w.Has x
  · intro e he
    obtain ⟨e0, h0, h3⟩ := tag_of_step (h2 x hx) he
    rw [← h3]
    exact hu e0 h0
  · rw [h1 x hx]; exact hu

theorem push_absent {p : Perm} {w : Window} {s : Stacks} {u x : Nat} (hu : u ≠ s.next)
    (h : Absent u (s.stack x)) : Absent u ((s.push p w).2.stack x) := by
  simp only [push]
  split
  · intro e he
    rw [List.mem_cons] at he
    rcases he with rfl | he
    · exact fun hh => hu hh.symm
    · exact h e he
  · exact h

/-- The three steps of an element access through a live reference. -/
theorem view_live (b : Bool) {t : Nat} {w : Window} {x : Nat} {s : Stacks} {B : Nat → Stack}
    (hx : w.Has x) (hl : ∀ y, w.Has y → Live t (B y) (s.stack y)) (ht : t < s.next) :
    ∃ s', (if b = true then s.viewSet t w x else s.viewGet t w x) = some s' ∧
      s'.next = s.next + 2 ∧
      (∀ y, w.Has y → Live t (B y) (s'.stack y)) ∧
      (∀ y, ¬ w.Has y → s'.stack y = s.stack y) ∧
      ∀ u y, u < s.next → Absent u (s.stack y) → Absent u (s'.stack y) := by
  let P : Perm := if b = true then .unique else .sharedRO
  have hstep : ∀ y, w.Has y → ∃ k,
      (if b = true then (s.stack y).write t else (s.stack y).read t) = some k ∧ Live t (B y) k := by
    intro y hy
    cases b
    · simpa using read_live (hl y hy)
    · simpa using write_live (hl y hy)
  let f : Nat → Stack := fun y => if hy : w.Has y then (hstep y hy).choose else []
  have hf : ∀ y, w.Has y →
      (if b = true then (s.stack y).write t else (s.stack y).read t) = some (f y) := by
    intro y hy
    simp only [f, hy, dite_true]
    exact (hstep y hy).choose_spec.1
  have hf' : ∀ y, w.Has y → Live t (B y) (f y) := by
    intro y hy
    simp only [f, hy, dite_true]
    exact (hstep y hy).choose_spec.2
  have e1 := access_some (s := s) hf
  let s1 : Stacks := { s with stack := fun x => if w.Has x then f x else s.stack x }
  let s2 : Stacks := (s1.push P w).2
  have h1x : Window.Has (.one x) x := by simp [Window.Has, Window.one]
  have h1y : ∀ y, Window.Has (.one x) y → y = x := by
    intro y hy; simp only [Window.Has, Window.one] at hy; omega
  have top : ∀ (k : Stack) (n : Nat),
      (if b = true then Stack.write n (⟨P, n⟩ :: k) else Stack.read n (⟨P, n⟩ :: k))
        = some (⟨P, n⟩ :: k) := by
    intro k n
    cases b
    · have := read_at (t := n) (above := []) (below := k) (g := ⟨P, n⟩) (by simp [Absent])
        ⟨rfl, by simp [P]⟩
      simpa using this
    · have := write_at (t := n) (above := []) (below := k) (g := ⟨P, n⟩) (by simp [Absent])
        ⟨rfl, by simp [P]⟩ (.inl (by simp [P]))
      simpa using this
  have hs2 : ∀ y, w.Has y → s2.stack y = ⟨P, s.next⟩ :: f y := by
    intro y hy
    simp [s2, push, s1, hy]
  have e2 : s2.access b s.next (.one x) = some s2 := by
    rw [access_some (f := s2.stack)]
    · simp
    · intro y hy
      rw [h1y y hy, hs2 x hx]
      exact top _ _
  let s3 : Stacks := (s2.push P (.one x)).2
  have hs3 : s3.stack x = ⟨P, s.next + 1⟩ :: ⟨P, s.next⟩ :: f x := by
    have := hs2 x hx
    simp only [s3, push, h1x, if_true, this]
    simp [s2, push, s1]
  have e3 : s3.access b (s.next + 1) (.one x) = some s3 := by
    rw [access_some (f := s3.stack)]
    · simp
    · intro y hy
      rw [h1y y hy, hs3]
      exact top _ _
  have hres : (if b = true then s.viewSet t w x else s.viewGet t w x) = some s3 := by
    cases b
    · simp only [Bool.false_eq_true, if_false, viewGet, reborrow]
      rw [e1]
      simp only [Option.map_some, Option.bind_eq_bind, Option.bind_some]
      have e2' := e2
      simp only [s2, P] at e2'
      simp only [push] at e2' ⊢
      simp only [Bool.false_eq_true, if_false] at e2'
      rw [e2']
      simp only [Option.map_some, Option.bind_some]
      exact e3
    · simp only [if_true, viewSet, reborrowMut]
      rw [e1]
      simp only [Option.map_some, Option.bind_eq_bind, Option.bind_some]
      have e2' := e2
      simp only [s2, P] at e2'
      simp only [push] at e2' ⊢
      simp only [if_true] at e2'
      rw [e2']
      simp only [Option.map_some, Option.bind_some]
      exact e3
  refine ⟨s3, hres, by simp [s3, s2, s1, push], ?_, ?_, ?_⟩
  · intro y hy
    obtain ⟨above, h0, ha⟩ := hf' y hy
    have hP : P ≠ .sharedRW := by simp only [P]; split <;> simp
    by_cases hyx : y = x
    · subst hyx
      rw [hs3, h0]
      refine ⟨⟨P, s.next + 1⟩ :: ⟨P, s.next⟩ :: above, rfl, ?_⟩
      intro e he
      simp only [List.mem_cons] at he
      rcases he with rfl | rfl | he
      · exact ⟨by simp only; omega, hP⟩
      · exact ⟨by simp only; omega, hP⟩
      · exact ha e he
    · have : s3.stack y = ⟨P, s.next⟩ :: f y := by
        rw [← hs2 y hy]
        simp only [s3, push]
        rw [if_neg fun h => hyx (h1y y h)]
      rw [this, h0]
      refine ⟨⟨P, s.next⟩ :: above, rfl, ?_⟩
      intro e he
      simp only [List.mem_cons] at he
      rcases he with rfl | he
      · exact ⟨by simp only; omega, hP⟩
      · exact ha e he
  · intro y hy
    have hyx : ¬ Window.Has (.one x) y := fun h => hy (by rw [h1y y h]; exact hx)
    simp [s3, s2, s1, push, hy, hyx]
  · intro u y hu h0
    have a1 : Absent u (s1.stack y) := access_absent e1 h0
    have a2 : Absent u (s2.stack y) := push_absent (by simp [s1]; omega) a1
    exact push_absent (by simp [s2, push, s1]; omega) a2

theorem view_dead (b : Bool) {t : Nat} {w : Window} {x y : Nat} {s : Stacks} (hy : w.Has y)
    (h : Absent t (s.stack y)) :
    (if b = true then s.viewSet t w x else s.viewGet t w x) = none := by
  cases b
  · simp [viewGet, reborrow, access_none hy h]
  · simp [viewSet, reborrowMut, access_none hy h]

/-- Making mutable views one after the other. `base x` is the stack of the cell `x` up to the
entry of the pointer. -/
theorem viewsMut_spec {p : Nat} (ws : List Window) :
    ∀ (s : Stacks) (base : Nat → Stack), p < s.next →
    (∀ x, ∃ e rest, base x = e :: rest ∧ e.Grants true p) →
    (∀ w ∈ ws, ∀ x, w.Has x → ∃ above, s.stack x = above ++ base x ∧
      ∀ e ∈ above, p < e.tag ∧ e.perm ≠ .sharedRW) →
    ∃ vs s', s.viewsMut p ws = some (vs, s') ∧
      (∀ k, vs[k]? = ws[k]?.map (fun w => (s.next + k, w))) ∧
      s'.next = s.next + ws.length ∧
      (∀ x, (∀ w ∈ ws, ¬ w.Has x) → s'.stack x = s.stack x) ∧
      (∀ x, (∃ w ∈ ws, w.Has x) → ∃ k w, ws[k]? = some w ∧ w.Has x ∧
        (∀ j w', k < j → ws[j]? = some w' → ¬ w'.Has x) ∧
        s'.stack x = ⟨.unique, s.next + k⟩ :: base x) := by
  induction ws with
  | nil =>
    intro s base _ _ _
    exact ⟨[], s, rfl, by simp, rfl, by simp, by simp⟩
  | cons w ws ih =>
    intro s base hp hb hs
    have hw : ∀ x, w.Has x →
        (if true = true then (s.stack x).write p else (s.stack x).read p) = some (base x) := by
      intro x hx
      obtain ⟨e, rest, he, hg⟩ := hb x
      rw [if_pos rfl]
      obtain ⟨above, h, ha⟩ := hs w (by simp) x hx
      rw [h, he]
      exact write_at (absent_of_lt ha) hg (.inr fun e he => (ha e he).2)
    have e1 := access_some (s := s) hw
    let s1 : Stacks := { s with stack := fun x => if w.Has x then base x else s.stack x }
    let s2 : Stacks := (s1.push .unique w).2
    have hs2 : ∀ x, s2.stack x = if w.Has x then ⟨.unique, s.next⟩ :: base x else s.stack x := by
      intro x
      by_cases hx : w.Has x <;> simp [s2, push, s1, hx]
    have hn2 : s2.next = s.next + 1 := rfl
    obtain ⟨vs, s', e2, hv, hn, hout, hin⟩ := ih s2 base (by omega) hb (by
      intro w' hw' x hx
      rw [hs2 x]
      split
      · exact ⟨[⟨.unique, s.next⟩], rfl, by simpa using hp⟩
      · exact hs w' (by simp [hw']) x hx)
    refine ⟨(s.next, w) :: vs, s', ?_, ?_, ?_, ?_, ?_⟩
    · simp only [viewsMut, reborrowMut]
      rw [e1]
      simp only [Option.map_some, Option.bind_eq_bind, Option.bind_some, push]
      have := e2
      simp only [s2, push, s1] at this
      simp only [this]
      rfl
    · intro k
      cases k with
      | zero => simp
      | succ k =>
        simp only [List.getElem?_cons_succ, hv k, hn2]
        congr 1
        funext w'
        rw [Nat.add_assoc, Nat.add_comm 1 k]
    · rw [hn, hn2, List.length_cons]; omega
    · intro x hx
      rw [hout x fun w' hw' => hx w' (by simp [hw']), hs2 x, if_neg (hx w (by simp))]
    · rintro x ⟨w', hw', hx⟩
      by_cases hc : ∃ w'' ∈ ws, w''.Has x
      · obtain ⟨k, w'', h1, h2, h3, h4⟩ := hin x hc
        refine ⟨k + 1, w'', by simpa using h1, h2, ?_, ?_⟩
        · intro j v hj hv
          obtain ⟨j, rfl⟩ : ∃ i, j = i + 1 := ⟨j - 1, by omega⟩
          exact h3 j v (by omega) (by simpa using hv)
        · rw [h4, hn2, Nat.add_assoc, Nat.add_comm 1 k]
      · push Not at hc
        have hxw : w.Has x := by
          rcases List.mem_cons.mp hw' with rfl | h
          · exact hx
          · exact absurd hx (hc w' h)
        refine ⟨0, w, by simp, hxw, ?_, ?_⟩
        · intro j v hj hv
          obtain ⟨j, rfl⟩ : ∃ i, j = i + 1 := ⟨j - 1, by omega⟩
          exact hc v (List.mem_of_getElem? (by simpa using hv))
        · rw [hout x hc, hs2 x, if_pos hxw]; rfl

/-- Two stretches have a cell in common. -/
def _root_.Householder.Borrow.Window.Meets (v w : Window) : Prop := ∃ x, v.Has x ∧ w.Has x

/-- The use is of an existing view, inside its stretch. -/
def _root_.Householder.Borrow.Use.Valid (ws : List Window) (u : Use) : Prop :=
  ∃ w, ws[u.view]? = some w ∧ w.Has u.cell

theorem uses_spec {ws : List Window} {vs : List (Nat × Window)} {n : Nat}
    (hv : ∀ k, vs[k]? = ws[k]?.map (fun w => (n + k, w)))
    (dead : Nat → Prop) (B : Nat → Stack)
    (hdisj : ∀ k w j w', ws[k]? = some w → ws[j]? = some w' → k ≠ j → ¬ dead k → ¬ dead j →
      ¬ w.Meets w') :
    ∀ (us : List Use) (s : Stacks), n + ws.length ≤ s.next →
    (∀ u ∈ us, u.Valid ws) →
    (∀ k w, ws[k]? = some w → ¬ dead k → ∀ x, w.Has x → Live (n + k) (B x) (s.stack x)) →
    (∀ k w, ws[k]? = some w → dead k → ∃ x, w.Has x ∧ Absent (n + k) (s.stack x)) →
    ((s.uses vs us).isSome ↔ ∀ u ∈ us, ¬ dead u.view) := by
  intro us
  induction us with
  | nil => intro s _ _ _ _; simp [uses]
  | cons u us ih =>
    intro s hn hu hl hd
    obtain ⟨w, hw, hx⟩ := hu u (by simp)
    have hlen : u.view < ws.length := by
      by_contra h
      rw [List.getElem?_eq_none (by omega)] at hw
      cases hw
    have hvu : vs[u.view]? = some (n + u.view, w) := by rw [hv, hw]; rfl
    by_cases hk : dead u.view
    · obtain ⟨y, hy, ha⟩ := hd _ _ hw hk
      have : s.use vs u = none := by
        simp only [use, hvu]
        exact view_dead u.write hy ha
      simp [uses, this, hk]
    · obtain ⟨s', e, hn', hl', hout, habs⟩ :=
        view_live u.write hx (hl _ _ hw hk) (by omega : n + u.view < s.next)
      have e' : s.use vs u = some s' := by
        simp only [use, hvu]
        exact e
      have := ih s' (by omega) (fun v hv => hu v (by simp [hv])) ?_ ?_
      · simp only [uses, e', Option.bind_eq_bind, Option.bind_some, this, List.mem_cons,
          forall_eq_or_imp]
        exact ⟨fun h => ⟨hk, h⟩, fun h => h.2⟩
      · intro k w' hw' hk' x hx'
        by_cases hku : k = u.view
        · subst hku
          obtain rfl : w = w' := by simpa [hw] using hw'
          exact hl' x hx'
        · have : ¬ w.Has x := fun h =>
            hdisj k w' u.view w hw' hw hku hk' hk ⟨x, hx', h⟩
          rw [hout x this]
          exact hl k w' hw' hk' x hx'
      · intro k w' hw' hk'
        obtain ⟨x, h1, h2⟩ := hd k w' hw' hk'
        have : k < ws.length := by
          by_contra h
          rw [List.getElem?_eq_none (by omega)] at hw'
          cases hw'
        exact ⟨x, h1, habs _ _ (by omega) h2⟩

/-- The uses of views made from one pointer are free of undefined behaviour exactly when no use
is of a view that has a cell in common with a view made later. -/
theorem splitAndUse_iff {p : Nat} {ws : List Window} {us : List Use} {s : Stacks}
    (hp : p < s.next) (hf : ∀ x, ∀ e ∈ s.stack x, e.tag < s.next)
    (ht : ∀ w ∈ ws, ∀ x, w.Has x → ∃ e rest, s.stack x = e :: rest ∧ e.Grants true p)
    (hu : ∀ u ∈ us, u.Valid ws) :
    (s.splitAndUse p ws us).isSome ↔
      ∀ u ∈ us, ∀ w, ws[u.view]? = some w → ∀ j w', u.view < j → ws[j]? = some w' →
        ¬ w.Meets w' := by
  classical
  let base : Nat → Stack := fun x =>
    if ∃ w ∈ ws, w.Has x then s.stack x else [⟨.unique, p⟩]
  obtain ⟨vs, s', e, hv, hn, -, hin⟩ := viewsMut_spec ws s base hp (by
      intro x
      simp only [base]
      split
      · rename_i h
        obtain ⟨w, hw, hx⟩ := h
        exact ht w hw x hx
      · exact ⟨_, _, rfl, rfl, trivial⟩) (by
      intro w hw x hx
      refine ⟨[], ?_, by simp⟩
      simp only [base]
      rw [if_pos ⟨w, hw, hx⟩]
      rfl)
  have hbase : ∀ w ∈ ws, ∀ x, w.Has x → base x = s.stack x := fun w hw x hx => by
    simp only [base]; rw [if_pos ⟨w, hw, hx⟩]
  let dead : Nat → Prop := fun k =>
    ∃ w j w', ws[k]? = some w ∧ k < j ∧ ws[j]? = some w' ∧ w.Meets w'
  have key := uses_spec (n := s.next) hv dead base (by
      intro k w j w' hw hw' hkj hk hj hm
      rcases Nat.lt_or_gt_of_ne hkj with h | h
      · exact hk ⟨w, j, w', hw, h, hw', hm⟩
      · obtain ⟨x, h1, h2⟩ := hm
        exact hj ⟨w', k, w, hw', h, hw, x, h2, h1⟩) us s' (by omega) hu (by
      intro k w hw hk x hx
      obtain ⟨k', w', h1, h2, h3, h4⟩ := hin x ⟨w, List.mem_of_getElem? hw, hx⟩
      obtain rfl : k = k' := by
        rcases Nat.lt_trichotomy k k' with h | h | h
        · exact absurd ⟨w, k', w', hw, h, h1, x, hx, h2⟩ hk
        · exact h
        · exact absurd hx (h3 k w h hw)
      rw [h4]
      exact ⟨[], rfl, by simp⟩) (by
      rintro k w hw ⟨w0, j, w', hw0, hj, hw', x, hx, hx'⟩
      obtain rfl : w = w0 := by simpa [hw] using hw0
      refine ⟨x, hx, ?_⟩
      obtain ⟨k', w'', h1, h2, h3, h4⟩ := hin x ⟨w, List.mem_of_getElem? hw, hx⟩
      have hjk : j ≤ k' := by
        by_contra h
        exact h3 j w' (by omega) hw' hx'
      rw [h4, hbase w (List.mem_of_getElem? hw) x hx]
      intro e he
      rcases List.mem_cons.mp he with rfl | he
      · simp only; omega
      · have := hf x e he
        omega)
  have e2 : s.splitAndUse p ws us = s'.uses vs us := by
    simp [splitAndUse, e]
  rw [e2, key]
  constructor
  · intro h u hu w hw j w' hj hw' hm
    exact h u hu ⟨w, j, w', hw, hj, hw', hm⟩
  · rintro h u hu ⟨w, j, w', hw, hj, hw', hm⟩
    exact h u hu w hw j w' hj hw' hm

/-! ### One mutable view at a time, or several shared ones -/

/-- Above `C` there are only references made after `p`, none of them a raw pointer; the
references in `R` have a shared entry there. -/
def Over (p : Nat) (C : Stack) (R : Nat → Prop) (k : Stack) : Prop :=
  ∃ above, k = above ++ C ∧ (∀ e ∈ above, p < e.tag ∧ e.perm ≠ .sharedRW) ∧
    ∀ u, R u → ⟨.sharedRO, u⟩ ∈ above

theorem Over.weaken {p : Nat} {C : Stack} {R R' : Nat → Prop} {k : Stack} (h : Over p C R k)
    (hR : ∀ u, R' u → R u) : Over p C R' k := by
  obtain ⟨a, h1, h2, h3⟩ := h
  exact ⟨a, h1, h2, fun u hu => h3 u (hR u hu)⟩

theorem Over.push {p t : Nat} {C : Stack} {R : Nat → Prop} {k : Stack} {P : Perm}
    (h : Over p C R k) (ht : p < t) (hP : P ≠ .sharedRW) : Over p C R (⟨P, t⟩ :: k) := by
  obtain ⟨a, rfl, h2, h3⟩ := h
  refine ⟨⟨P, t⟩ :: a, rfl, ?_, fun u hu => by simp [h3 u hu]⟩
  intro e he
  rcases List.mem_cons.mp he with rfl | he
  · exact ⟨ht, hP⟩
  · exact h2 e he

theorem Over.pushShared {p t : Nat} {C : Stack} {R : Nat → Prop} {k : Stack}
    (h : Over p C R k) (ht : p < t) : Over p C (fun u => R u ∨ u = t) (⟨.sharedRO, t⟩ :: k) := by
  obtain ⟨a, rfl, h2, h3⟩ := h
  refine ⟨⟨.sharedRO, t⟩ :: a, rfl, ?_, ?_⟩
  · intro e he
    rcases List.mem_cons.mp he with rfl | he
    · exact ⟨ht, by simp⟩
    · exact h2 e he
  · rintro u (hu | rfl)
    · simp [h3 u hu]
    · simp

theorem Over.dim {p : Nat} {a : Stack} {R : Nat → Prop}
    (h2 : ∀ e ∈ a, p < e.tag ∧ e.perm ≠ .sharedRW) (h3 : ∀ u, R u → ⟨.sharedRO, u⟩ ∈ a) :
    (∀ e ∈ a.map (fun e => if e.perm = .unique then { e with perm := .disabled } else e),
      p < e.tag ∧ e.perm ≠ .sharedRW) ∧
    ∀ u, R u → (⟨.sharedRO, u⟩ : Entry) ∈
      a.map (fun e => if e.perm = .unique then { e with perm := .disabled } else e) := by
  constructor
  · intro e he
    rw [List.mem_map] at he
    obtain ⟨e0, h0, rfl⟩ := he
    have := h2 e0 h0
    split
    · exact ⟨this.1, by simp⟩
    · exact this
  · intro u hu
    rw [List.mem_map]
    exact ⟨_, h3 u hu, by simp⟩

/-- Reading through the pointer. -/
theorem Over.readBase {p : Nat} {C : Stack} {R : Nat → Prop} {k : Stack} (h : Over p C R k)
    (hC : ∃ e rest, C = e :: rest ∧ e.Grants true p) :
    ∃ k', k.read p = some k' ∧ Over p C R k' := by
  obtain ⟨a, rfl, h2, h3⟩ := h
  obtain ⟨e, rest, rfl, hg⟩ := hC
  have hg' : e.Grants false p := by
    obtain ⟨g1, g2⟩ := hg
    refine ⟨g1, ?_⟩
    cases hp : e.perm <;> simp_all
  exact ⟨_, read_at (absent_of_lt h2) hg', _, rfl, Over.dim h2 h3⟩

/-- Reading through a shared reference. -/
theorem Over.readShared {p t : Nat} {C : Stack} {R : Nat → Prop} {k : Stack} (h : Over p C R k)
    (ht : R t) : ∃ k', k.read t = some k' ∧ Over p C R k' := by
  obtain ⟨a, rfl, h2, h3⟩ := h
  -- the part above the topmost granting entry
  have hex : ∃ x g y, a = x ++ g :: y ∧ g.Grants false t ∧ ∀ e ∈ x, ¬ e.Grants false t := by
    have hm := h3 t ht
    clear h2 h3
    induction a with
    | nil => simp at hm
    | cons b a ih =>
      by_cases hb : b.Grants false t
      · exact ⟨[], b, a, rfl, hb, by simp⟩
      · rcases List.mem_cons.mp hm with h | h
        · exact absurd ⟨by rw [← h], by rw [← h]⟩ hb
        · obtain ⟨x, g, y, rfl, hg, hx⟩ := ih h
          refine ⟨b :: x, g, y, rfl, hg, ?_⟩
          intro e he
          rcases List.mem_cons.mp he with rfl | he
          · exact hb
          · exact hx e he
  obtain ⟨x, g, y, rfl, hg, hx⟩ := hex
  have hp : ∀ e ∈ x, (decide (¬ e.Grants false t)) = true := fun e he => by simpa using hx e he
  let f : Entry → Entry := fun e => if e.perm = .unique then { e with perm := .disabled } else e
  refine ⟨(x.map f ++ g :: y) ++ C, ?_, x.map f ++ g :: y, rfl, ?_, ?_⟩
  · unfold Stack.read
    rw [List.append_assoc, List.cons_append, dropWhile_append_of hp, takeWhile_append_of hp,
      List.dropWhile_cons_of_neg (by simpa using hg),
      List.takeWhile_cons_of_neg (by simpa using hg)]
    simp [f]
  · have := (Over.dim (R := fun _ => False) (p := p) (a := x)
      (fun e he => h2 e (by simp [he])) (fun _ h => h.elim)).1
    intro e he
    rcases List.mem_append.mp he with he | he
    · exact this e he
    · exact h2 e (by simp only [List.mem_append]; exact .inr he)
  · intro u hu
    have := h3 u hu
    rcases List.mem_append.mp this with h | h
    · refine List.mem_append.mpr (.inl ?_)
      rw [List.mem_map]
      exact ⟨_, h, by simp [f]⟩
    · exact List.mem_append.mpr (.inr h)

/-- The condition for all cells of the matrix. -/
def AllOver (p : Nat) (M : Nat → Prop) (C : Nat → Stack) (R : Nat → Nat → Prop) (s : Stacks) :
    Prop := ∀ x, M x → Over p (C x) (R x) (s.stack x)

theorem access_read {p t : Nat} {M : Nat → Prop} {C : Nat → Stack} {R : Nat → Nat → Prop}
    {s : Stacks} {w : Window} (h : AllOver p M C R s)
    (hr : ∀ x, w.Has x → ∃ k', (s.stack x).read t = some k' ∧ (M x → Over p (C x) (R x) k')) :
    ∃ s', s.access false t w = some s' ∧ s'.next = s.next ∧ AllOver p M C R s' := by
  classical
  let f : Nat → Stack := fun x => if hx : w.Has x then (hr x hx).choose else []
  have hf : ∀ x, w.Has x →
      (if false = true then (s.stack x).write t else (s.stack x).read t) = some (f x) := by
    intro x hx
    simp only [Bool.false_eq_true, if_false, f, hx, dite_true]
    exact (hr x hx).choose_spec.1
  refine ⟨_, access_some hf, rfl, ?_⟩
  intro x hM
  simp only
  split
  · rename_i hx
    simp only [f, hx, dite_true]
    exact (hr x hx).choose_spec.2 hM
  · exact h x hM

theorem viewGet_shared {p t : Nat} {M : Nat → Prop} {C : Nat → Stack} {R : Nat → Nat → Prop}
    {s : Stacks} {w : Window} {x : Nat} (h : AllOver p M C R s) (hp : p < s.next)
    (hM : ∀ y, w.Has y → M y) (hR : ∀ y, w.Has y → R y t) (hx : w.Has x) :
    ∃ s', s.viewGet t w x = some s' ∧ s.next ≤ s'.next ∧ AllOver p M C R s' := by
  have h1y : ∀ y, Window.Has (.one x) y → y = x := by
    intro y hy; simp only [Window.Has, Window.one] at hy; omega
  obtain ⟨s1, e1, n1, i1⟩ := access_read h (t := t) (w := w) fun y hy => by
    obtain ⟨k', h1, h2⟩ := (h y (hM y hy)).readShared (hR y hy)
    exact ⟨k', h1, fun _ => h2⟩
  let s2 := (s1.push .sharedRO w).2
  let R2 : Nat → Nat → Prop := fun y u => R y u ∨ (w.Has y ∧ u = s1.next)
  have i2 : AllOver p M C R2 s2 := by
    intro y hy
    by_cases hw : w.Has y
    · simp only [s2, push, hw, if_true]
      exact ((i1 y hy).pushShared (by omega)).weaken fun u hu => by
        rcases hu with hu | hu
        · exact .inl hu
        · exact .inr hu.2
    · simp only [s2, push, hw, if_false]
      exact (i1 y hy).weaken fun u hu => by
        rcases hu with hu | hu
        · exact hu
        · exact absurd hu.1 hw
  obtain ⟨s3, e3, n3, i3⟩ := access_read i2 (t := s1.next) (w := .one x) fun y hy => by
    rw [h1y y hy]
    obtain ⟨k', h1, h2⟩ := (i2 x (hM x hx)).readShared (.inr ⟨hx, rfl⟩)
    exact ⟨k', h1, fun _ => h2⟩
  let s4 := (s3.push .sharedRO (.one x)).2
  let R4 : Nat → Nat → Prop := fun y u => R2 y u ∨ (Window.Has (.one x) y ∧ u = s3.next)
  have n3' : s3.next = s1.next + 1 := n3
  have i4 : AllOver p M C R4 s4 := by
    intro y hy
    by_cases hw : Window.Has (.one x) y
    · simp only [s4, push, hw, if_true]
      exact ((i3 y hy).pushShared (by omega)).weaken fun u hu => by
        rcases hu with hu | hu
        · exact .inl hu
        · exact .inr hu.2
    · simp only [s4, push, hw, if_false]
      exact (i3 y hy).weaken fun u hu => by
        rcases hu with hu | hu
        · exact hu
        · exact absurd hu.1 hw
  obtain ⟨s5, e5, n5, i5⟩ := access_read i4 (t := s3.next) (w := .one x) fun y hy => by
    rw [h1y y hy]
    obtain ⟨k', h1, h2⟩ := (i4 x (hM x hx)).readShared
      (.inr ⟨by simp [Window.Has, Window.one], rfl⟩)
    exact ⟨k', h1, fun _ => h2⟩
  refine ⟨s5, ?_, ?_, fun y hy => (i5 y hy).weaken fun u hu => .inl (.inl hu)⟩
  · simp only [viewGet, reborrow]
    rw [e1]
    simp only [Option.map_some, Option.bind_eq_bind, Option.bind_some]
    rw [show (push .sharedRO w s1).1 = s1.next from rfl,
      show (push .sharedRO w s1).2 = s2 from rfl, e3]
    simp only [Option.map_some, Option.bind_some]
    exact e5
  · have n5' : s5.next = s3.next + 1 := n5
    omega

theorem views_spec {p : Nat} {M : Nat → Prop} {C : Nat → Stack}
    (hC : ∀ x, M x → ∃ e rest, C x = e :: rest ∧ e.Grants true p) (ws : List Window) :
    ∀ (R : Nat → Nat → Prop) (s : Stacks), AllOver p M C R s → p < s.next →
    (∀ w ∈ ws, ∀ y, w.Has y → M y) →
    ∃ vs s', s.views p ws = some (vs, s') ∧
      (∀ k, vs[k]? = ws[k]?.map (fun w => (s.next + k, w))) ∧ s.next ≤ s'.next ∧
      AllOver p M C (fun x u => R x u ∨ ∃ k w, ws[k]? = some w ∧ w.Has x ∧ u = s.next + k) s' := by
  induction ws with
  | nil =>
    intro R s h _ _
    exact ⟨[], s, rfl, by simp, le_refl _, fun x hx => (h x hx).weaken fun u hu => by
      simpa using hu⟩
  | cons w ws ih =>
    intro R s h hp hM
    obtain ⟨s1, e1, n1, i1⟩ := access_read h (t := p) (w := w) fun y hy => by
      have hy' := hM w (by simp) y hy
      obtain ⟨k', h1, h2⟩ := (h y hy').readBase (hC y hy')
      exact ⟨k', h1, fun _ => h2⟩
    let s2 := (s1.push .sharedRO w).2
    let R2 : Nat → Nat → Prop := fun y u => R y u ∨ (w.Has y ∧ u = s1.next)
    have i2 : AllOver p M C R2 s2 := by
      intro y hy
      by_cases hw : w.Has y
      · simp only [s2, push, hw, if_true]
        exact ((i1 y hy).pushShared (by omega)).weaken fun u hu => by
          rcases hu with hu | hu
          · exact .inl hu
          · exact .inr hu.2
      · simp only [s2, push, hw, if_false]
        exact (i1 y hy).weaken fun u hu => by
          rcases hu with hu | hu
          · exact hu
          · exact absurd hu.1 hw
    have n2 : s2.next = s.next + 1 := by simp [s2, push, n1]
    obtain ⟨vs, s', e2, hv, hn, hi⟩ := ih R2 s2 i2 (by omega) fun w' hw' => hM w' (by simp [hw'])
    refine ⟨(s.next, w) :: vs, s', ?_, ?_, by omega, ?_⟩
    · simp only [views, reborrow]
      rw [e1]
      simp only [Option.map_some, Option.bind_eq_bind, Option.bind_some]
      rw [show (push .sharedRO w s1).2 = s2 from rfl, e2,
        show (push .sharedRO w s1).1 = s.next from n1]
      rfl
    · intro k
      cases k with
      | zero => simp
      | succ k =>
        simp only [List.getElem?_cons_succ, hv k, n2]
        congr 1
        funext w'
        rw [Nat.add_assoc, Nat.add_comm 1 k]
    · intro x hx
      refine (hi x hx).weaken fun u hu => ?_
      rcases hu with hu | ⟨k, w', h1, h2, h3⟩
      · exact .inl (.inl hu)
      · cases k with
        | zero =>
          obtain rfl : w = w' := by simpa using h1
          exact .inl (.inr ⟨h2, by omega⟩)
        | succ k => exact .inr ⟨k, w', by simpa using h1, h2, by omega⟩

theorem reads_ok {p n : Nat} {M : Nat → Prop} {C : Nat → Stack} {R : Nat → Nat → Prop}
    {ws : List Window} {vs : List (Nat × Window)}
    (hv : ∀ k, vs[k]? = ws[k]?.map (fun w => (n + k, w)))
    (hM : ∀ w ∈ ws, ∀ y, w.Has y → M y)
    (hR : ∀ k w, ws[k]? = some w → ∀ y, w.Has y → R y (n + k)) (us : List Use) :
    ∀ s : Stacks, AllOver p M C R s → p < s.next →
    (∀ u ∈ us, u.Valid ws ∧ u.write = false) →
    ∃ s', s.uses vs us = some s' ∧ s.next ≤ s'.next ∧ AllOver p M C R s' := by
  induction us with
  | nil => intro s h hp _; exact ⟨s, rfl, le_refl _, h⟩
  | cons u us ih =>
    intro s h hp hu
    obtain ⟨⟨w, hw, hx⟩, hr⟩ := hu u (by simp)
    obtain ⟨s1, e1, n1, i1⟩ := viewGet_shared h hp (hM w (List.mem_of_getElem? hw))
      (hR u.view w hw) hx
    obtain ⟨s2, e2, n2, i2⟩ := ih s1 i1 (by omega) fun v hv => hu v (by simp [hv])
    refine ⟨s2, ?_, by omega, i2⟩
    have : s.use vs u = some s1 := by
      simp only [use, hv, hw, hr, Option.map_some, Bool.false_eq_true, if_false]
      exact e1
    simp only [uses, this, Option.bind_eq_bind, Option.bind_some]
    exact e2

theorem exclusive_ok {w : Window} {t : Nat} {C : Nat → Stack} (us : List Use) :
    ∀ s : Stacks, t < s.next → (∀ y, w.Has y → Live t (C y) (s.stack y)) →
    (∀ u ∈ us, u.view = 0 ∧ w.Has u.cell) →
    ∃ s', s.uses [(t, w)] us = some s' ∧ s.next ≤ s'.next ∧
      (∀ y, w.Has y → Live t (C y) (s'.stack y)) ∧
      ∀ y, ¬ w.Has y → s'.stack y = s.stack y := by
  induction us with
  | nil => intro s _ h _; exact ⟨s, rfl, le_refl _, h, fun _ _ => rfl⟩
  | cons u us ih =>
    intro s ht h hu
    obtain ⟨hu0, hx⟩ := hu u (by simp)
    obtain ⟨s1, e1, n1, i1, o1, -⟩ := view_live u.write hx h ht
    obtain ⟨s2, e2, n2, i2, o2⟩ := ih s1 (by omega) i1 fun v hv => hu v (by simp [hv])
    refine ⟨s2, ?_, by omega, i2, fun y hy => by rw [o2 y hy, o1 y hy]⟩
    have : s.use [(t, w)] u = some s1 := by
      simp only [use, hu0, List.getElem?_cons_zero]
      exact e1
    simp only [uses, this, Option.bind_eq_bind, Option.bind_some]
    exact e2

/-- The phase stays inside the cells `M` of the matrix and inside the views it makes. -/
def _root_.Householder.Borrow.Phase.Valid (M : Nat → Prop) : Phase → Prop
  | .exclusive w us => (∀ x, w.Has x → M x) ∧ ∀ u ∈ us, w.Has u.1
  | .shared ws us => (∀ w ∈ ws, ∀ x, w.Has x → M x) ∧
      ∀ u ∈ us, ∃ w, ws[u.1]? = some w ∧ w.Has u.2

theorem phases_ok {p : Nat} {M : Nat → Prop} {C : Nat → Stack}
    (hC : ∀ x, M x → ∃ e rest, C x = e :: rest ∧ e.Grants true p) (fs : List Phase) :
    ∀ s : Stacks, AllOver p M C (fun _ _ => False) s → p < s.next → (∀ f ∈ fs, f.Valid M) →
    ∃ s', s.phases p fs = some s' ∧ AllOver p M C (fun _ _ => False) s' := by
  classical
  induction fs with
  | nil => intro s h _ _; exact ⟨s, rfl, h⟩
  | cons f fs ih =>
    intro s h hp hf
    have key : ∃ s', s.phase p f = some s' ∧ s.next ≤ s'.next ∧
        AllOver p M C (fun _ _ => False) s' := by
      have hv := hf f (by simp)
      cases f with
      | exclusive w us =>
        obtain ⟨hM, hu⟩ := hv
        let base : Nat → Stack := fun x => if M x then C x else [⟨.unique, p⟩]
        have hb : ∀ x, M x → base x = C x := fun x hx => by simp [base, hx]
        obtain ⟨vs, s1, e1, hv1, n1, o1, i1⟩ := viewsMut_spec [w] s base hp (by
            intro x
            by_cases hx : M x
            · rw [hb x hx]; exact hC x hx
            · exact ⟨_, [], by simp only [base, hx, if_false]; rfl, rfl, trivial⟩) (by
            intro w' hw' x hx
            obtain rfl : w' = w := by simpa using hw'
            obtain ⟨a, h1, h2, -⟩ := h x (hM x hx)
            exact ⟨a, by rw [h1, hb x (hM x hx)], h2⟩)
        have hvs : vs = [(s.next, w)] := by
          apply List.ext_getElem?
          intro k
          rw [hv1 k]
          cases k <;> simp
        have hl : ∀ y, w.Has y → Live s.next (C y) (s1.stack y) := by
          intro y hy
          obtain ⟨k, w', h1, -, -, h4⟩ := i1 y ⟨w, by simp, hy⟩
          obtain rfl : k = 0 := by
            cases k with
            | zero => rfl
            | succ k => simp at h1
          rw [h4, hb y (hM y hy)]
          exact ⟨[], rfl, by simp⟩
        have n1' : s1.next = s.next + 1 := by simpa using n1
        obtain ⟨s2, e2, n2, l2, o2⟩ := exclusive_ok (us.map fun u => ⟨0, u.1, u.2⟩) s1
          (by omega) hl (by
            intro u hu'
            rw [List.mem_map] at hu'
            obtain ⟨v, hv, rfl⟩ := hu'
            exact ⟨rfl, hu v hv⟩)
        refine ⟨s2, ?_, by omega, ?_⟩
        · simp only [phase, splitAndUse, e1, Option.bind_eq_bind, Option.bind_some, hvs]
          exact e2
        · intro x hx
          by_cases hw : w.Has x
          · obtain ⟨a, h1, h2⟩ := l2 x hw
            refine ⟨a ++ [⟨.unique, s.next⟩], by rw [h1]; simp, ?_, fun _ h => h.elim⟩
            intro e he
            rcases List.mem_append.mp he with he | he
            · have := h2 e he
              exact ⟨by omega, this.2⟩
            · rw [List.mem_singleton] at he
              subst he
              exact ⟨hp, by simp⟩
          · rw [o2 x hw, o1 x (by simpa using hw)]
            exact h x hx
      | shared ws us =>
        obtain ⟨hM, hu⟩ := hv
        obtain ⟨vs, s1, e1, hv1, n1, i1⟩ := views_spec hC ws _ s h hp hM
        obtain ⟨s2, e2, n2, i2⟩ := reads_ok hv1 hM
          (fun k w hk y hy => .inr ⟨k, w, hk, hy, rfl⟩)
          (us.map fun u => ⟨u.1, u.2, false⟩) s1 i1 (by omega) (by
            intro u hu'
            rw [List.mem_map] at hu'
            obtain ⟨v, hv, rfl⟩ := hu'
            obtain ⟨w, h1, h2⟩ := hu v hv
            exact ⟨⟨w, h1, h2⟩, rfl⟩)
        refine ⟨s2, ?_, by omega, fun x hx => (i2 x hx).weaken fun _ h => h.elim⟩
        simp only [phase, e1, Option.bind_eq_bind, Option.bind_some]
        exact e2
    obtain ⟨s1, e1, n1, i1⟩ := key
    obtain ⟨s2, e2, i2⟩ := ih s1 i1 (by omega) fun g hg => hf g (by simp [hg])
    refine ⟨s2, ?_, i2⟩
    simp only [phases, e1, Option.bind_eq_bind, Option.bind_some]
    exact e2

end Stacks

end Borrow

end Householder
