import Verif.Model.Inline
import Verif.Lemmas.GuardsSplitTree

/-!
# Lemmas: references to a matrix that holds its elements inside itself
-/

namespace Householder.Spec

open Borrow

namespace Obeys

variable {S : Type} {R : Rules S} {I : S → List Ref → List Ref → Prop} (H : Obeys R I)

include H

/-- Looking at the matrix through a usable reference. -/
theorem look (n : Nat) : ∀ {s : S} {v : Ref} {c sh : List Ref}, I s c sh → Usable c sh v →
    ∃ s', R.look n v.tag v.win s = some s' ∧ I s' c sh := by
  induction n with
  | zero => exact fun h _ => ⟨_, rfl, h⟩
  | succ n ih =>
    intro s v c sh h hv
    obtain ⟨t, s1, e1, h1⟩ := H.shrRef h hv (Sub.refl _)
    obtain ⟨s2, e2, h2⟩ := ih (v := ⟨t, v.win, true⟩) (H.enterShared h1) (.inr (by simp))
    obtain ⟨s3, e3, h3⟩ := H.leaveShared (sh1 := []) h2
    refine ⟨s3, ?_, H.weaken h3 (fun u hu => by simp [hu]) ?_⟩
    · simp only [Rules.look, e1, Option.bind_eq_bind, Option.bind_some]
      simp only at e2
      rw [e2]
      exact e3
    · intro u hu ha
      simp only [List.nil_append, List.mem_cons] at hu
      rcases hu with rfl | hu
      · cases ha
      · exact hu

theorem looks (ns : List Nat) : ∀ {s : S} {v : Ref} {c sh : List Ref}, I s c sh → Usable c sh v →
    ∃ s', R.looks ns v.tag v.win s = some s' ∧ I s' c sh := by
  induction ns with
  | nil => exact fun h _ => ⟨_, rfl, h⟩
  | cons n ns ih =>
    intro s v c sh h hv
    obtain ⟨s1, e1, h1⟩ := H.look n h hv
    obtain ⟨s2, e2, h2⟩ := ih h1 hv
    exact ⟨s2, by simp only [Rules.looks, e1, Option.bind_some, e2], h2⟩

/-- A mutable reference to an element. -/
theorem elementMutIn (l : List (List Nat)) : ∀ {s : S} {v : Ref} {c sh : List Ref}, I s (v :: c) sh →
    (∀ u ∈ sh, u.arg = false) → ∀ {x : Nat}, v.win.Has x →
    ∃ r s', R.elementMutIn l v.tag v.win x s = some (r, s') ∧
      I s' (⟨r, .one x, false⟩ :: v :: c) [] := by
  induction l with
  | nil =>
    intro s v c sh h hs x hx
    obtain ⟨t1, s1, e1, h1⟩ := H.mutRef h hs (Sub.refl v.win)
    obtain ⟨t2, s2, e2, h2⟩ := H.mutRef h1 (by simp) (Sub.refl v.win)
    have h3 := H.enter h2
    obtain ⟨t4, s4, e4, h4⟩ := H.mutRef h3 (by simp) (sub_one hx)
    obtain ⟨s5, e5, h5⟩ := H.leave (c1 := [_]) h4
    refine ⟨t4, s5, ?_, H.delete (c1 := [_]) (H.delete (c1 := [_]) h5 rfl) rfl⟩
    simp only [Rules.elementMutIn, e1, e2, e4, e5, Option.bind_eq_bind, Option.bind_some,
      Option.pure_def]
  | cons ns l ih =>
    intro s v c sh h hs x hx
    obtain ⟨t1, s1, e1, h1⟩ := H.mutRef h hs (Sub.refl v.win)
    obtain ⟨s2, e2, h2⟩ := H.looks ns (v := ⟨t1, v.win, true⟩) (H.enter h1) (.inl rfl)
    obtain ⟨r, s3, e3, h3⟩ := ih h2 (by simp) hx
    obtain ⟨s4, e4, h4⟩ := H.leave (c1 := [_]) h3
    refine ⟨r, s4, ?_, H.delete (c1 := [_]) h4 rfl⟩
    simp only at e2 e3
    simp only [Rules.elementMutIn, e1, e2, e3, e4, Option.bind_eq_bind, Option.bind_some,
      Option.pure_def]

theorem setIn (l : List (List Nat)) {s : S} {v : Ref} {c sh : List Ref} (h : I s (v :: c) sh)
    (hs : ∀ u ∈ sh, u.arg = false) {x : Nat} (hx : v.win.Has x) :
    ∃ s', R.setIn l v.tag v.win x s = some s' ∧ I s' (v :: c) [] := by
  obtain ⟨r, s1, e1, h1⟩ := H.elementMutIn l h hs hx
  obtain ⟨s2, e2, h2⟩ := H.write h1 (by simp) (Sub.refl _)
  refine ⟨s2, ?_, H.pop h2 rfl⟩
  simp only [Rules.setIn, e1, Option.bind_eq_bind, Option.bind_some]
  exact e2

theorem getIn (l : List (List Nat)) : ∀ {s : S} {v : Ref} {c sh : List Ref}, I s c sh →
    Usable c sh v → ∀ {x : Nat}, v.win.Has x →
    ∃ s', R.getIn l v.tag v.win x s = some s' ∧ I s' c sh := by
  induction l with
  | nil => exact fun h hv _ hx => H.get h hv hx
  | cons ns l ih =>
    intro s v c sh h hv x hx
    obtain ⟨t, s1, e1, h1⟩ := H.shrRef h hv (Sub.refl _)
    have hu : Usable c (⟨t, v.win, true⟩ :: sh) ⟨t, v.win, true⟩ := .inr (by simp)
    obtain ⟨s2, e2, h2⟩ := H.looks ns (H.enterShared h1) hu
    obtain ⟨s3, e3, h3⟩ := ih h2 hu hx
    obtain ⟨s4, e4, h4⟩ := H.leaveShared (sh1 := []) h3
    refine ⟨s4, ?_, H.weaken h4 (fun u hu => by simp [hu]) ?_⟩
    · simp only at e2 e3
      simp only [Rules.getIn, e1, e2, e3, Option.bind_eq_bind, Option.bind_some]
      exact e4
    · intro u hu ha
      simp only [List.nil_append, List.mem_cons] at hu
      rcases hu with rfl | hu
      · cases ha
      · exact hu

/-- A call that panics. -/
theorem failMut (l : List (List Nat)) : ∀ {s : S} {v : Ref} {c sh : List Ref}, I s (v :: c) sh →
    (∀ u ∈ sh, u.arg = false) →
    ∃ s', R.failMut l v.tag v.win s = some s' ∧ I s' (v :: c) [] := by
  induction l with
  | nil =>
    intro s v c sh h hs
    exact ⟨s, rfl, H.weaken h (by simp) fun u hu ha => by rw [hs u hu] at ha; cases ha⟩
  | cons ns l ih =>
    intro s v c sh h hs
    obtain ⟨t1, s1, e1, h1⟩ := H.mutRef h hs (Sub.refl v.win)
    obtain ⟨s2, e2, h2⟩ := H.looks ns (v := ⟨t1, v.win, true⟩) (H.enter h1) (.inl rfl)
    obtain ⟨s3, e3, h3⟩ := ih h2 (by simp)
    obtain ⟨s4, e4, h4⟩ := H.leave (c1 := []) h3
    refine ⟨s4, ?_, H.pop h4 rfl⟩
    simp only at e2 e3
    simp only [Rules.failMut, e1, e2, e3, Option.bind_eq_bind, Option.bind_some]
    exact e4

theorem fail (l : List (List Nat)) : ∀ {s : S} {v : Ref} {c sh : List Ref}, I s c sh →
    Usable c sh v → ∃ s', R.fail l v.tag v.win s = some s' ∧ I s' c sh := by
  induction l with
  | nil => exact fun h _ => ⟨_, rfl, h⟩
  | cons ns l ih =>
    intro s v c sh h hv
    obtain ⟨t, s1, e1, h1⟩ := H.shrRef h hv (Sub.refl _)
    have hu : Usable c (⟨t, v.win, true⟩ :: sh) ⟨t, v.win, true⟩ := .inr (by simp)
    obtain ⟨s2, e2, h2⟩ := H.looks ns (H.enterShared h1) hu
    obtain ⟨s3, e3, h3⟩ := ih h2 hu
    obtain ⟨s4, e4, h4⟩ := H.leaveShared (sh1 := []) h3
    refine ⟨s4, ?_, H.weaken h4 (fun u hu => by simp [hu]) ?_⟩
    · simp only at e2 e3
      simp only [Rules.fail, e1, e2, e3, Option.bind_eq_bind, Option.bind_some]
      exact e4
    · intro u hu ha
      simp only [List.nil_append, List.mem_cons] at hu
      rcases hu with rfl | hu
      · cases ha
      · exact hu

theorem pointerIn (l : List (List Nat)) : ∀ {s : S} {v : Ref} {c sh : List Ref}, I s c sh →
    Usable c sh v →
    ∃ p s', R.pointerIn l v.tag v.win s = some (p, s') ∧ I s' c (⟨p, v.win, false⟩ :: sh) := by
  induction l with
  | nil => exact fun h hv => H.pointer h hv
  | cons ns l ih =>
    intro s v c sh h hv
    obtain ⟨t, s1, e1, h1⟩ := H.shrRef h hv (Sub.refl _)
    have hu : Usable c (⟨t, v.win, true⟩ :: sh) ⟨t, v.win, true⟩ := .inr (by simp)
    obtain ⟨s2, e2, h2⟩ := H.looks ns (H.enterShared h1) hu
    obtain ⟨p, s3, e3, h3⟩ := ih h2 hu
    obtain ⟨s4, e4, h4⟩ := H.leaveShared (sh1 := [_]) h3
    refine ⟨p, s4, ?_, H.weaken h4 (fun u hu => ?_) ?_⟩
    · simp only at e2 e3
      simp only [Rules.pointerIn, e1, e2, e3, e4, Option.bind_eq_bind, Option.bind_some,
        Option.pure_def]
    · simp only [List.mem_cons] at hu
      rcases hu with rfl | hu <;> simp [*]
    · intro u hu ha
      simp only [List.cons_append, List.nil_append, List.mem_cons] at hu
      rcases hu with rfl | rfl | hu
      · cases ha
      · cases ha
      · exact List.mem_cons_of_mem _ hu

theorem makeIn (pl : Plan) {s : S} {v : Ref} {c sh : List Ref} (h : I s c sh)
    (hv : Usable c sh v) {w : Window} (hw : Sub w v.win) :
    ∃ r s', R.makeIn pl v.tag v.win w s = some (r, s') ∧ I s' c (⟨r, w, false⟩ :: sh) := by
  obtain ⟨t, s1, e1, h1⟩ := H.shrRef h hv (Sub.refl _)
  have hu : Usable c (⟨t, v.win, true⟩ :: sh) ⟨t, v.win, true⟩ := .inr (by simp)
  obtain ⟨s2, e2, h2⟩ := H.looks pl.before (H.enterShared h1) hu
  obtain ⟨p, s3, e3, h3⟩ := H.pointerIn pl.inner h2 hu
  obtain ⟨s4, e4, h4⟩ := H.looks pl.after (v := ⟨t, v.win, true⟩) h3 (.inr (by simp))
  obtain ⟨r, s5, e5, h5⟩ := H.shrRef (v := ⟨p, v.win, false⟩) h4 (.inr (by simp)) hw
  obtain ⟨s6, e6, h6⟩ := H.leaveShared (sh1 := [_, _]) h5
  refine ⟨r, s6, ?_, H.weaken h6 (fun u hu => ?_) ?_⟩
  · simp only at e2 e3 e4 e5
    simp only [Rules.makeIn, e1, e2, e3, e4, e5, e6, Option.bind_eq_bind, Option.bind_some,
      Option.pure_def]
  · simp only [List.mem_cons] at hu
    rcases hu with rfl | hu <;> simp [*]
  · intro u hu ha
    simp only [List.cons_append, List.nil_append, List.mem_cons] at hu
    rcases hu with rfl | rfl | rfl | hu
    · cases ha
    · cases ha
    · cases ha
    · exact List.mem_cons_of_mem _ hu

theorem viewIn (pl : Plan) (l : List (List Nat)) : ∀ {s : S} {v : Ref} {c sh : List Ref},
    I s c sh → Usable c sh v → ∀ {w : Window}, Sub w v.win →
    ∃ r s', R.viewIn pl l v.tag v.win w s = some (r, s') ∧ I s' c (⟨r, w, false⟩ :: sh) := by
  induction l with
  | nil => exact fun h hv _ hw => H.makeIn pl h hv hw
  | cons ns l ih =>
    intro s v c sh h hv w hw
    obtain ⟨t, s1, e1, h1⟩ := H.shrRef h hv (Sub.refl _)
    have hu : Usable c (⟨t, v.win, true⟩ :: sh) ⟨t, v.win, true⟩ := .inr (by simp)
    obtain ⟨s2, e2, h2⟩ := H.looks ns (H.enterShared h1) hu
    obtain ⟨r, s3, e3, h3⟩ := ih h2 hu hw
    obtain ⟨s4, e4, h4⟩ := H.leaveShared (sh1 := [_]) h3
    refine ⟨r, s4, ?_, H.weaken h4 (fun u hu => ?_) ?_⟩
    · simp only at e2 e3
      simp only [Rules.viewIn, e1, e2, e3, e4, Option.bind_eq_bind, Option.bind_some,
        Option.pure_def]
    · simp only [List.mem_cons] at hu
      rcases hu with rfl | hu <;> simp [*]
    · intro u hu ha
      simp only [List.cons_append, List.nil_append, List.mem_cons] at hu
      rcases hu with rfl | rfl | hu
      · cases ha
      · cases ha
      · exact List.mem_cons_of_mem _ hu

end Obeys

/-- What the two models have in common about a pointer that has been got from the reference `u`
and not been used: `K s p u c`. One may look at the matrix through `u`, around the pointer. -/
structure Takes {S : Type} (R : Rules S) (I : S → List Ref → List Ref → Prop)
    (K : S → Ref → Ref → List Ref → Prop) : Prop where
  pointer : ∀ {s u c} (l : List (List Nat)), I s (u :: c) [] →
    ∃ p s', R.pointerMutIn l u.tag u.win s = some (p, s') ∧ K s' ⟨p, u.win, false⟩ u c
  look : ∀ {s p u c} (n : Nat), K s p u c → ∃ s', R.look n u.tag u.win s = some s' ∧ K s' p u c
  finish : ∀ {s p u c}, K s p u c → I s (p :: u :: c) []

namespace Takes

variable {S : Type} {R : Rules S} {I : S → List Ref → List Ref → Prop}
  {K : S → Ref → Ref → List Ref → Prop} (H : Obeys R I) (G : Takes R I K)

include H G

omit H in
theorem looks (ns : List Nat) : ∀ {s : S} {p u : Ref} {c : List Ref}, K s p u c →
    ∃ s', R.looks ns u.tag u.win s = some s' ∧ K s' p u c := by
  induction ns with
  | nil => exact fun h => ⟨_, rfl, h⟩
  | cons n ns ih =>
    intro s p u c h
    obtain ⟨s1, e1, h1⟩ := G.look n h
    obtain ⟨s2, e2, h2⟩ := ih h1
    exact ⟨s2, by simp only [Rules.looks, e1, Option.bind_some, e2], h2⟩

theorem makeMutIn (pl : Plan) {s : S} {v : Ref} {c sh : List Ref} (h : I s (v :: c) sh)
    (hs : ∀ u ∈ sh, u.arg = false) {w : Window} (hw : Sub w v.win) :
    ∃ r s', R.makeMutIn pl v.tag v.win w s = some (r, s') ∧ I s' (⟨r, w, false⟩ :: v :: c) [] := by
  obtain ⟨t, s1, e1, h1⟩ := H.mutRef h hs (Sub.refl v.win)
  obtain ⟨s2, e2, h2⟩ := H.looks pl.before (v := ⟨t, v.win, true⟩) (H.enter h1) (.inl rfl)
  obtain ⟨p, s3, e3, h3⟩ := G.pointer pl.inner h2
  obtain ⟨s4, e4, h4⟩ := G.looks pl.after h3
  obtain ⟨r, s5, e5, h5⟩ := H.mutRef (G.finish h4) (by simp) hw
  obtain ⟨s6, e6, h6⟩ := H.leave (c1 := [_, _]) h5
  refine ⟨r, s6, ?_, H.delete (c1 := [_]) (H.delete (c1 := [_]) h6 rfl) rfl⟩
  simp only at e2 e3 e4 e5
  simp only [Rules.makeMutIn, e1, e2, e3, e4, e5, e6, Option.bind_eq_bind, Option.bind_some,
    Option.pure_def]

theorem viewMutIn (pl : Plan) (l : List (List Nat)) : ∀ {s : S} {v : Ref} {c sh : List Ref},
    I s (v :: c) sh → (∀ u ∈ sh, u.arg = false) → ∀ {w : Window}, Sub w v.win →
    ∃ r s', R.viewMutIn pl l v.tag v.win w s = some (r, s') ∧
      I s' (⟨r, w, false⟩ :: v :: c) [] := by
  induction l with
  | nil => exact fun h hs _ hw => G.makeMutIn H pl h hs hw
  | cons ns l ih =>
    intro s v c sh h hs w hw
    obtain ⟨t, s1, e1, h1⟩ := H.mutRef h hs (Sub.refl v.win)
    obtain ⟨s2, e2, h2⟩ := H.looks ns (v := ⟨t, v.win, true⟩) (H.enter h1) (.inl rfl)
    obtain ⟨r, s3, e3, h3⟩ := ih h2 (by simp) hw
    obtain ⟨s4, e4, h4⟩ := H.leave (c1 := [_]) h3
    refine ⟨r, s4, ?_, H.delete (c1 := [_]) h4 rfl⟩
    simp only at e2 e3
    simp only [Rules.viewMutIn, e1, e2, e3, e4, Option.bind_eq_bind, Option.bind_some,
      Option.pure_def]

end Takes

end Householder.Spec
