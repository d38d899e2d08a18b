import Verif.Spec.Guards
import Verif.Lemmas.GuardsTree
import Verif.Props.Borrow
import Verif.Lemmas.Slices

/-!
# Property C87: views of views, and protectors

The rules and the programs are in `Verif/Model/Guards.lean`, what a program starts with in
`Verif/Spec/Guards.lean`.
-/

namespace Householder.Props

open Spec Borrow

variable {α : Type}

/-- The reference of a view. -/
def refOf (v : Handle) : Ref := ⟨v.tag, windowOf v.mat, v.arg⟩

section
variable [Target]

/-- The invariant of a program. -/
structure HeldInv {S : Type} (I : S → List Ref → List Ref → Prop) (mem : Mem α) (h : Held) (s : S) :
    Prop where
  inv : I s (h.chain.map refOf) (h.shared.map refOf)
  chain : ∀ v ∈ h.chain, View v.mat mem
  shared : ∀ v ∈ h.shared, View v.mat mem ∧ v.arg = false

theorem HeldInv.noArg {S : Type} {I : S → List Ref → List Ref → Prop} {mem : Mem α} {h : Held}
    {s : S} (hI : HeldInv I mem h s) : ∀ u ∈ h.shared.map refOf, u.arg = false := by
  intro u hu
  obtain ⟨v, hv, rfl⟩ := List.mem_map.1 hu
  exact (hI.shared v hv).2

/-- An element accessor panics or gives a cell of the slice. -/
theorem view_get_mut (cfg : Cfg) {b : BaseMatrix} {mem : Mem α} (hv : View b mem) (i j : Nat) :
    b.get_mut cfg i j = .panic ∨ ∃ l, b.get_mut cfg i j = .ok l ∧ (windowOf b).Has l.idx := by
  by_cases hij : i < b.layout.dim.1 ∧ j < b.layout.dim.2
  · refine .inr ⟨_, hv.sound.get_mut cfg ((stored_iff hv.major).2 hij), ?_⟩
    have := hv.sound.inside _ _ ((stored_iff hv.major).2 hij)
    simp only [Window.Has, windowOf, cell]
    omega
  · exact .inl (get_mut_panic cfg b hij)

theorem sub_of_within {b m : BaseMatrix} (h : Within b m) : Sub (windowOf b) (windowOf m) := by
  obtain ⟨-, h1, h2⟩ := h
  intro x hx
  simp only [Window.Has, windowOf] at *
  omega

/-- One deed. -/
theorem step_ok {S : Type} {R : Rules S} {I : S → List Ref → List Ref → Prop} (H : Obeys R I)
    (cfg : Cfg) {mem : Mem α} {h : Held} {s : S} (hI : HeldInv I mem h s) (d : Deed)
    (hd : Tame cfg d) : ∃ h' s', R.step cfg h s d = some (h', s') ∧ HeldInv I mem h' s' := by
  obtain ⟨chain, shared⟩ := h
  have hna := hI.noArg
  have stay : ∃ h' s', some (Held.mk chain shared, s) = some (h', s') ∧ HeldInv I mem h' s' :=
    ⟨_, _, rfl, hI⟩
  cases d with
  | set i j =>
    cases chain with
    | nil => exact stay
    | cons v vs =>
      simp only [Rules.step]
      rcases view_get_mut cfg (hI.chain v (by simp)) i j with e | ⟨l, e, hl⟩
      · simp only [e]; exact stay
      · simp only [e]
        obtain ⟨s', es, h'⟩ := H.set (v := refOf v) (c := vs.map refOf) hI.inv hna hl
        have es' : R.set v.tag (windowOf v.mat) l.idx s = some s' := es
        exact ⟨⟨v :: vs, []⟩, s', by rw [es']; rfl, ⟨h', hI.chain, by simp⟩⟩
  | get i j =>
    cases chain with
    | nil => exact stay
    | cons v vs =>
      simp only [Rules.step]
      rcases view_get_mut cfg (hI.chain v (by simp)) i j with e | ⟨l, e, hl⟩
      · simp only [e]; exact stay
      · simp only [e]
        obtain ⟨s', es, h'⟩ := H.get (v := refOf v) hI.inv (.inl rfl) hl
        have es' : R.get v.tag (windowOf v.mat) l.idx s = some s' := es
        exact ⟨_, _, by rw [es']; rfl, ⟨h', hI.chain, hI.shared⟩⟩
  | read k i j =>
    simp only [Rules.step]
    cases hk : shared[k]? with
    | none => exact stay
    | some v =>
      have hm : v ∈ shared := List.mem_of_getElem? hk
      rcases view_get_mut cfg (hI.shared v hm).1 i j with e | ⟨l, e, hl⟩
      · simp only [e]; exact stay
      · simp only [e]
        obtain ⟨s', es, h'⟩ := H.get (v := refOf v) hI.inv (.inr (List.mem_map_of_mem hm)) hl
        have es' : R.get v.tag (windowOf v.mat) l.idx s = some s' := es
        exact ⟨_, _, by rw [es']; rfl, ⟨h', hI.chain, hI.shared⟩⟩
  | blockMut tl dm =>
    cases chain with
    | nil => exact stay
    | cons v vs =>
      simp only [Rules.step]
      rcases block_step cfg (hI.chain v (by simp)) tl dm ⟨hd.1, hd.2.1⟩ hd.2.2 with
        e | ⟨b, e, hb, hw⟩
      · simp only [e]; exact stay
      · simp only [e]
        obtain ⟨t, s', es, h'⟩ := H.viewMut (v := refOf v) (c := vs.map refOf) hI.inv hna
          (sub_of_within hw)
        have es' : R.viewMut v.tag (windowOf v.mat) (windowOf b) s = some (t, s') := es
        refine ⟨_, _, by rw [es']; rfl, ⟨h', ?_, by simp⟩⟩
        intro u hu
        rcases List.mem_cons.1 hu with rfl | hu
        · exact hb
        · exact hI.chain u hu
  | call =>
    cases chain with
    | nil => exact stay
    | cons v vs =>
      simp only [Rules.step]
      obtain ⟨t, s', es, h'⟩ := H.mutRef (v := refOf v) (c := vs.map refOf) hI.inv hna (Sub.refl _)
      have es' : R.mutRef v.tag (windowOf v.mat) s = some (t, s') := es
      refine ⟨_, _, by rw [es']; rfl, ⟨H.enter h', ?_, by simp⟩⟩
      intro u hu
      rcases List.mem_cons.1 hu with rfl | hu
      · exact hI.chain v (by simp)
      · exact hI.chain u hu
  | drop =>
    cases chain with
    | nil => exact stay
    | cons v vs =>
      simp only [Rules.step]
      have noShared : ∀ {s : S} {c : List Ref}, I s c (shared.map refOf) → I s c [] := by
        intro s c hi
        refine H.weaken hi (by simp) ?_
        intro u hu ha
        rw [hna u hu] at ha
        cases ha
      by_cases ha : v.arg = true
      · rw [if_pos ha]
        obtain ⟨s', es, h'⟩ := H.leave (c1 := []) (c2 := vs.map refOf) (t := v.tag)
          (w := windowOf v.mat) (a := v.arg) (sh := shared.map refOf) hI.inv
        refine ⟨_, _, by rw [es]; rfl, ⟨noShared (H.pop h' rfl), ?_, by simp⟩⟩
        exact fun u hu => hI.chain u (List.mem_cons_of_mem _ hu)
      · rw [if_neg ha]
        refine ⟨_, _, rfl, ⟨noShared (H.pop (v := refOf v) hI.inv (by simpa [refOf] using ha)), ?_, by simp⟩⟩
        exact fun u hu => hI.chain u (List.mem_cons_of_mem _ hu)
  | block tl dm =>
    cases chain with
    | nil => exact stay
    | cons v vs =>
      simp only [Rules.step]
      rcases block_step cfg (hI.chain v (by simp)) tl dm ⟨hd.1, hd.2.1⟩ hd.2.2 with
        e | ⟨b, e, hb, hw⟩
      · simp only [e]; exact stay
      · simp only [e]
        obtain ⟨t, s', es, h'⟩ := H.view (v := refOf v) hI.inv (.inl rfl) (sub_of_within hw)
        have es' : R.view v.tag (windowOf v.mat) (windowOf b) s = some (t, s') := es
        refine ⟨⟨v :: vs, shared ++ [⟨t, b, false⟩]⟩, s', by rw [es']; rfl,
          ⟨H.weaken h' ?_ ?_, hI.chain, ?_⟩⟩
        · intro u hu
          simp only [List.map_append, List.map_cons, List.map_nil, List.mem_append, List.mem_cons,
            List.not_mem_nil, or_false] at hu ⊢
          exact hu.symm
        · intro u hu ha
          simp only [List.map_append, List.map_cons, List.map_nil, List.mem_append, List.mem_cons,
            List.not_mem_nil, or_false] at hu ⊢
          exact hu.symm
        · intro u hu
          rcases List.mem_append.1 hu with hu | hu
          · exact hI.shared u hu
          · obtain rfl := List.mem_singleton.1 hu
            exact ⟨hb, rfl⟩
  | blockOf k tl dm =>
    simp only [Rules.step]
    cases hk : shared[k]? with
    | none => exact stay
    | some v =>
      have hm : v ∈ shared := List.mem_of_getElem? hk
      rcases block_step cfg (hI.shared v hm).1 tl dm ⟨hd.1, hd.2.1⟩ hd.2.2 with
        e | ⟨b, e, hb, hw⟩
      · simp only [e]; exact stay
      · simp only [e]
        obtain ⟨t, s', es, h'⟩ := H.view (v := refOf v) hI.inv (.inr (List.mem_map_of_mem hm))
          (sub_of_within hw)
        have es' : R.view v.tag (windowOf v.mat) (windowOf b) s = some (t, s') := es
        refine ⟨⟨chain, shared ++ [⟨t, b, false⟩]⟩, s', by rw [es']; rfl,
          ⟨H.weaken h' ?_ ?_, hI.chain, ?_⟩⟩
        · intro u hu
          simp only [List.map_append, List.map_cons, List.map_nil, List.mem_append, List.mem_cons,
            List.not_mem_nil, or_false] at hu ⊢
          exact hu.symm
        · intro u hu ha
          simp only [List.map_append, List.map_cons, List.map_nil, List.mem_append, List.mem_cons,
            List.not_mem_nil, or_false] at hu ⊢
          exact hu.symm
        · intro u hu
          rcases List.mem_append.1 hu with hu | hu
          · exact hI.shared u hu
          · obtain rfl := List.mem_singleton.1 hu
            exact ⟨hb, rfl⟩
  | sliceMut first last us =>
    cases chain with
    | nil => exact stay
    | cons v vs =>
      simp only [Rules.step]
      by_cases hfl : first < last ∧ last ≤ v.mat.data.len
      · rw [Container.get_slice_mut_eq _ hfl.1 hfl.2]
        have hw : Sub ⟨v.mat.data.off + first, last - first⟩ (windowOf v.mat) := by
          intro x hx
          simp only [Window.Has, windowOf] at *
          omega
        obtain ⟨t, s1, es, h'⟩ := H.viewMut (v := refOf v) (c := vs.map refOf) hI.inv hna hw
        have es' : R.viewMut v.tag (windowOf v.mat) ⟨v.mat.data.off + first, last - first⟩ s
          = some (t, s1) := es
        obtain ⟨s2, e2, h2⟩ := H.accesses (v := ⟨t, ⟨v.mat.data.off + first, last - first⟩, false⟩)
          (us.filterMap fun u => if u.1 < last - first then
            some (v.mat.data.off + first + u.1, u.2) else none) h' (by
            intro u hu
            obtain ⟨u0, -, e⟩ := List.mem_filterMap.1 hu
            split at e
            · cases e
              simp only [Window.Has]
              omega
            · cases e)
        refine ⟨⟨v :: vs, []⟩, s2, by
          simp only [es', Option.bind_eq_bind, Option.bind_some, e2]; rfl,
          ⟨H.pop h2 rfl, hI.chain, by simp⟩⟩
      · rw [Container.get_slice_mut_panic _ hfl]
        exact stay

/-- A program. -/
theorem run_ok {S : Type} {R : Rules S} {I : S → List Ref → List Ref → Prop} (H : Obeys R I)
    (cfg : Cfg) {mem : Mem α} (ds : List Deed) (hd : ∀ d ∈ ds, Tame cfg d) :
    ∀ {h : Held} {s : S}, HeldInv I mem h s →
    ∃ h' s', R.run cfg ds (h, s) = some (h', s') ∧ HeldInv I mem h' s' := by
  induction ds with
  | nil => exact fun hI => ⟨_, _, rfl, hI⟩
  | cons d ds ih =>
    intro h s hI
    obtain ⟨h1, s1, e1, hI1⟩ := step_ok H cfg hI d (hd d (by simp))
    obtain ⟨h2, s2, e2, hI2⟩ := ih (fun d hd' => hd d (by simp [hd'])) hI1
    exact ⟨h2, s2, by simp only [Rules.run, e1, Option.bind_some, e2], hI2⟩

/-- **C87 for Stacked Borrows.** A program that holds a chain of mutable views, each a block of the
one before, and shared views of the last, and uses them as the borrow checker allows, never has
undefined behaviour in Stacked Borrows with protectors, whether or not functions are called with
the views. -/
theorem C87_stacked_borrows (cfg : Cfg) (m : BaseMatrix) (mem : Mem α) (h : Sound m mem)
    (hm : IsMajor m.layout) (hc : Contiguous m.layout) (p : Nat) (arg : Bool) (g : GStacks)
    (hg : GStackReady p m arg g) (ds : List Deed) (hd : ∀ d ∈ ds, Tame cfg d) :
    (GStacks.rules.run cfg ds (⟨[⟨p, m, arg⟩], []⟩, g)).isSome := by
  have hI : HeldInv StackInv mem ⟨[⟨p, m, arg⟩], []⟩ g := by
    refine ⟨⟨hg.ordered, hg.fresh, ?_, ?_, by simp, ?_, by simp, by simp, ?_⟩, ?_, by simp⟩
    · simp only [List.map_cons, List.map_nil, List.mem_singleton, List.not_mem_nil, or_false]
      rintro v rfl
      exact hg.tag
    · simp
    · simp only [List.map_cons, List.map_nil, List.mem_singleton]
      rintro v rfl
      exact hg.granted
    · intro r hr
      obtain ⟨ha, rfl⟩ := hg.prot r hr
      exact ⟨refOf ⟨r, m, arg⟩, .inl (by simp), ha, rfl⟩
    · simp only [List.mem_singleton]
      rintro v rfl
      exact view_of_contiguous h hm hc
  obtain ⟨h', s', e, -⟩ := run_ok stack_obeys cfg ds hd hI
  rw [e]
  rfl

/-- **C87 for Tree Borrows.** The same in Tree Borrows with protectors. -/
theorem C87_tree_borrows (cfg : Cfg) (m : BaseMatrix) (mem : Mem α) (h : Sound m mem)
    (hm : IsMajor m.layout) (hc : Contiguous m.layout) (p : Nat) (arg : Bool) (T : GTree)
    (hg : GTreeReady p m arg T) (ds : List Deed) (hd : ∀ d ∈ ds, Tame cfg d) :
    (GTree.rules.run cfg ds (⟨[⟨p, m, arg⟩], []⟩, T)).isSome := by
  have hI : HeldInv TreeInv mem ⟨[⟨p, m, arg⟩], []⟩ T := by
    refine ⟨⟨hg.fresh, ?_, ?_, by simp, ?_, by simp, by simp, ?_⟩, ?_, by simp⟩
    · simp only [List.map_cons, List.map_nil, List.mem_singleton, List.not_mem_nil, or_false]
      rintro v rfl
      exact hg.tag
    · simp
    · simp only [List.map_cons, List.map_nil, List.mem_singleton]
      rintro v rfl
      exact hg.writable
    · intro r hr
      obtain ⟨ha, rfl⟩ := hg.prot r hr
      exact ⟨refOf ⟨r, m, arg⟩, .inl (by simp), ha, rfl⟩
    · simp only [List.mem_singleton]
      rintro v rfl
      exact view_of_contiguous h hm hc
  obtain ⟨h', s', e, -⟩ := run_ok tree_obeys cfg ds hd hI
  rw [e]
  rfl

end

/-! ## Cases -/

/-- A fresh allocation, owned by the reference 0. -/
def freshGStacks : GStacks := ⟨freshStacks, []⟩

/-- The same for Tree Borrows. -/
def freshGTree : GTree := ⟨fun r => [r], fun _ _ => .active, 1, []⟩

theorem freshGStacks_ready (m : BaseMatrix) : GStackReady 0 m false freshGStacks :=
  ⟨by decide, by simp [freshGStacks, freshStacks], by simp [freshGStacks, freshStacks],
    fun _ _ => ⟨⟨.unique, 0⟩, by simp [freshGStacks, freshStacks], rfl, trivial⟩,
    by simp [freshGStacks]⟩

theorem freshGTree_ready (m : BaseMatrix) : GTreeReady 0 m false freshGTree :=
  ⟨by decide, by simp [freshGTree], by simp [freshGTree], by simp [freshGTree]⟩

/-- Blocks of blocks of blocks, a function that is called with the second, shared views of the third
and of each other. -/
def exDeeds : List Deed :=
  [.set 0 0, .blockMut (1, 1) (8, 8), .set 2 2, .call, .set 1 1, .blockMut (2, 0) (4, 4),
   .set 3 3, .block (0, 0) (2, 2), .block (1, 1) (3, 3), .blockOf 1 (1, 1) (2, 2), .read 0 1 1,
   .read 2 0 0, .get 0 0, .read 1 2 2, .sliceMut 1 5 [(0, true), (3, false)], .set 0 0, .drop,
   .get 0 0, .drop, .set 7 7, .drop, .set 9 9]

example (cfg : Cfg) [Target] (hc : cfg.overflowChecks = true) :
    (GStacks.rules.run cfg exDeeds (⟨[⟨0, exTen, false⟩], []⟩, freshGStacks)).isSome ∧
    (GTree.rules.run cfg exDeeds (⟨[⟨0, exTen, false⟩], []⟩, freshGTree)).isSome := by
  have hd : ∀ d ∈ exDeeds, Tame cfg d := by
    simp [exDeeds, Tame, BlockTame, hc]
  exact ⟨C87_stacked_borrows cfg exTen exTenMem exTen_sound trivial trivial 0 false _
      (freshGStacks_ready _) exDeeds hd,
    C87_tree_borrows cfg exTen exTenMem exTen_sound trivial trivial 0 false _
      (freshGTree_ready _) exDeeds hd⟩

/-- Making a mutable view, passing it to a function or not, an access through the parent, and a use
of the view. -/
def intrude {S : Type} (R : Rules S) (s : S) (protect write use : Bool) : Bool :=
  match R.viewMut 0 ⟨0, 4⟩ ⟨1, 2⟩ s with
  | none => false
  | some (t, s) =>
    match R.set t ⟨1, 2⟩ 1 (if protect then R.enter t s else s) with
    | none => false
    | some s =>
      match R.access write 0 ⟨1, 1⟩ s with
      | none => false
      | some s => if use then (R.set t ⟨1, 2⟩ 1 s).isSome else true

/-- What the borrow checker rules out is undefined behaviour: the use of a view after its parent was
written. With a protector the write itself is, in both models, and so is a read. -/
example : intrude GStacks.rules freshGStacks false true false = true ∧
    intrude GStacks.rules freshGStacks false true true = false ∧
    intrude GStacks.rules freshGStacks false false true = false ∧
    intrude GStacks.rules freshGStacks true true false = false ∧
    intrude GStacks.rules freshGStacks true false false = false := by decide

example : intrude GTree.rules freshGTree false true false = true ∧
    intrude GTree.rules freshGTree false true true = false ∧
    intrude GTree.rules freshGTree false false true = false ∧
    intrude GTree.rules freshGTree true true false = false ∧
    intrude GTree.rules freshGTree true false false = false := by decide

end Householder.Props
