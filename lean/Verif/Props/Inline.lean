import Verif.Lemmas.InlineSplit
import Verif.Props.GuardsSplit

/-!
# Property C96: matrices that hold their elements inside themselves

The steps and the programs are in `Verif/Model/Inline.lean`.
-/

namespace Householder.Props

open Spec Borrow

variable {α : Type}

section
variable [Target]

/-- One deed. -/
theorem stepIn_ok {S : Type} {R : Rules S} {I : S → List Ref → List Ref → Prop}
    {K : S → Ref → Ref → List Ref → Prop} (H : Obeys R I) (G : Takes R I K)
    (cfg : Cfg) {mem : Mem α} {b : Body} {s : S} (hI : HeldInv I mem b.held s) (d : Deed)
    (hd : Tame cfg d) (pl : Plan) :
    ∃ b' s', R.stepIn cfg b s d pl = some (b', s') ∧ HeldInv I mem b'.held s' := by
  obtain ⟨⟨chain, shared⟩, k⟩ := b
  have hna := hI.noArg
  have plain : ∃ b' s', ((R.step cfg ⟨chain, shared⟩ s d).map fun x =>
      ((⟨x.1, min k x.1.chain.length⟩ : Body), x.2)) = some (b', s') ∧
      HeldInv I mem b'.held s' := by
    obtain ⟨h', s', e, hI'⟩ := step_ok H cfg hI d hd
    exact ⟨⟨h', _⟩, s', by rw [e]; rfl, hI'⟩
  by_cases hin : (⟨⟨chain, shared⟩, k⟩ : Body).Inside
  · cases chain with
    | nil => simp only [Rules.stepIn, if_pos hin]; exact plain
    | cons v vs =>
      have failMut : ∃ b' s', ((R.failMut pl.reached v.tag (windowOf v.mat) s).map fun s =>
          ((⟨⟨v :: vs, []⟩, k⟩ : Body), s)) = some (b', s') ∧ HeldInv I mem b'.held s' := by
        obtain ⟨s', es, h'⟩ := H.failMut pl.reached (v := refOf v) (c := vs.map refOf) hI.inv hna
        have es' : R.failMut pl.reached v.tag (windowOf v.mat) s = some s' := es
        exact ⟨⟨⟨v :: vs, []⟩, k⟩, s', by rw [es']; rfl, ⟨h', hI.chain, by simp⟩⟩
      have fail : ∃ b' s', ((R.fail pl.reached v.tag (windowOf v.mat) s).map fun s =>
          ((⟨⟨v :: vs, shared⟩, k⟩ : Body), s)) = some (b', s') ∧ HeldInv I mem b'.held s' := by
        obtain ⟨s', es, h'⟩ := H.fail pl.reached (v := refOf v) hI.inv (.inl rfl)
        have es' : R.fail pl.reached v.tag (windowOf v.mat) s = some s' := es
        exact ⟨_, s', by rw [es']; rfl, ⟨h', hI.chain, hI.shared⟩⟩
      cases d with
      | set i j =>
        simp only [Rules.stepIn, if_pos hin]
        rcases view_get_mut cfg (hI.chain v (by simp)) i j with e | ⟨l, e, hl⟩
        · simp only [e]; exact failMut
        · simp only [e]
          obtain ⟨s', es, h'⟩ := H.setIn pl.inner (v := refOf v) (c := vs.map refOf) hI.inv hna hl
          have es' : R.setIn pl.inner v.tag (windowOf v.mat) l.idx s = some s' := es
          exact ⟨⟨⟨v :: vs, []⟩, k⟩, s', by rw [es']; rfl, ⟨h', hI.chain, by simp⟩⟩
      | get i j =>
        simp only [Rules.stepIn, if_pos hin]
        rcases view_get_mut cfg (hI.chain v (by simp)) i j with e | ⟨l, e, hl⟩
        · simp only [e]; exact fail
        · simp only [e]
          obtain ⟨s', es, h'⟩ := H.getIn pl.inner (v := refOf v) hI.inv (.inl rfl) hl
          have es' : R.getIn pl.inner v.tag (windowOf v.mat) l.idx s = some s' := es
          exact ⟨_, _, by rw [es']; rfl, ⟨h', hI.chain, hI.shared⟩⟩
      | read k' i j => simp only [Rules.stepIn, if_pos hin]; exact plain
      | blockMut tl dm =>
        simp only [Rules.stepIn, if_pos hin]
        rcases block_step cfg (hI.chain v (by simp)) tl dm ⟨hd.1, hd.2.1⟩ hd.2.2 with
          e | ⟨m, e, hb, hw⟩
        · simp only [e]; exact failMut
        · simp only [e]
          obtain ⟨t, s', es, h'⟩ := G.viewMutIn H pl pl.outer (v := refOf v) (c := vs.map refOf)
            hI.inv hna (sub_of_within hw)
          have es' : R.viewMutIn pl pl.outer v.tag (windowOf v.mat) (windowOf m) s = some (t, s') :=
            es
          refine ⟨_, _, by rw [es']; rfl, ⟨h', ?_, by simp⟩⟩
          intro u hu
          rcases List.mem_cons.1 hu with rfl | hu
          · exact hb
          · exact hI.chain u hu
      | call =>
        simp only [Rules.stepIn, if_pos hin]
        obtain ⟨h', s', e, hI'⟩ := step_ok H cfg hI .call hd
        exact ⟨⟨h', _⟩, s', by rw [e]; rfl, hI'⟩
      | drop => simp only [Rules.stepIn, if_pos hin]; exact plain
      | block tl dm =>
        simp only [Rules.stepIn, if_pos hin]
        rcases block_step cfg (hI.chain v (by simp)) tl dm ⟨hd.1, hd.2.1⟩ hd.2.2 with
          e | ⟨m, e, hb, hw⟩
        · simp only [e]; exact fail
        · simp only [e]
          obtain ⟨t, s', es, h'⟩ := H.viewIn pl pl.outer (v := refOf v) hI.inv (.inl rfl)
            (sub_of_within hw)
          have es' : R.viewIn pl pl.outer v.tag (windowOf v.mat) (windowOf m) s = some (t, s') := es
          refine ⟨⟨⟨v :: vs, shared ++ [⟨t, m, false⟩]⟩, k⟩, s', by rw [es']; rfl,
            ⟨H.weaken h' ?_ ?_, hI.chain, ?_⟩⟩
          · intro u hu
            simp only [List.map_append, List.map_cons, List.map_nil, List.mem_append, List.mem_cons,
              List.not_mem_nil, or_false] at hu ⊢
            exact hu.symm
          · intro u hu ha
            simp only [List.map_append, List.map_cons, List.map_nil, List.mem_append, List.mem_cons,
              List.not_mem_nil, or_false] at hu ⊢
            exact hu.symm
          · intro u hu
            rcases List.mem_append.1 hu with hu | hu
            · exact hI.shared u hu
            · obtain rfl := List.mem_singleton.1 hu
              exact ⟨hb, rfl⟩
      | blockOf k' tl dm => simp only [Rules.stepIn, if_pos hin]; exact plain
      | sliceMut first last us =>
        simp only [Rules.stepIn, if_pos hin]
        by_cases hfl : first < last ∧ last ≤ v.mat.data.len
        · rw [Container.get_slice_mut_eq _ hfl.1 hfl.2]
          have hw : Sub ⟨v.mat.data.off + first, last - first⟩ (windowOf v.mat) := by
            intro x hx
            simp only [Window.Has, windowOf] at *
            omega
          obtain ⟨t, s1, es, h'⟩ := G.viewMutIn H pl pl.outer (v := refOf v) (c := vs.map refOf)
            hI.inv hna hw
          have es' : R.viewMutIn pl pl.outer v.tag (windowOf v.mat)
            ⟨v.mat.data.off + first, last - first⟩ s = some (t, s1) := es
          obtain ⟨s2, e2, h2⟩ := H.accesses (v := ⟨t, ⟨v.mat.data.off + first, last - first⟩, false⟩)
            (us.filterMap fun u => if u.1 < last - first then
              some (v.mat.data.off + first + u.1, u.2) else none) h' (by
              intro u hu
              obtain ⟨u0, -, e⟩ := List.mem_filterMap.1 hu
              split at e
              · cases e
                simp only [Window.Has]
                omega
              · cases e)
          refine ⟨⟨⟨v :: vs, []⟩, k⟩, s2, by
            simp only [es', Option.bind_eq_bind, Option.bind_some, e2]; rfl,
            ⟨H.pop h2 rfl, hI.chain, by simp⟩⟩
        · rw [Container.get_slice_mut_panic _ hfl]
          exact failMut
  · simp only [Rules.stepIn, if_neg hin]
    exact plain

/-- A program. -/
theorem runIn_ok {S : Type} {R : Rules S} {I : S → List Ref → List Ref → Prop}
    {K : S → Ref → Ref → List Ref → Prop} (H : Obeys R I) (G : Takes R I K)
    (cfg : Cfg) {mem : Mem α} (ds : List (Deed × Plan)) (hd : ∀ d ∈ ds, Tame cfg d.1) :
    ∀ {b : Body} {s : S}, HeldInv I mem b.held s →
    ∃ b' s', R.runIn cfg ds (b, s) = some (b', s') ∧ HeldInv I mem b'.held s' := by
  induction ds with
  | nil => exact fun hI => ⟨_, _, rfl, hI⟩
  | cons d ds ih =>
    intro b s hI
    obtain ⟨b1, s1, e1, hI1⟩ := stepIn_ok H G cfg hI d.1 (hd d (by simp)) d.2
    obtain ⟨b2, s2, e2, hI2⟩ := ih (fun d hd' => hd d (by simp [hd'])) hI1
    exact ⟨b2, s2, by simp only [Rules.runIn, e1, Option.bind_some, e2], hI2⟩

/-- **C96 for Stacked Borrows.** A program that starts with a matrix that holds its elements inside
itself, passes references to it, makes blocks of it and of the blocks, and uses them as the borrow
checker allows, never has undefined behaviour in Stacked Borrows with protectors: however the methods
of the matrix are cut into methods of what is inside it, and whatever they look up in the matrix
before and after they have got their pointer. -/
theorem C96_stacked_borrows (cfg : Cfg) (m : BaseMatrix) (mem : Mem α) (h : Sound m mem)
    (hm : IsMajor m.layout) (hc : Contiguous m.layout) (p : Nat) (arg : Bool) (g : GStacks)
    (hg : GStackReady p m arg g) (ds : List (Deed × Plan)) (hd : ∀ d ∈ ds, Tame cfg d.1) :
    (GStacks.rules.runIn cfg ds (⟨⟨[⟨p, m, arg⟩], []⟩, 1⟩, g)).isSome := by
  have hI : HeldInv StackInv mem ⟨[⟨p, m, arg⟩], []⟩ g := by
    refine ⟨stackReady_inv hg, ?_, by simp⟩
    simp only [List.mem_singleton]
    rintro v rfl
    exact view_of_contiguous h hm hc
  obtain ⟨h', s', e, -⟩ := runIn_ok stack_obeys stack_takes cfg ds hd
    (b := ⟨⟨[⟨p, m, arg⟩], []⟩, 1⟩) hI
  rw [e]
  rfl

/-- **C96 for Tree Borrows.** The same in Tree Borrows with protectors. -/
theorem C96_tree_borrows (cfg : Cfg) (m : BaseMatrix) (mem : Mem α) (h : Sound m mem)
    (hm : IsMajor m.layout) (hc : Contiguous m.layout) (p : Nat) (arg : Bool) (T : GTree)
    (hg : GTreeReady p m arg T) (ds : List (Deed × Plan)) (hd : ∀ d ∈ ds, Tame cfg d.1) :
    (GTree.rules.runIn cfg ds (⟨⟨[⟨p, m, arg⟩], []⟩, 1⟩, T)).isSome := by
  have hI : HeldInv TreeInv mem ⟨[⟨p, m, arg⟩], []⟩ T := by
    refine ⟨treeReady_inv hg, ?_, by simp⟩
    simp only [List.mem_singleton]
    rintro v rfl
    exact view_of_contiguous h hm hc
  obtain ⟨h', s', e, -⟩ := runIn_ok tree_obeys tree_takes cfg ds hd
    (b := ⟨⟨[⟨p, m, arg⟩], []⟩, 1⟩) hI
  rw [e]
  rfl

/-- **C96, the four parts, Stacked Borrows.** A matrix that holds its elements inside itself may be
split, whatever is looked up before and after the pointer is got; and the same parts may be used as of
other matrices: those that the later parts do not overlap. -/
theorem C96_split_stacked (cfg : Cfg) (m : BaseMatrix) (mem : Mem α) (h : Sound m mem)
    (R C : Nat) (hl : m.layout = .rowMajor ⟨(R, C)⟩) (s : Nat × Nat) (h1 : 0 < s.1) (h2 : s.1 < R)
    (h3 : 0 < s.2) (h4 : s.2 < C) (p : Nat) (arg : Bool) (g : GStacks) (hg : GStackReady p m arg g)
    (pl : Plan) (us : List QuadUse) (hu : ∀ u ∈ us, QuadUse.InRange R C s u) :
    ∃ q, m.split_in_four_mut cfg s = .ok q ∧
      ((GStacks.rules.splitAndUseIn pl p (windowOf m) (quadWindows q) (us.map (toUse cfg q)) g).isSome ↔
        ∀ u ∈ us, (u.k = 0 → s.1 = 1) ∧ (u.k = 2 → R - s.1 = 1)) := by
  obtain ⟨q, e, hw, hin, hcell⟩ := split_facts cfg h hl h1 h2 h3 h4
  obtain ⟨q', e', hq⟩ := C88_stacked_borrows cfg m mem h R C hl s h1 h2 h3 h4 p arg g hg us hu
  rw [e] at e'
  obtain rfl : q = q' := by simpa using e'
  have hv : ∀ u ∈ us.map (toUse cfg q), u.Valid (quadWindows q) := by
    intro u hu'
    rw [List.mem_map] at hu'
    obtain ⟨v, hv, rfl⟩ := hu'
    exact toUse_valid (hcell v (hu v hv)).2
  have hs : ∀ w ∈ quadWindows q, Sub w (windowOf m) := fun w hw' x hx => by
    obtain ⟨k, rfl⟩ := mem_quadWindows hw'
    exact hin k x hx
  refine ⟨q, e, ?_⟩
  rw [← hq]
  exact (GSplit.splitAndUseIn_iff pl (v0 := ⟨p, windowOf m, arg⟩) (stackReady_inv hg) hs hv).trans
    (GSplit.splitAndUse_iff (v0 := ⟨p, windowOf m, arg⟩) (stackReady_inv hg) hs hv).symm

/-- **C96, the four parts, Tree Borrows.** The same in Tree Borrows. -/
theorem C96_split_tree (cfg : Cfg) (m : BaseMatrix) (mem : Mem α) (h : Sound m mem)
    (R C : Nat) (hl : m.layout = .rowMajor ⟨(R, C)⟩) (s : Nat × Nat) (h1 : 0 < s.1) (h2 : s.1 < R)
    (h3 : 0 < s.2) (h4 : s.2 < C) (p : Nat) (arg : Bool) (T : GTree) (hg : GTreeReady p m arg T)
    (pl : Plan) (us : List QuadUse) (hu : ∀ u ∈ us, QuadUse.InRange R C s u) :
    ∃ q, m.split_in_four_mut cfg s = .ok q ∧
      ((GTree.rules.splitAndUseIn pl p (windowOf m) (quadWindows q) (us.map (toUse cfg q)) T).isSome ↔
        us.Pairwise (fun u v => ¬ Disturbs R s u v)) := by
  obtain ⟨q, e, hw, hin, hcell⟩ := split_facts cfg h hl h1 h2 h3 h4
  obtain ⟨q', e', hq⟩ := C88_tree_borrows cfg m mem h R C hl s h1 h2 h3 h4 p arg T hg us hu
  rw [e] at e'
  obtain rfl : q = q' := by simpa using e'
  have hv : ∀ u ∈ us.map (toUse cfg q), u.Valid (quadWindows q) := by
    intro u hu'
    rw [List.mem_map] at hu'
    obtain ⟨v, hv, rfl⟩ := hu'
    exact toUse_valid (hcell v (hu v hv)).2
  have hs : ∀ w ∈ quadWindows q, Sub w (windowOf m) := fun w hw' x hx => by
    obtain ⟨k, rfl⟩ := mem_quadWindows hw'
    exact hin k x hx
  refine ⟨q, e, ?_⟩
  rw [← hq]
  exact (TSplit.splitAndUseIn_iff pl (v0 := ⟨p, windowOf m, arg⟩) (treeReady_inv hg) hs hv).trans
    (TSplit.splitAndUse_iff (v0 := ⟨p, windowOf m, arg⟩) (treeReady_inv hg) hs hv).symm

end

/-! ## Cases -/

/-- As `block_mut` of a matrix over an array does it: the layout is looked up three times before
(`self.layout()` goes through three methods), the pointer is got through the matrix and what is inside
it, and the strides are looked up afterwards. -/
def crateWay : Plan := ⟨[], [3, 3, 3], [[], []], [3]⟩

/-- Cut finer, with more looked up on the way. -/
def otherWay : Plan := ⟨[[1], [2, 0]], [1], [[4], [], [1, 1]], [2, 5]⟩

example [Target] (cfg : Cfg) (hc : cfg.overflowChecks = true) :
    (GStacks.rules.runIn cfg (exDeeds.map (·, crateWay) ++ exDeeds.map (·, otherWay))
      (⟨⟨[⟨0, exTen, false⟩], []⟩, 1⟩, freshGStacks)).isSome ∧
    (GTree.rules.runIn cfg (exDeeds.map (·, crateWay) ++ exDeeds.map (·, otherWay))
      (⟨⟨[⟨0, exTen, false⟩], []⟩, 1⟩, freshGTree)).isSome := by
  have hd : ∀ d ∈ exDeeds.map (·, crateWay) ++ exDeeds.map (·, otherWay), Tame cfg d.1 := by
    simp [exDeeds, Tame, BlockTame, hc]
  exact ⟨C96_stacked_borrows cfg exTen exTenMem exTen_sound trivial trivial 0 false _
      (freshGStacks_ready _) _ hd,
    C96_tree_borrows cfg exTen exTenMem exTen_sound trivial trivial 0 false _
      (freshGTree_ready _) _ hd⟩

/-- Calls that panic and are caught: the matrix is as usable as before. A block lent out before is not
usable after a `get_mut` that panicked, and the borrow checker does not allow it to be used; after a
`get` that panicked, it is. -/
example [Target] (cfg : Cfg) (pl : Plan) :
    (GStacks.rules.runIn cfg [(.set 10 0, pl), (.get 0 99, pl), (.sliceMut 3 3 [], pl), (.call, pl),
      (.set 0 10, pl), (.set 9 9, pl)] (⟨⟨[⟨0, exTen, false⟩], []⟩, 1⟩, freshGStacks)).isSome :=
  C96_stacked_borrows cfg exTen exTenMem exTen_sound trivial trivial 0 false _
    (freshGStacks_ready _) _ (by simp [Tame])

example : (((GStacks.rules.shrRef 0 ⟨0, 4⟩ freshGStacks).bind fun (b, s) =>
      (GStacks.rules.failMut [[1]] 0 ⟨0, 100⟩ s).bind fun s =>
        GStacks.rules.access false b ⟨1, 1⟩ s).isSome = false) ∧
    (((GStacks.rules.shrRef 0 ⟨0, 4⟩ freshGStacks).bind fun (b, s) =>
      (GStacks.rules.fail [[1]] 0 ⟨0, 100⟩ s).bind fun s =>
        GStacks.rules.access false b ⟨1, 1⟩ s).isSome = true) := by decide +kernel

/-- The crate's test `test_disjoint_slices` with a matrix over an array: undefined too. The right
parts alone are not. -/
example [Target] (pl : Plan) : ∃ q, exTen.split_in_four_mut dbg (5, 5) = .ok q ∧
    (GStacks.rules.splitAndUseIn pl 0 (windowOf exTen) (quadWindows q)
      (testUses.map (toUse dbg q)) ⟨freshStacks, [0]⟩).isSome = false ∧
    (GStacks.rules.splitAndUseIn pl 0 (windowOf exTen) (quadWindows q)
      ([⟨3, 1, 1, true⟩, ⟨1, 0, 2, true⟩].map (toUse dbg q)) ⟨freshStacks, [0]⟩).isSome = true := by
  obtain ⟨q, e, a⟩ := C96_split_stacked dbg exTen exTenMem exTen_sound 10 10 rfl (5, 5)
    (by decide_width) (by decide_width) (by decide_width) (by decide_width) 0 true _
    (paramGStacks_ready _) pl testUses (by decide_width)
  obtain ⟨q', e', b⟩ := C96_split_stacked dbg exTen exTenMem exTen_sound 10 10 rfl (5, 5)
    (by decide_width) (by decide_width) (by decide_width) (by decide_width) 0 true _
    (paramGStacks_ready _) pl [⟨3, 1, 1, true⟩, ⟨1, 0, 2, true⟩] (by decide_width)
  rw [e] at e'
  obtain rfl : q = q' := by simpa using e'
  refine ⟨q, e, ?_, b.2 (by decide_width)⟩
  rw [Bool.eq_false_iff, ne_eq, a]
  intro hc
  exact absurd ((hc ⟨0, 1, 0, true⟩ (by decide_width)).1 rfl) (by decide_width)

example [Target] (pl : Plan) : ∃ q, exTen.split_in_four_mut dbg (5, 5) = .ok q ∧
    (GTree.rules.splitAndUseIn pl 0 (windowOf exTen) (quadWindows q)
      (testUses.map (toUse dbg q)) ⟨fun r => [r], fun _ _ => .active, 1, [0]⟩).isSome = false := by
  obtain ⟨q, e, b⟩ := C96_split_tree dbg exTen exTenMem exTen_sound 10 10 rfl (5, 5)
    (by decide_width) (by decide_width) (by decide_width) (by decide_width) 0 true _
    (paramGTree_ready _) pl testUses (by decide_width)
  refine ⟨q, e, ?_⟩
  rw [Bool.eq_false_iff, ne_eq, b]
  intro hc
  rw [testUses, List.pairwise_cons] at hc
  exact hc.1 ⟨1, 3, 4, true⟩ (by decide_width) ⟨rfl, .inl ⟨rfl, rfl, by decide_width⟩⟩

/-- Where the look comes: after the pointer, after the slice that is made of it, or after a write
through the slice; then the slice is used. -/
def lookAt {S : Type} (R : Rules S) (made written : Bool) (s : S) : Bool :=
  ((R.mutRef 0 ⟨0, 4⟩ s).bind fun (t0, s) =>
    (R.pointerMutIn [[]] t0 ⟨0, 4⟩ (R.enter t0 s)).bind fun (p, s) =>
    (if made then some s else R.look 1 t0 ⟨0, 4⟩ s).bind fun s =>
    (R.mutRef p ⟨1, 2⟩ s).bind fun (r, s) =>
    (if written then R.set r ⟨1, 2⟩ 1 s else some s).bind fun s =>
    (if made then R.look 1 t0 ⟨0, 4⟩ s else some s).bind fun s =>
    (R.leave t0 ⟨0, 4⟩ s).bind fun s => R.set r ⟨1, 2⟩ 1 s).isSome

/-- So it matters that the crate looks before it makes the slice: had it looked afterwards, the slice
would be unusable in Stacked Borrows; in Tree Borrows, what was already written of it could not be
written again. -/
example : lookAt GStacks.rules false false freshGStacks = true ∧
    lookAt GStacks.rules false true freshGStacks = true ∧
    lookAt GStacks.rules true false freshGStacks = false ∧
    lookAt GStacks.rules true true freshGStacks = false := by decide +kernel

example : lookAt GTree.rules false false freshGTree = true ∧
    lookAt GTree.rules false true freshGTree = true ∧
    lookAt GTree.rules true false freshGTree = true ∧
    lookAt GTree.rules true true freshGTree = false := by decide +kernel

end Householder.Props
