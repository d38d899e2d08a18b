import Verif.Lemmas.GuardsSplitTree
import Verif.Props.Guards

/-!
# Property C88: the four parts of a split matrix, with protectors

C68 and C69 start at the pointer of the matrix and leave protectors out. Here the program holds the
matrix itself, which may be a protected parameter of the function that is running, and the calls of
`as_mut_ptr` and `get_unchecked_mut` protect their parameters (`Verif/Model/GuardsSplit.lean`).
-/

namespace Householder.Props

open Spec Borrow

variable {α : Type}

theorem stackReady_inv {p : Nat} {m : BaseMatrix} {arg : Bool} {g : GStacks}
    (hg : GStackReady p m arg g) : StackInv g [⟨p, windowOf m, arg⟩] [] := by
  refine ⟨hg.ordered, hg.fresh, ?_, by simp, by simp, ?_, by simp, by simp, ?_⟩
  · simp only [List.mem_singleton, List.not_mem_nil, or_false]
    rintro v rfl
    exact hg.tag
  · simp only [List.mem_singleton]
    rintro v rfl
    exact hg.granted
  · intro r hr
    obtain ⟨ha, rfl⟩ := hg.prot r hr
    exact ⟨_, .inl (List.mem_singleton.2 rfl), ha, rfl⟩

theorem treeReady_inv {p : Nat} {m : BaseMatrix} {arg : Bool} {T : GTree}
    (hg : GTreeReady p m arg T) : TreeInv T [⟨p, windowOf m, arg⟩] [] := by
  refine ⟨hg.fresh, ?_, by simp, by simp, ?_, by simp, by simp, ?_⟩
  · simp only [List.mem_singleton, List.not_mem_nil, or_false]
    rintro v rfl
    exact hg.tag
  · simp only [List.mem_singleton]
    rintro v rfl
    exact hg.writable
  · intro r hr
    obtain ⟨ha, rfl⟩ := hg.prot r hr
    exact ⟨_, .inl (List.mem_singleton.2 rfl), ha, rfl⟩

theorem mem_quadWindows {q : BaseMatrix × BaseMatrix × BaseMatrix × BaseMatrix} {w : Window}
    (h : w ∈ quadWindows q) : ∃ k, w = windowOf (quad q k) := by
  simp only [quadWindows, List.mem_cons, List.not_mem_nil, or_false] at h
  rcases h with h | h | h | h
  exacts [⟨0, h⟩, ⟨1, h⟩, ⟨2, h⟩, ⟨3, h⟩]

section

variable [Target]

/-- **C88, Stacked Borrows.** With protectors, and starting at the reference of the matrix, which may
be a parameter, a sequence of element accesses through the four parts of `split_in_four_mut` is free
of undefined behaviour exactly when it never uses the top left part, unless that has one row only, nor
the bottom left part, unless that has one row only. -/
theorem C88_stacked_borrows (cfg : Cfg) (m : BaseMatrix) (mem : Mem α) (h : Sound m mem)
    (R C : Nat) (hl : m.layout = .rowMajor ⟨(R, C)⟩) (s : Nat × Nat) (h1 : 0 < s.1) (h2 : s.1 < R)
    (h3 : 0 < s.2) (h4 : s.2 < C) (p : Nat) (arg : Bool) (g : GStacks) (hg : GStackReady p m arg g)
    (us : List QuadUse) (hu : ∀ u ∈ us, QuadUse.InRange R C s u) :
    ∃ q, m.split_in_four_mut cfg s = .ok q ∧
      ((GStacks.rules.splitAndUse p (windowOf m) (quadWindows q) (us.map (toUse cfg q)) g).isSome ↔
        ∀ u ∈ us, (u.k = 0 → s.1 = 1) ∧ (u.k = 2 → R - s.1 = 1)) := by
  obtain ⟨q, e, hw, hin, hcell⟩ := split_facts cfg h hl h1 h2 h3 h4
  obtain ⟨q', e', hq⟩ := C68_stacked_borrows_partial cfg m mem h R C hl s h1 h2 h3 h4 0 freshStacks
    (freshStacks_ready m) us hu
  rw [e] at e'
  obtain rfl : q = q' := by simpa using e'
  have hv : ∀ u ∈ us.map (toUse cfg q), u.Valid (quadWindows q) := by
    intro u hu'
    rw [List.mem_map] at hu'
    obtain ⟨v, hv, rfl⟩ := hu'
    exact toUse_valid (hcell v (hu v hv)).2
  refine ⟨q, e, ?_⟩
  rw [← hq]
  have a := GSplit.splitAndUse_iff (v0 := ⟨p, windowOf m, arg⟩) (stackReady_inv hg) (ws := quadWindows q)
    (fun w hw' x hx => by obtain ⟨k, rfl⟩ := mem_quadWindows hw'; exact hin k x hx) hv
  have b := Stacks.splitAndUse_iff (p := 0) (ws := quadWindows q) (s := freshStacks)
    (freshStacks_ready m).tag (freshStacks_ready m).fresh
    (fun w hw' x hx => by
      obtain ⟨k, rfl⟩ := mem_quadWindows hw'
      exact (freshStacks_ready m).top x (hin k x hx)) hv
  exact a.trans b.symm

/-- **C88, Tree Borrows.** The same for Tree Borrows with protectors: free of undefined behaviour
exactly when no use follows a write, through the neighbouring part in the same half, to a row between
the first and the last element of its own part. -/
theorem C88_tree_borrows (cfg : Cfg) (m : BaseMatrix) (mem : Mem α) (h : Sound m mem)
    (R C : Nat) (hl : m.layout = .rowMajor ⟨(R, C)⟩) (s : Nat × Nat) (h1 : 0 < s.1) (h2 : s.1 < R)
    (h3 : 0 < s.2) (h4 : s.2 < C) (p : Nat) (arg : Bool) (T : GTree) (hg : GTreeReady p m arg T)
    (us : List QuadUse) (hu : ∀ u ∈ us, QuadUse.InRange R C s u) :
    ∃ q, m.split_in_four_mut cfg s = .ok q ∧
      ((GTree.rules.splitAndUse p (windowOf m) (quadWindows q) (us.map (toUse cfg q)) T).isSome ↔
        us.Pairwise (fun u v => ¬ Disturbs R s u v)) := by
  obtain ⟨q, e, hw, hin, hcell⟩ := split_facts cfg h hl h1 h2 h3 h4
  obtain ⟨q', e', hq⟩ := C69_tree_borrows_partial cfg m mem h R C hl s h1 h2 h3 h4 0 freshTree
    (freshTree_ready m) us hu
  rw [e] at e'
  obtain rfl : q = q' := by simpa using e'
  have hv : ∀ u ∈ us.map (toUse cfg q), u.Valid (quadWindows q) := by
    intro u hu'
    rw [List.mem_map] at hu'
    obtain ⟨v, hv, rfl⟩ := hu'
    exact toUse_valid (hcell v (hu v hv)).2
  refine ⟨q, e, ?_⟩
  rw [← hq]
  have a := TSplit.splitAndUse_iff (v0 := ⟨p, windowOf m, arg⟩) (treeReady_inv hg) (ws := quadWindows q)
    (fun w hw' x hx => by obtain ⟨k, rfl⟩ := mem_quadWindows hw'; exact hin k x hx) hv
  have b := Tree.splitAndUse_iff (p := 0) (ws := quadWindows q) (T := freshTree)
    (freshTree_ready m).tag (freshTree_ready m).fresh
    (fun w hw' x hx => by
      obtain ⟨k, rfl⟩ := mem_quadWindows hw'
      exact (freshTree_ready m).writable x (hin k x hx)) hv
  exact a.trans b.symm

/-- **C88, protectors make no difference**: whatever the two states the models start in, with and
without protectors, and whether the matrix is a parameter or not, they accept the same sequences. -/
theorem C88_no_difference (cfg : Cfg) (m : BaseMatrix) (mem : Mem α) (h : Sound m mem)
    (R C : Nat) (hl : m.layout = .rowMajor ⟨(R, C)⟩) (s : Nat × Nat) (h1 : 0 < s.1) (h2 : s.1 < R)
    (h3 : 0 < s.2) (h4 : s.2 < C) (us : List QuadUse) (hu : ∀ u ∈ us, QuadUse.InRange R C s u) :
    ∃ q, m.split_in_four_mut cfg s = .ok q ∧
      (∀ (p p' : Nat) (arg : Bool) (g : GStacks) (st : Stacks), GStackReady p m arg g →
        StackReady p' m st →
        ((GStacks.rules.splitAndUse p (windowOf m) (quadWindows q) (us.map (toUse cfg q)) g).isSome ↔
          (st.splitAndUse p' (quadWindows q) (us.map (toUse cfg q))).isSome)) ∧
      (∀ (p p' : Nat) (arg : Bool) (T : GTree) (T' : Tree), GTreeReady p m arg T →
        TreeReady p' m T' →
        ((GTree.rules.splitAndUse p (windowOf m) (quadWindows q) (us.map (toUse cfg q)) T).isSome ↔
          (T'.splitAndUse p' (quadWindows q) (us.map (toUse cfg q))).isSome)) := by
  obtain ⟨q, e, -⟩ := split_facts cfg h hl h1 h2 h3 h4
  refine ⟨q, e, fun p p' arg g st hg hs => ?_, fun p p' arg T T' hg hs => ?_⟩
  · obtain ⟨q1, e1, a⟩ := C88_stacked_borrows cfg m mem h R C hl s h1 h2 h3 h4 p arg g hg us hu
    obtain ⟨q2, e2, b⟩ := C68_stacked_borrows_partial cfg m mem h R C hl s h1 h2 h3 h4 p' st hs us hu
    rw [e] at e1 e2
    obtain rfl : q = q1 := by simpa using e1
    obtain rfl : q = q2 := by simpa using e2
    exact a.trans b.symm
  · obtain ⟨q1, e1, a⟩ := C88_tree_borrows cfg m mem h R C hl s h1 h2 h3 h4 p arg T hg us hu
    obtain ⟨q2, e2, b⟩ := C69_tree_borrows_partial cfg m mem h R C hl s h1 h2 h3 h4 p' T' hs us hu
    rw [e] at e1 e2
    obtain rfl : q = q1 := by simpa using e1
    obtain rfl : q = q2 := by simpa using e2
    exact a.trans b.symm

/-- The crate's test `test_disjoint_slices` (src/matrix/matrix_slices.rs:193-205) is undefined
behaviour under both models with protectors, from every state. -/
theorem C88_test_undefined (p : Nat) (arg : Bool) (g : GStacks) (T : GTree)
    (hg : GStackReady p exTen arg g) (hT : GTreeReady p exTen arg T) :
    ∃ q, exTen.split_in_four_mut dbg (5, 5) = .ok q ∧
      GStacks.rules.splitAndUse p (windowOf exTen) (quadWindows q) (testUses.map (toUse dbg q)) g =
        none ∧
      GTree.rules.splitAndUse p (windowOf exTen) (quadWindows q) (testUses.map (toUse dbg q)) T =
        none := by
  obtain ⟨q, e, a⟩ := C88_stacked_borrows dbg exTen exTenMem exTen_sound 10 10 rfl (5, 5)
    (by decide_width) (by decide_width) (by decide_width) (by decide_width) p arg g hg testUses
    (by decide_width)
  obtain ⟨q', e', b⟩ := C88_tree_borrows dbg exTen exTenMem exTen_sound 10 10 rfl (5, 5)
    (by decide_width) (by decide_width) (by decide_width) (by decide_width) p arg T hT testUses
    (by decide_width)
  rw [e] at e'
  obtain rfl : q = q' := by simpa using e'
  refine ⟨q, e, ?_, ?_⟩
  · rw [← Option.not_isSome_iff_eq_none, a]
    intro hc
    exact absurd ((hc ⟨0, 1, 0, true⟩ (by decide_width)).1 rfl) (by decide_width)
  · rw [← Option.not_isSome_iff_eq_none, b]
    intro hc
    rw [testUses, List.pairwise_cons] at hc
    exact hc.1 ⟨1, 3, 4, true⟩ (by decide_width) ⟨rfl, .inl ⟨rfl, rfl, by decide_width⟩⟩

end

/-! ## Cases -/

/-- A matrix that is a parameter of the function that splits it, in both models. -/
theorem paramGStacks_ready (m : BaseMatrix) : GStackReady 0 m true ⟨freshStacks, [0]⟩ :=
  ⟨by decide, by simp [freshStacks], by simp [freshStacks],
    fun _ _ => ⟨⟨.unique, 0⟩, by simp [freshStacks], rfl, trivial⟩, by simp⟩

theorem paramGTree_ready (m : BaseMatrix) :
    GTreeReady 0 m true ⟨fun r => [r], fun _ _ => .active, 1, [0]⟩ :=
  ⟨by decide, by simp, by simp, by simp⟩

/-- Concretely, for the 10 × 10 matrix as a parameter: the right parts may be used in any order; a
write to the top left part is undefined behaviour in Stacked Borrows at once, in Tree Borrows when the
top right part is used afterwards. -/
example : (GStacks.rules.splitAndUse 0 ⟨0, 100⟩ [⟨0, 45⟩, ⟨5, 45⟩, ⟨50, 45⟩, ⟨55, 45⟩]
      [⟨1, 39, true⟩, ⟨3, 97, true⟩, ⟨1, 5, false⟩] ⟨freshStacks, [0]⟩).isSome = true ∧
    (GStacks.rules.splitAndUse 0 ⟨0, 100⟩ [⟨0, 45⟩, ⟨5, 45⟩, ⟨50, 45⟩, ⟨55, 45⟩]
      [⟨0, 10, true⟩] ⟨freshStacks, [0]⟩).isSome = false ∧
    (GTree.rules.splitAndUse 0 ⟨0, 100⟩ [⟨0, 45⟩, ⟨5, 45⟩, ⟨50, 45⟩, ⟨55, 45⟩]
      [⟨0, 10, true⟩] ⟨fun r => [r], fun _ _ => .active, 1, [0]⟩).isSome = true ∧
    (GTree.rules.splitAndUse 0 ⟨0, 100⟩ [⟨0, 45⟩, ⟨5, 45⟩, ⟨50, 45⟩, ⟨55, 45⟩]
      [⟨0, 10, true⟩, ⟨1, 39, true⟩] ⟨fun r => [r], fun _ _ => .active, 1, [0]⟩).isSome = false := by
  refine ⟨by decide +kernel, by decide +kernel, by decide +kernel, by decide +kernel⟩

/-- Writing to the right parts in turn: defined in both models, with the matrix a parameter. Writing to
the second row of the top left part: undefined in Stacked Borrows, and defined in Tree Borrows as long as
the top right part is not used afterwards. -/
example [Target] : ∃ q, exTen.split_in_four_mut dbg (5, 5) = .ok q ∧
    (GStacks.rules.splitAndUse 0 (windowOf exTen) (quadWindows q)
      ([⟨3, 1, 1, true⟩, ⟨1, 0, 2, true⟩].map (toUse dbg q)) ⟨freshStacks, [0]⟩).isSome ∧
    (GStacks.rules.splitAndUse 0 (windowOf exTen) (quadWindows q)
      ([⟨0, 1, 0, true⟩].map (toUse dbg q)) ⟨freshStacks, [0]⟩).isSome = false := by
  obtain ⟨q, e, a⟩ := C88_stacked_borrows dbg exTen exTenMem exTen_sound 10 10 rfl (5, 5)
    (by decide_width) (by decide_width) (by decide_width) (by decide_width) 0 true _
    (paramGStacks_ready _) [⟨3, 1, 1, true⟩, ⟨1, 0, 2, true⟩] (by decide_width)
  obtain ⟨q', e', b⟩ := C88_stacked_borrows dbg exTen exTenMem exTen_sound 10 10 rfl (5, 5)
    (by decide_width) (by decide_width) (by decide_width) (by decide_width) 0 true _
    (paramGStacks_ready _) [⟨0, 1, 0, true⟩] (by decide_width)
  rw [e] at e'
  obtain rfl : q = q' := by simpa using e'
  refine ⟨q, e, a.2 (by decide_width), ?_⟩
  rw [Bool.eq_false_iff, ne_eq, b]
  exact fun hc => absurd ((hc ⟨0, 1, 0, true⟩ (by decide_width)).1 rfl) (by decide_width)

example [Target] : ∃ q, exTen.split_in_four_mut dbg (5, 5) = .ok q ∧
    (GTree.rules.splitAndUse 0 (windowOf exTen) (quadWindows q)
      ([⟨0, 1, 0, true⟩, ⟨3, 1, 1, true⟩].map (toUse dbg q)) freshGTree).isSome ∧
    (GTree.rules.splitAndUse 0 (windowOf exTen) (quadWindows q)
      ([⟨0, 1, 0, true⟩, ⟨1, 1, 1, false⟩].map (toUse dbg q)) freshGTree).isSome = false := by
  obtain ⟨q, e, a⟩ := C88_tree_borrows dbg exTen exTenMem exTen_sound 10 10 rfl (5, 5)
    (by decide_width) (by decide_width) (by decide_width) (by decide_width) 0 false _
    (freshGTree_ready _) [⟨0, 1, 0, true⟩, ⟨3, 1, 1, true⟩] (by decide_width)
  obtain ⟨q', e', b⟩ := C88_tree_borrows dbg exTen exTenMem exTen_sound 10 10 rfl (5, 5)
    (by decide_width) (by decide_width) (by decide_width) (by decide_width) 0 false _
    (freshGTree_ready _) [⟨0, 1, 0, true⟩, ⟨1, 1, 1, false⟩] (by decide_width)
  rw [e] at e'
  obtain rfl : q = q' := by simpa using e'
  refine ⟨q, e, a.2 (by simp [Disturbs]), ?_⟩
  rw [Bool.eq_false_iff, ne_eq, b]
  simp [Disturbs]

end Householder.Props
