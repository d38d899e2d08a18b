import Verif.Props.InlineMul
import Verif.Props.GuardsParts

/-!
# Property C96, continued: products of the parts of a matrix that holds its elements inside itself

The model is in `Verif/Model/InlineMul.lean` (`multiplyPartsIn`).
-/

namespace Householder.Props

open Spec Borrow

variable {α : Type}

section
variable [Target]

/-- **C96, products of parts, Stacked Borrows.** Let a matrix that holds its elements inside itself be
split, whatever is looked up before and after the pointer is got. Multiplying parts into a third is
free of undefined behaviour exactly when none of the three is the top left part, unless that has one
row only, or the bottom left part, unless that has one row only; whatever the kernel does. -/
theorem C96_parts_stacked (cfg : Cfg) (m : BaseMatrix) (mem : Mem α) (h : Sound m mem)
    (R C : Nat) (hl : m.layout = .rowMajor ⟨(R, C)⟩) (s : Nat × Nat) (h1 : 0 < s.1) (h2 : s.1 < R)
    (h3 : 0 < s.2) (h4 : s.2 < C) (p : Nat) (arg : Bool) (g : GStacks) (hg : GStackReady p m arg g)
    (pl : Plan) :
    ∃ q, m.split_in_four_mut cfg s = .ok q ∧
      ∀ ka kb kc, kc ≠ ka → kc ≠ kb →
        Compatible (quad q ka).layout (quad q kb).layout (quad q kc).layout → ∀ us : List Touch,
        ((GStacks.rules.multiplyPartsIn pl p (windowOf m) (quad q) ka kb kc us g).isSome ↔
          ∀ k ∈ [ka, kb, kc], (k = 0 → s.1 = 1) ∧ (k = 2 → R - s.1 = 1)) := by
  obtain ⟨q, e, hq⟩ := split_views cfg h hl h1 h2 h3 h4
  obtain ⟨q', e', hC⟩ := C90_stacked_borrows cfg m mem h R C hl s h1 h2 h3 h4 p arg g hg
  rw [e] at e'
  obtain rfl : q = q' := by simpa using e'
  refine ⟨q, e, fun ka kb kc hca hcb hd us => ?_⟩
  have hw : ∀ w ∈ quadWindows q, Sub w (windowOf m) := fun w hw' x hx => by
    obtain ⟨k, rfl⟩ := mem_quadWindows hw'
    exact (hq k).2.2 x hx
  have hu : ∀ v ∈ us.filterMap (toHit (quad q ka) (quad q kb) (quad q kc)),
      v.In (windowOf (quad q ka)) (windowOf (quad q kb)) (windowOf (quad q kc)) := fun v hv => by
    obtain ⟨u, -, hu⟩ := List.mem_filterMap.1 hv
    exact toHit_in (hq ka).1 (hq kb).1 (hq kc).1 hu
  have a := GSplit.partsHits_iff (v0 := ⟨p, windowOf m, arg⟩) (stackReady_inv hg) hw
    (quadWindows_get q ka) (quadWindows_get q kb) (quadWindows_get q kc)
    (fun h => hca (Fin.ext h)) (fun h => hcb (Fin.ext h)) hu
  obtain ⟨vs, g', e1, m1, hU, hdis⟩ := GSplit.splitIn_using pl (v0 := ⟨p, windowOf m, arg⟩)
    (stackReady_inv hg) hw
  have e1' : GStacks.rules.splitIn pl p (windowOf m) [windowOf (quad q 0), windowOf (quad q 1),
    windowOf (quad q 2), windowOf (quad q 3)] g = some (vs, g') := e1
  rw [← hC ka kb kc hca hcb hd us, multiplyParts_eq GStacks.rules (fun k => (hq k).1) p (windowOf m)
    ka kb kc hd us g, a]
  simp only [Rules.multiplyPartsIn, e1', Option.bind_eq_bind, Option.bind_some]
  rw [multiplyThree_eq GStacks.rules (fun k => (hq k).1) vs ka kb kc hd us]
  exact GSplit.threeHits_iff m1 hU hdis (quadWindows_get q ka) (quadWindows_get q kb)
    (quadWindows_get q kc) (fun h => hca (Fin.ext h)) (fun h => hcb (Fin.ext h)) hu

/-- **C96, products of parts, Tree Borrows.** It is free of undefined behaviour exactly when the kernel
never reads a factor in a cell where it has written the result. -/
theorem C96_parts_tree (cfg : Cfg) (m : BaseMatrix) (mem : Mem α) (h : Sound m mem)
    (R C : Nat) (hl : m.layout = .rowMajor ⟨(R, C)⟩) (s : Nat × Nat) (h1 : 0 < s.1) (h2 : s.1 < R)
    (h3 : 0 < s.2) (h4 : s.2 < C) (p : Nat) (arg : Bool) (T : GTree) (hg : GTreeReady p m arg T)
    (pl : Plan) :
    ∃ q, m.split_in_four_mut cfg s = .ok q ∧
      ∀ ka kb kc, kc ≠ ka → kc ≠ kb →
        Compatible (quad q ka).layout (quad q kb).layout (quad q kc).layout → ∀ us : List Touch,
        ((GTree.rules.multiplyPartsIn pl p (windowOf m) (quad q) ka kb kc us T).isSome ↔
          us.Pairwise fun u v => ¬ Ruins (quad q ka) (quad q kb) (quad q kc) u v) := by
  obtain ⟨q, e, hq⟩ := split_views cfg h hl h1 h2 h3 h4
  obtain ⟨q', e', hC⟩ := C90_tree_borrows cfg m mem h R C hl s h1 h2 h3 h4 p arg T hg
  rw [e] at e'
  obtain rfl : q = q' := by simpa using e'
  refine ⟨q, e, fun ka kb kc hca hcb hd us => ?_⟩
  have hw : ∀ w ∈ quadWindows q, Sub w (windowOf m) := fun w hw' x hx => by
    obtain ⟨k, rfl⟩ := mem_quadWindows hw'
    exact (hq k).2.2 x hx
  have hu : ∀ v ∈ us.filterMap (toHit (quad q ka) (quad q kb) (quad q kc)),
      v.In (windowOf (quad q ka)) (windowOf (quad q kb)) (windowOf (quad q kc)) := fun v hv => by
    obtain ⟨u, -, hu⟩ := List.mem_filterMap.1 hv
    exact toHit_in (hq ka).1 (hq kb).1 (hq kc).1 hu
  have a := TSplit.partsHits_iff (v0 := ⟨p, windowOf m, arg⟩) (treeReady_inv hg) hw
    (quadWindows_get q ka) (quadWindows_get q kb) (quadWindows_get q kc) hu
  obtain ⟨vs, T', A, e1, m1, hU, hdis, hperm⟩ := TSplit.splitIn_using pl
    (v0 := ⟨p, windowOf m, arg⟩) (treeReady_inv hg) hw
  have e1' : GTree.rules.splitIn pl p (windowOf m) [windowOf (quad q 0), windowOf (quad q 1),
    windowOf (quad q 2), windowOf (quad q 3)] T = some (vs, T') := e1
  rw [← hC ka kb kc hca hcb hd us, multiplyParts_eq GTree.rules (fun k => (hq k).1) p (windowOf m)
    ka kb kc hd us T, a]
  simp only [Rules.multiplyPartsIn, e1', Option.bind_eq_bind, Option.bind_some]
  rw [multiplyThree_eq GTree.rules (fun k => (hq k).1) vs ka kb kc hd us]
  exact TSplit.threeHits_iff m1 hU hdis hperm (quadWindows_get q ka) (quadWindows_get q kb)
    (quadWindows_get q kc) hu

end

/-! ## Cases -/

/-- One look after the pointer has been got. -/
def shortWay : Plan := ⟨[], [], [[]], [1]⟩

/-- The 10 × 10 matrix with its elements inside, split in the middle: the square of the bottom right
part may be stored in the top right part; the top left part may not be used in Stacked Borrows; in
Tree Borrows its square may be stored in the bottom left part but not in the top right one. -/
example : (GStacks.rules.multiplyPartsIn shortWay 0 ⟨0, 100⟩ exParts 3 3 1
      [.c 0 0 true, .a 4 4, .b 0 0, .c 4 4 true, .a 0 0] ⟨freshStacks, [0]⟩).isSome = true ∧
    (GStacks.rules.multiplyPartsIn shortWay 0 ⟨0, 100⟩ exParts 3 0 1 []
      ⟨freshStacks, [0]⟩).isSome = false ∧
    (GTree.rules.multiplyPartsIn shortWay 0 ⟨0, 100⟩ exParts 0 0 2
      [.c 0 0 true, .a 4 4, .b 0 0, .c 4 4 true, .a 0 0]
      ⟨fun r => [r], fun _ _ => .active, 1, [0]⟩).isSome = true ∧
    (GTree.rules.multiplyPartsIn shortWay 0 ⟨0, 100⟩ exParts 0 0 1
      [.c 0 0 true, .a 1 0] ⟨fun r => [r], fun _ _ => .active, 1, [0]⟩).isSome = false := by
  refine ⟨by decide +kernel, by decide +kernel, by decide +kernel, by decide +kernel⟩

/-- The hypotheses hold of a matrix that is a parameter, whatever the plan. -/
example [Target] (pl : Plan) (us : List Touch) : ∃ q, exTen.split_in_four_mut dbg (5, 5) = .ok q ∧
    ∀ ka kb kc, kc ≠ ka → kc ≠ kb →
      Compatible (quad q ka).layout (quad q kb).layout (quad q kc).layout →
      ((GStacks.rules.multiplyPartsIn pl 0 (windowOf exTen) (quad q) ka kb kc us
        ⟨freshStacks, [0]⟩).isSome ↔ ∀ k ∈ [ka, kb, kc], k = 1 ∨ k = 3) := by
  obtain ⟨q, e, h⟩ := C96_parts_stacked dbg exTen exTenMem exTen_sound 10 10 rfl (5, 5)
    (by decide) (by decide) (by decide) (by decide) 0 true ⟨freshStacks, [0]⟩ (paramGStacks_ready _) pl
  refine ⟨q, e, fun ka kb kc hca hcb hd => ?_⟩
  rw [h ka kb kc hca hcb hd us]
  have : ∀ k : Fin 4, ((k = 0 → (5, 5).1 = 1) ∧ (k = 2 → 10 - (5, 5).1 = 1)) ↔ k = 1 ∨ k = 3 := by decide
  simp only [this]

example [Target] (pl : Plan) (us : List Touch) : ∃ q, exTen.split_in_four_mut dbg (5, 5) = .ok q ∧
    ∀ ka kb kc, kc ≠ ka → kc ≠ kb →
      Compatible (quad q ka).layout (quad q kb).layout (quad q kc).layout →
      ((GTree.rules.multiplyPartsIn pl 0 (windowOf exTen) (quad q) ka kb kc us
        ⟨fun r => [r], fun _ _ => .active, 1, [0]⟩).isSome ↔
          us.Pairwise fun u v => ¬ Ruins (quad q ka) (quad q kb) (quad q kc) u v) := by
  obtain ⟨q, e, h⟩ := C96_parts_tree dbg exTen exTenMem exTen_sound 10 10 rfl (5, 5)
    (by decide) (by decide) (by decide) (by decide) 0 true _ (paramGTree_ready _) pl
  exact ⟨q, e, fun ka kb kc hca hcb hd => h ka kb kc hca hcb hd us⟩

end Householder.Props
