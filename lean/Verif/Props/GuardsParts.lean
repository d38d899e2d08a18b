import Verif.Lemmas.GuardsParts
import Verif.Props.GuardsMul
import Verif.Props.MatMul

/-!
# Property C90: products of the parts of one split matrix, under the aliasing rules

C47 says for which parts the kernel gets operands that alias. Here the references are followed too
(`multiplyParts` in `Verif/Model/GuardsMul.lean`).
-/

namespace Householder.Props

open Spec Borrow

variable {α : Type}

/-- The second access of the kernel reads a factor in the cell where the first wrote the result. -/
def Ruins (a b c : BaseMatrix) : Touch → Touch → Prop
  | .c i j true, .a i' l => (i < c.layout.dim.1 ∧ j < c.layout.dim.2) ∧
      (i' < a.layout.dim.1 ∧ l < a.layout.dim.2) ∧ seen c i j = seen a i' l
  | .c i j true, .b l j' => (i < c.layout.dim.1 ∧ j < c.layout.dim.2) ∧
      (l < b.layout.dim.1 ∧ j' < b.layout.dim.2) ∧ seen c i j = seen b l j'
  | _, _ => False

/-- The cells that the kernel accesses. -/
def toHit (a b c : BaseMatrix) : Touch → Option Hit
  | .a i l => if i < a.layout.dim.1 ∧ l < a.layout.dim.2 then some (.a (seen a i l).idx) else none
  | .b l j => if l < b.layout.dim.1 ∧ j < b.layout.dim.2 then some (.b (seen b l j).idx) else none
  | .c i j w => if i < c.layout.dim.1 ∧ j < c.layout.dim.2 then some (.c (seen c i j).idx w) else none

section

variable [Target]

theorem toHit_in {a b c : BaseMatrix} {mem : Mem α} (ha : View a mem) (hb : View b mem)
    (hc : View c mem) {u : Touch} {v : Hit} (h : toHit a b c u = some v) :
    v.In (windowOf a) (windowOf b) (windowOf c) := by
  cases u <;> simp only [toHit] at h <;> split at h <;> simp only [Option.some.injEq, reduceCtorEq] at h <;>
    subst h
  · exact (touch_in GTree.rules ha 0 false ‹_›).1
  · exact (touch_in GTree.rules hb 0 false ‹_›).1
  · exact (touch_in GTree.rules hc 0 false ‹_›).1

/-- The kernel, as accesses to cells. -/
theorem kernel_hits {S : Type} (R : Rules S) {a b c : BaseMatrix} {mem : Mem α} (ha : View a mem)
    (hb : View b mem) (hc : View c mem) (ta tb tc : Nat) (us : List Touch) :
    ∀ h : Nat → Held × S, (R.kernel ⟨0, ta, a⟩ ⟨0, tb, b⟩ ⟨0, tc, c⟩ us h).map (fun h => (h 0).2) =
      hits R ta tb tc (us.filterMap (toHit a b c)) (h 0).2 := by
  have p0 : ∀ (h : Nat → Held × S) (s : S), (put 0 s h 0).2 = s := fun h s => by simp [put]
  induction us with
  | nil => intro h; rfl
  | cons u us ih =>
    intro h
    cases u with
    | a i l =>
      by_cases hij : i < a.layout.dim.1 ∧ l < a.layout.dim.2
      · simp only [Rules.kernel, (touch_in R ha ta false hij).2, toHit, hij, and_self, if_true,
          List.filterMap_cons, hits, Option.bind_eq_bind]
        cases R.access false ta (.one (seen a i l).idx) (h 0).2 with
        | none => rfl
        | some s => simp only [Option.bind_some, ih, p0]
      · simp only [Rules.kernel, touch_out R a ta false hij, toHit, hij, if_false,
          List.filterMap_cons, Option.bind_eq_bind, Option.bind_some, ih, p0]
    | b i l =>
      by_cases hij : i < b.layout.dim.1 ∧ l < b.layout.dim.2
      · simp only [Rules.kernel, (touch_in R hb tb false hij).2, toHit, hij, and_self, if_true,
          List.filterMap_cons, hits, Option.bind_eq_bind]
        cases R.access false tb (.one (seen b i l).idx) (h 0).2 with
        | none => rfl
        | some s => simp only [Option.bind_some, ih, p0]
      · simp only [Rules.kernel, touch_out R b tb false hij, toHit, hij, if_false,
          List.filterMap_cons, Option.bind_eq_bind, Option.bind_some, ih, p0]
    | c i l w =>
      by_cases hij : i < c.layout.dim.1 ∧ l < c.layout.dim.2
      · simp only [Rules.kernel, (touch_in R hc tc w hij).2, toHit, hij, and_self, if_true,
          List.filterMap_cons, hits, Option.bind_eq_bind]
        cases R.access w tc (.one (seen c i l).idx) (h 0).2 with
        | none => rfl
        | some s => simp only [Option.bind_some, ih, p0]
      · simp only [Rules.kernel, touch_out R c tc w hij, toHit, hij, if_false,
          List.filterMap_cons, Option.bind_eq_bind, Option.bind_some, ih, p0]

theorem multiplyThree_eq {S : Type} (R : Rules S) {mem : Mem α}
    {q : BaseMatrix × BaseMatrix × BaseMatrix × BaseMatrix} (hq : ∀ k, View (quad q k) mem)
    (vs : List (Nat × Window)) (ka kb kc : Fin 4)
    (hd : Compatible (quad q ka).layout (quad q kb).layout (quad q kc).layout) (us : List Touch)
    (s : S) : R.multiplyThree vs (quad q) ka kb kc us s =
      threeHits R vs ka kb kc (us.filterMap (toHit (quad q ka) (quad q kb) (quad q kc))) s := by
  simp only [Rules.multiplyThree, threeHits]
  cases vs[ka.val]? <;> cases vs[kb.val]? <;> cases vs[kc.val]? <;> try rfl
  · rename_i va vb vc
    simp only
    rw [if_pos (show _ ∧ _ from hd)]
    congr 1
    funext ⟨pa, s3⟩
    simp only
    congr 1
    funext ⟨pb, s4⟩
    simp only
    congr 1
    funext ⟨pc, s5⟩
    simp only
    rw [← kernel_hits R (hq ka) (hq kb) (hq kc) pa pb pc us fun _ => (⟨[], []⟩, s5)]
    rw [Option.map_eq_bind]
    rfl

theorem multiplyParts_eq {S : Type} (R : Rules S) {mem : Mem α}
    {q : BaseMatrix × BaseMatrix × BaseMatrix × BaseMatrix} (hq : ∀ k, View (quad q k) mem) (t : Nat)
    (w : Window) (ka kb kc : Fin 4)
    (hd : Compatible (quad q ka).layout (quad q kb).layout (quad q kc).layout) (us : List Touch)
    (s : S) : R.multiplyParts t w (quad q) ka kb kc us s =
      partsHits R t w (quadWindows q) ka kb kc
        (us.filterMap (toHit (quad q ka) (quad q kb) (quad q kc))) s := by
  simp only [Rules.multiplyParts, partsHits, multiplyThree_eq R hq _ ka kb kc hd us]
  rfl

/-- The parts of a split matrix. -/
theorem split_views (cfg : Cfg) {m : BaseMatrix} {mem : Mem α} (h : Sound m mem)
    {R C : Nat} (hl : m.layout = .rowMajor ⟨(R, C)⟩) {s : Nat × Nat} (h1 : 0 < s.1) (h2 : s.1 < R)
    (h3 : 0 < s.2) (h4 : s.2 < C) :
    ∃ q, m.split_in_four_mut cfg s = .ok q ∧
      ∀ k, View (quad q k) mem ∧ (quad q k).data.buf = m.data.buf ∧
        ∀ x, (windowOf (quad q k)).Has x → (windowOf m).Has x := by
  obtain ⟨q, e, hb⟩ := split_blocks cfg h hl h1 h2 h3 h4
  obtain ⟨q', e', -, hin, -⟩ := split_facts cfg h hl h1 h2 h3 h4
  rw [e] at e'
  obtain rfl : q = q' := by simpa using e'
  have hm : IsMajor m.layout := by rw [hl]; trivial
  have hcon : Contiguous m.layout := by rw [hl]; trivial
  refine ⟨q, e, fun k => ?_⟩
  obtain ⟨hk, hf, f1, f2⟩ := hb k
  obtain ⟨b', e', hv, -, hlb, hd, hno, -⟩ := (view_of_contiguous h hm hcon).block cfg hf f1 f2
  rw [hk] at e'
  obtain rfl : quad q k = b' := by simpa using e'
  exact ⟨hv, by rw [hd], hin k⟩

/-- **C90, Stacked Borrows.** Multiplying parts of a split matrix into a third is free of undefined
behaviour exactly when neither of the factors nor the result is the top left part, unless that has one
row only, or the bottom left part, unless that has one row only; whatever the kernel does. -/
theorem C90_stacked_borrows (cfg : Cfg) (m : BaseMatrix) (mem : Mem α) (h : Sound m mem)
    (R C : Nat) (hl : m.layout = .rowMajor ⟨(R, C)⟩) (s : Nat × Nat) (h1 : 0 < s.1) (h2 : s.1 < R)
    (h3 : 0 < s.2) (h4 : s.2 < C) (p : Nat) (arg : Bool) (g : GStacks) (hg : GStackReady p m arg g) :
    ∃ q, m.split_in_four_mut cfg s = .ok q ∧
      ∀ ka kb kc, kc ≠ ka → kc ≠ kb →
        Compatible (quad q ka).layout (quad q kb).layout (quad q kc).layout → ∀ us : List Touch,
        ((GStacks.rules.multiplyParts p (windowOf m) (quad q) ka kb kc us g).isSome ↔
          ∀ k ∈ [ka, kb, kc], (k = 0 → s.1 = 1) ∧ (k = 2 → R - s.1 = 1)) := by
  obtain ⟨q, e, hq⟩ := split_views cfg h hl h1 h2 h3 h4
  refine ⟨q, e, fun ka kb kc hca hcb hd us => ?_⟩
  have hlate : ∀ k : Fin 4, ¬ GSplit.Late (quadWindows q) k ↔
      (k = 0 → s.1 = 1) ∧ (k = 2 → R - s.1 = 1) := by
    intro k
    have hr : ∀ u ∈ [(⟨k, 0, 0, false⟩ : QuadUse)], QuadUse.InRange R C s u := by
      simp only [List.mem_singleton]
      rintro u rfl
      simp only [QuadUse.InRange]
      match k with
      | 0 | 1 | 2 | 3 => simp only [shape]; omega
    obtain ⟨q', e', hu⟩ := C88_stacked_borrows cfg m mem h R C hl s h1 h2 h3 h4 p arg g hg
      [⟨k, 0, 0, false⟩] hr
    rw [e] at e'
    obtain rfl : q = q' := by simpa using e'
    obtain ⟨q', e', -, hin, hcell⟩ := split_facts cfg h hl h1 h2 h3 h4
    rw [e] at e'
    obtain rfl : q = q' := by simpa using e'
    have hv : ∀ u ∈ [(⟨k, 0, 0, false⟩ : QuadUse)].map (toUse cfg q), u.Valid (quadWindows q) := by
      intro u hu'
      rw [List.mem_map] at hu'
      obtain ⟨v, hv, rfl⟩ := hu'
      exact toUse_valid (hcell v (hr v hv)).2
    have a := GSplit.splitAndUse_iff (v0 := ⟨p, windowOf m, arg⟩) (stackReady_inv hg)
      (ws := quadWindows q)
      (fun w hw' x hx => by obtain ⟨k, rfl⟩ := mem_quadWindows hw'; exact hin k x hx) hv
    rw [a] at hu
    simp only [List.map_cons, List.map_nil, List.mem_singleton, forall_eq, toUse] at hu
    rw [← hu]
    constructor
    · rintro hn w hw j w' hj hj' hm
      exact hn ⟨w, hw, j, w', hj, hj', hm⟩
    · rintro hn ⟨w, hw, j, w', hj, hj', hm⟩
      exact hn w hw j w' hj hj' hm
  rw [multiplyParts_eq GStacks.rules (fun k => (hq k).1) p (windowOf m) ka kb kc hd us g,
    GSplit.partsHits_iff (v0 := ⟨p, windowOf m, arg⟩) (stackReady_inv hg)
      (fun w hw' x hx => by obtain ⟨k, rfl⟩ := mem_quadWindows hw'; exact (hq k).2.2 x hx)
      (quadWindows_get q ka) (quadWindows_get q kb) (quadWindows_get q kc)
      (fun h => hca (Fin.ext h)) (fun h => hcb (Fin.ext h))
      (fun v hv => by
        obtain ⟨u, -, hu⟩ := List.mem_filterMap.1 hv
        exact toHit_in (hq ka).1 (hq kb).1 (hq kc).1 hu),
    hlate ka, hlate kb, hlate kc]
  simp only [List.mem_cons, List.not_mem_nil, or_false, forall_eq_or_imp, forall_eq]

/-- **C90, Tree Borrows.** Multiplying parts of a split matrix into a third is free of undefined
behaviour exactly when the kernel never reads a factor in a cell where it has written the result. -/
theorem C90_tree_borrows (cfg : Cfg) (m : BaseMatrix) (mem : Mem α) (h : Sound m mem)
    (R C : Nat) (hl : m.layout = .rowMajor ⟨(R, C)⟩) (s : Nat × Nat) (h1 : 0 < s.1) (h2 : s.1 < R)
    (h3 : 0 < s.2) (h4 : s.2 < C) (p : Nat) (arg : Bool) (T : GTree) (hg : GTreeReady p m arg T) :
    ∃ q, m.split_in_four_mut cfg s = .ok q ∧
      ∀ ka kb kc, kc ≠ ka → kc ≠ kb →
        Compatible (quad q ka).layout (quad q kb).layout (quad q kc).layout → ∀ us : List Touch,
        ((GTree.rules.multiplyParts p (windowOf m) (quad q) ka kb kc us T).isSome ↔
          us.Pairwise fun u v => ¬ Ruins (quad q ka) (quad q kb) (quad q kc) u v) := by
  obtain ⟨q, e, hq⟩ := split_views cfg h hl h1 h2 h3 h4
  refine ⟨q, e, fun ka kb kc hca hcb hd us => ?_⟩
  rw [multiplyParts_eq GTree.rules (fun k => (hq k).1) p (windowOf m) ka kb kc hd us T,
    TSplit.partsHits_iff (v0 := ⟨p, windowOf m, arg⟩) (treeReady_inv hg)
      (fun w hw' x hx => by obtain ⟨k, rfl⟩ := mem_quadWindows hw'; exact (hq k).2.2 x hx)
      (quadWindows_get q ka) (quadWindows_get q kb) (quadWindows_get q kc)
      (fun v hv => by
        obtain ⟨u, -, hu⟩ := List.mem_filterMap.1 hv
        exact toHit_in (hq ka).1 (hq kb).1 (hq kc).1 hu),
    List.pairwise_filterMap]
  have hsame : ∀ k k' i j i' j', (seen (quad q k) i j).idx = (seen (quad q k') i' j').idx ↔
      seen (quad q k) i j = seen (quad q k') i' j' := by
    intro k k' i j i' j'
    simp only [seen, (hq k).2.1, (hq k').2.1, Loc.mk.injEq, true_and]
  have key : ∀ u v : Touch, (∀ b, toHit (quad q ka) (quad q kb) (quad q kc) u = some b →
      ∀ b', toHit (quad q ka) (quad q kb) (quad q kc) v = some b' → ¬ b.Spoils b') ↔
      ¬ Ruins (quad q ka) (quad q kb) (quad q kc) u v := by
    intro u v
    cases u with
    | a i l =>
      simp only [toHit, Ruins, not_false_eq_true, iff_true]
      intro b hb b' _
      split at hb
      · cases hb; simp [Hit.Spoils]
      · cases hb
    | b i l =>
      simp only [toHit, Ruins, not_false_eq_true, iff_true]
      intro b hb b' _
      split at hb
      · cases hb; simp [Hit.Spoils]
      · cases hb
    | c i j w =>
      cases w with
      | false =>
        simp only [toHit, Ruins, not_false_eq_true, iff_true]
        intro b hb b' _
        split at hb
        · cases hb; simp [Hit.Spoils]
        · cases hb
      | true =>
        by_cases hij : i < (quad q kc).layout.dim.1 ∧ j < (quad q kc).layout.dim.2
        · cases v with
          | a i' l =>
            by_cases hil : i' < (quad q ka).layout.dim.1 ∧ l < (quad q ka).layout.dim.2
            · simp [toHit, Ruins, hij, hil, Hit.Spoils, hsame]
            · simp [toHit, Ruins, hij, hil]
          | b i' l =>
            by_cases hil : i' < (quad q kb).layout.dim.1 ∧ l < (quad q kb).layout.dim.2
            · simp [toHit, Ruins, hij, hil, Hit.Spoils, hsame]
            · simp [toHit, Ruins, hij, hil]
          | c i' l w =>
            by_cases hil : i' < (quad q kc).layout.dim.1 ∧ l < (quad q kc).layout.dim.2
            · simp [toHit, Ruins, hij, hil, Hit.Spoils]
            · simp [toHit, Ruins, hij, hil]
        · cases v <;> simp [toHit, Ruins, hij]
  simp only [key]

/-- **C90, the two accounts agree.** A product of parts that is defined for the kernel, because its
operands do not alias (C47), is one that Tree Borrows accept in whatever order the kernel accesses
the elements; and conversely. -/
theorem C90_tree_borrows_and_aliasing (cfg : Cfg) (kern : Kern α) (alpha beta : α) (m : BaseMatrix)
    (mem : Mem α) (h : Sound m mem) (R C : Nat) (hl : m.layout = .rowMajor ⟨(R, C)⟩) (s : Nat × Nat)
    (h1 : 0 < s.1) (h2 : s.1 < R) (h3 : 0 < s.2) (h4 : s.2 < C) (p : Nat) (arg : Bool) (T : GTree)
    (hg : GTreeReady p m arg T) :
    ∃ q, m.split_in_four_mut cfg s = .ok q ∧
      ∀ ka kb kc, kc ≠ ka → kc ≠ kb →
        Compatible (quad q ka).layout (quad q kb).layout (quad q kc).layout →
        ((∀ us, (GTree.rules.multiplyParts p (windowOf m) (quad q) ka kb kc us T).isSome) ↔
          matmul kern alpha (quad q ka) (quad q kb) beta (quad q kc) mem ≠ .ub) := by
  obtain ⟨q, e, hT⟩ := C90_tree_borrows cfg m mem h R C hl s h1 h2 h3 h4 p arg T hg
  obtain ⟨q', e', hap, hub⟩ := C47_partial cfg kern alpha beta m mem h R C hl s h1 h2 h3 h4
  rw [e] at e'
  obtain rfl : q = q' := by simpa using e'
  refine ⟨q, e, fun ka kb kc hca hcb hd => ?_⟩
  have hpos : 1 ≤ (shape R C s kc).1 := by
    match kc with
    | 0 | 1 | 2 | 3 => simp only [shape]; omega
  have h47 : matmul kern alpha (quad q ka) (quad q kb) beta (quad q kc) mem ≠ .ub ↔
      KernelApart (quad q kc) (quad q ka) ∧ KernelApart (quad q kc) (quad q kb) := by
    rw [Ne, hub ka kb kc hca hcb hd, hap kc ka hca, hap kc kb hcb]
    omega
  rw [h47]
  constructor
  · intro hall
    refine ⟨fun i j i' j' hi hj hi' hj' heq => ?_, fun i j i' j' hi hj hi' hj' heq => ?_⟩
    · have := (hT ka kb kc hca hcb hd [.c i j true, .a i' j']).1 (hall _)
      simp only [List.pairwise_cons, List.mem_singleton, forall_eq] at this
      exact this.1 ⟨⟨hi, hj⟩, ⟨hi', hj'⟩, heq⟩
    · have := (hT ka kb kc hca hcb hd [.c i j true, .b i' j']).1 (hall _)
      simp only [List.pairwise_cons, List.mem_singleton, forall_eq] at this
      exact this.1 ⟨⟨hi, hj⟩, ⟨hi', hj'⟩, heq⟩
  · rintro ⟨pa, pb⟩ us
    rw [hT ka kb kc hca hcb hd us]
    refine List.pairwise_of_forall fun u v hr => ?_
    match u, v, hr with
    | .c i j true, .a i' l, ⟨x, y, z⟩ => exact pa i j i' l x.1 x.2 y.1 y.2 z
    | .c i j true, .b l j', ⟨x, y, z⟩ => exact pb i j l j' x.1 x.2 y.1 y.2 z

end

/-! ## Cases -/

/-- The four parts of the 10 × 10 matrix, split in the middle. -/
def exParts : Fin 4 → BaseMatrix := fun k =>
  ⟨⟨0, [0, 5, 50, 55].getD k 0, 45⟩, .asRowMajor ⟨(5, 5), (10, 1)⟩, .dynamic, .dynamic⟩

example : exTen.split_in_four_mut dbg (5, 5) = .ok (exParts 0, exParts 1, exParts 2, exParts 3) ∧
    exTen.split_in_four_mut rel (5, 5) = .ok (exParts 0, exParts 1, exParts 2, exParts 3) := by
  refine ⟨by decide +kernel, by decide +kernel⟩

/-- Concretely: the square of the bottom right part may be stored in the top right part. The top
left part may not be used in Stacked Borrows at all. In Tree Borrows the square of the top left part may
be stored in the bottom left part, but not in the top right part, unless the kernel reads the factor
first. -/
example : (GStacks.rules.multiplyParts 0 ⟨0, 100⟩ exParts 3 3 1
      [.c 0 0 true, .a 4 4, .b 0 0, .c 4 4 true, .a 0 0] ⟨freshStacks, [0]⟩).isSome = true ∧
    (GStacks.rules.multiplyParts 0 ⟨0, 100⟩ exParts 3 0 1 [] ⟨freshStacks, [0]⟩).isSome = false ∧
    (GTree.rules.multiplyParts 0 ⟨0, 100⟩ exParts 0 0 2
      [.c 0 0 true, .a 4 4, .b 0 0, .c 4 4 true, .a 0 0]
      ⟨fun r => [r], fun _ _ => .active, 1, [0]⟩).isSome = true ∧
    (GTree.rules.multiplyParts 0 ⟨0, 100⟩ exParts 0 0 1
      [.a 1 0, .b 1 0, .c 0 0 true] ⟨fun r => [r], fun _ _ => .active, 1, [0]⟩).isSome = true ∧
    (GTree.rules.multiplyParts 0 ⟨0, 100⟩ exParts 0 0 1
      [.c 0 1 true, .a 0 4] ⟨fun r => [r], fun _ _ => .active, 1, [0]⟩).isSome = true := by
  refine ⟨by decide +kernel, by decide +kernel, by decide +kernel, by decide +kernel,
    by decide +kernel⟩

/-- The kernel takes the elements of a part to be next to each other, so that the first row of the top
right part and the second row of the top left part are the same cells. -/
example : seen (exParts 1) 0 0 = seen (exParts 0) 1 0 ∧
    (GTree.rules.multiplyParts 0 ⟨0, 100⟩ exParts 0 0 1
      [.c 0 0 true, .a 1 0] ⟨fun r => [r], fun _ _ => .active, 1, [0]⟩).isSome = false := by
  refine ⟨by decide +kernel, by decide +kernel⟩

/-- The hypotheses hold of a matrix that is a parameter. -/
example [Target] (us : List Touch) : ∃ q, exTen.split_in_four_mut dbg (5, 5) = .ok q ∧
    ∀ ka kb kc, kc ≠ ka → kc ≠ kb →
      Compatible (quad q ka).layout (quad q kb).layout (quad q kc).layout →
      ((GStacks.rules.multiplyParts 0 (windowOf exTen) (quad q) ka kb kc us
        ⟨freshStacks, [0]⟩).isSome ↔ ∀ k ∈ [ka, kb, kc], k = 1 ∨ k = 3) := by
  obtain ⟨q, e, h⟩ := C90_stacked_borrows dbg exTen exTenMem exTen_sound 10 10 rfl (5, 5)
    (by decide) (by decide) (by decide) (by decide) 0 true ⟨freshStacks, [0]⟩ (paramGStacks_ready _)
  refine ⟨q, e, fun ka kb kc hca hcb hd => ?_⟩
  rw [h ka kb kc hca hcb hd us]
  have : ∀ k : Fin 4, ((k = 0 → (5, 5).1 = 1) ∧ (k = 2 → 10 - (5, 5).1 = 1)) ↔ k = 1 ∨ k = 3 := by decide
  simp only [this]

end Householder.Props
