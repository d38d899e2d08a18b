import Verif.Spec.Borrow
import Verif.Lemmas.BorrowTree
import Verif.Props.Views

/-!
# Properties C68–C70: views and the aliasing rules of Rust

The models of Stacked Borrows and Tree Borrows are in `Verif/Model/Borrow.lean`, the programs that
are considered in `Verif/Spec/Borrow.lean`.
-/

namespace Householder.Props

open Spec Borrow

variable {α : Type}

/-- A 10 × 10 matrix, as in the crate's test `test_disjoint_slices`
(src/matrix/matrix_slices.rs:193-205). -/
def exTen : BaseMatrix := ⟨⟨0, 0, 100⟩, .rowMajor ⟨(10, 10)⟩, .dynamic, .dynamic⟩

/-- Its memory. -/
def exTenMem : Mem Int := ⟨[List.replicate 100 0]⟩

theorem exTen_sound [Target] : Sound exTen exTenMem :=
  sound_of_contiguous trivial ⟨by decide_width, by decide_width⟩ (by decide_width)

/-- The four writes of `test_disjoint_slices`. -/
def testUses : List QuadUse :=
  [⟨0, 1, 0, true⟩, ⟨1, 3, 4, true⟩, ⟨2, 2, 1, true⟩, ⟨3, 4, 2, true⟩]

/-- A fresh allocation in Stacked Borrows: every stack has the entry of the owner. -/
def freshStacks : Stacks := ⟨fun _ => [⟨.unique, 0⟩], 1⟩

/-- A fresh allocation in Tree Borrows: the owner is the root. -/
def freshTree : Tree := ⟨fun r => [r], fun _ _ => .active, 1⟩

theorem freshStacks_ready (m : BaseMatrix) : StackReady 0 m freshStacks :=
  ⟨by decide, by simp [freshStacks], fun _ _ => ⟨_, _, rfl, rfl, trivial⟩⟩

theorem freshTree_ready (m : BaseMatrix) : TreeReady 0 m freshTree :=
  ⟨by decide, by simp [freshTree], by simp [freshTree]⟩

theorem quadWindows_get (q : BaseMatrix × BaseMatrix × BaseMatrix × BaseMatrix) (k : Fin 4) :
    (quadWindows q)[(k : Nat)]? = some (windowOf (quad q k)) := by
  match k with
  | 0 => rfl
  | 1 => rfl
  | 2 => rfl
  | 3 => rfl

theorem cellOf_eq [Target] {b : BaseMatrix} {mem : Mem α} (h : Sound b mem) (hm : IsMajor b.layout)
    (cfg : Cfg) {i j : Nat} (hi : i < b.layout.dim.1) (hj : j < b.layout.dim.2) :
    cellOf cfg b i j = b.data.off + raw b.layout i j ∧
      (windowOf b).Has (cellOf cfg b i j) := by
  have hs : Stored b.layout i j := (stored_iff hm).mpr ⟨hi, hj⟩
  have e : cellOf cfg b i j = b.data.off + raw b.layout i j := by
    simp [cellOf, h.get_mut cfg hs, cell]
  refine ⟨e, ?_⟩
  rw [e]
  have := h.inside _ _ hs
  simp only [Window.Has, windowOf]
  omega

/-- What the split gives, for both aliasing models. -/
theorem split_facts [Target] (cfg : Cfg) {m : BaseMatrix} {mem : Mem α} (h : Sound m mem) {R C : Nat}
    (hl : m.layout = .rowMajor ⟨(R, C)⟩) {s : Nat × Nat} (h1 : 0 < s.1) (h2 : s.1 < R)
    (h3 : 0 < s.2) (h4 : s.2 < C) :
    ∃ q, m.split_in_four_mut cfg s = .ok q ∧
      (∀ k, windowOf (quad q k) = ⟨m.data.off + ((origin s k).1 * C + (origin s k).2),
        C * ((shape R C s k).1 - 1) + ((shape R C s k).2 - 1) + 1⟩) ∧
      (∀ k x, (windowOf (quad q k)).Has x → (windowOf m).Has x) ∧
      (∀ u : QuadUse, QuadUse.InRange R C s u →
        cellOf cfg (quad q u.k) u.i u.j =
          m.data.off + (((origin s u.k).1 + u.i) * C + ((origin s u.k).2 + u.j)) ∧
        (windowOf (quad q u.k)).Has (cellOf cfg (quad q u.k) u.i u.j)) := by
  obtain ⟨q, e, hb⟩ := split_blocks cfg h hl h1 h2 h3 h4
  obtain ⟨q', e', hw⟩ := split_windows cfg h hl h1 h2 h3 h4
  rw [e] at e'
  obtain rfl : q = q' := by simpa using e'
  obtain ⟨q', e', hdim, -⟩ := C31_split_partition cfg m mem h R C hl s h1 h2 h3 h4
  rw [e] at e'
  obtain rfl : q = q' := by simpa using e'
  refine ⟨q, e, fun k => by simp only [windowOf, hw k], ?_, ?_⟩
  · intro k x hx
    obtain ⟨hk, hf, p1, p2⟩ := hb k
    obtain ⟨b, e', -, hin, -⟩ := (view_of_contiguous h (by rw [hl]; trivial)
      (by rw [hl]; trivial)).block cfg hf p1 p2
    rw [hk] at e'
    obtain rfl : quad q k = b := by simpa using e'
    obtain ⟨-, i1, i2⟩ := hin
    simp only [Window.Has, windowOf] at *
    omega
  · intro u hu
    obtain ⟨hk, hf, p1, p2⟩ := hb u.k
    obtain ⟨b, e', hv, -⟩ := (view_of_contiguous h (by rw [hl]; trivial)
      (by rw [hl]; trivial)).block cfg hf p1 p2
    rw [hk] at e'
    obtain rfl : quad q u.k = b := by simpa using e'
    obtain ⟨hd, hshow⟩ := hdim u.k
    have d1 : u.i < (quad q u.k).layout.dim.1 := by rw [hd]; exact hu.1
    have d2 : u.j < (quad q u.k).layout.dim.2 := by rw [hd]; exact hu.2
    obtain ⟨c1, c2⟩ := cellOf_eq hv.sound hv.major cfg d1 d2
    refine ⟨?_, c2⟩
    have := congrArg Loc.idx (hshow u.i u.j d1 d2)
    rw [c1]
    simp only [cell, hl] at this
    exact this

/-- The uses are valid. -/
theorem toUse_valid [Target] {cfg : Cfg} {q : BaseMatrix × BaseMatrix × BaseMatrix × BaseMatrix}
    {u : QuadUse} (h : (windowOf (quad q u.k)).Has (cellOf cfg (quad q u.k) u.i u.j)) :
    (toUse cfg q u).Valid (quadWindows q) := ⟨_, quadWindows_get q u.k, h⟩

/-! ## C68 -/

/-- The full statement of C68: after `split_in_four_mut` the four views may be used in any
order. -/
def C68_statement [Target] : Prop :=
  ∀ (cfg : Cfg) (m : BaseMatrix) (mem : Mem Int) (R C : Nat) (s : Nat × Nat)
    (q : BaseMatrix × BaseMatrix × BaseMatrix × BaseMatrix) (p : Nat) (st : Stacks)
    (us : List QuadUse), Sound m mem → m.layout = .rowMajor ⟨(R, C)⟩ → 0 < s.1 → s.1 < R →
    0 < s.2 → s.2 < C → m.split_in_four_mut cfg s = .ok q → StackReady p m st →
    (∀ u ∈ us, QuadUse.InRange R C s u) →
    (st.splitAndUse p (quadWindows q) (us.map (toUse cfg q))).isSome

/-- **C68, partial**: in Stacked Borrows a sequence of element accesses through the four views of
`split_in_four_mut` is free of undefined behaviour exactly when it never uses the top left view,
unless that has one row only, nor the bottom left view, unless that has one row only. (Making the
slice of a right view invalidates the slice of the left view, which covers cells of it.)
Missing: the other sequences, for which the property is false (`C68_stacked_borrows_false`). -/
theorem C68_stacked_borrows_partial [Target] (cfg : Cfg) (m : BaseMatrix) (mem : Mem α) (h : Sound m mem)
    (R C : Nat) (hl : m.layout = .rowMajor ⟨(R, C)⟩) (s : Nat × Nat) (h1 : 0 < s.1) (h2 : s.1 < R)
    (h3 : 0 < s.2) (h4 : s.2 < C) (p : Nat) (st : Stacks) (hr : StackReady p m st)
    (us : List QuadUse) (hu : ∀ u ∈ us, QuadUse.InRange R C s u) :
    ∃ q, m.split_in_four_mut cfg s = .ok q ∧
      ((st.splitAndUse p (quadWindows q) (us.map (toUse cfg q))).isSome ↔
        ∀ u ∈ us, (u.k = 0 → s.1 = 1) ∧ (u.k = 2 → R - s.1 = 1)) := by
  obtain ⟨q, e, hw, hin, hcell⟩ := split_facts cfg h hl h1 h2 h3 h4
  obtain ⟨q', e', -, s1, s2, s3⟩ := C33_partial cfg m mem h R C hl s h1 h2 h3 h4
  rw [e] at e'
  obtain rfl : q = q' := by simpa using e'
  obtain ⟨q', e', hwin⟩ := split_windows cfg h hl h1 h2 h3 h4
  rw [e] at e'
  obtain rfl : q = q' := by simpa using e'
  refine ⟨q, e, ?_⟩
  have hmeet : ∀ k k', (windowOf (quad q k)).Meets (windowOf (quad q k')) ↔
      Share (quad q k) (quad q k') := by
    intro k k'
    have hbuf : ∀ k, (quad q k).data.buf = m.data.buf := fun k => by rw [hwin k]
    constructor
    · rintro ⟨x, a, b⟩
      exact ⟨⟨m.data.buf, x⟩, ⟨(hbuf k).symm, a.1, a.2⟩, ⟨(hbuf k').symm, b.1, b.2⟩⟩
    · rintro ⟨l, a, b⟩
      exact ⟨l.idx, ⟨a.2.1, a.2.2⟩, ⟨b.2.1, b.2.2⟩⟩
  rw [Stacks.splitAndUse_iff hr.tag hr.fresh (by
      intro w hw' x hx
      have : ∃ k, w = windowOf (quad q k) := by
        simp only [quadWindows, List.mem_cons, List.not_mem_nil, or_false] at hw'
        rcases hw' with h | h | h | h
        exacts [⟨0, h⟩, ⟨1, h⟩, ⟨2, h⟩, ⟨3, h⟩]
      obtain ⟨k, rfl⟩ := this
      exact hr.top x (hin k x hx)) (by
      intro u hu'
      rw [List.mem_map] at hu'
      obtain ⟨v, hv, rfl⟩ := hu'
      exact toUse_valid (hcell v (hu v hv)).2)]
  -- which views are met by later ones
  have hlater : ∀ k : Fin 4, (∀ w, (quadWindows q)[(k : Nat)]? = some w → ∀ j w', (k : Nat) < j →
      (quadWindows q)[j]? = some w' → ¬ w.Meets w') ↔
        ((k = 0 → s.1 = 1) ∧ (k = 2 → R - s.1 = 1)) := by
    intro k
    have red : (∀ w, (quadWindows q)[(k : Nat)]? = some w → ∀ j w', (k : Nat) < j →
        (quadWindows q)[j]? = some w' → ¬ w.Meets w') ↔
        ∀ k' : Fin 4, k < k' → ¬ Share (quad q k) (quad q k') := by
      constructor
      · intro hh k' hk hs
        exact hh _ (quadWindows_get q k) k' _ hk (quadWindows_get q k') ((hmeet k k').mpr hs)
      · intro hh w hw' j w' hj hj' hm
        have hj4 : j < 4 := by
          by_contra hc
          rw [List.getElem?_eq_none (by simp [quadWindows]; omega)] at hj'
          cases hj'
        rw [quadWindows_get] at hw'
        cases hw'
        have := quadWindows_get q ⟨j, hj4⟩
        simp only at this
        rw [this] at hj'
        cases hj'
        exact hh ⟨j, hj4⟩ hj ((hmeet _ _).mp hm)
    rw [red]
    have t01 : ¬ Share (quad q 0) (quad q 1) ↔ s.1 = 1 := by rw [s2]; omega
    have t23 : ¬ Share (quad q 2) (quad q 3) ↔ R - s.1 = 1 := by rw [s3]; omega
    match k with
    | 0 =>
      constructor
      · intro hh
        exact ⟨fun _ => t01.mp (hh 1 (by decide)), fun hc => absurd hc (by decide)⟩
      · intro hh k' hk
        match k' with
        | 0 => exact absurd hk (by decide)
        | 1 => exact t01.mpr (hh.1 rfl)
        | 2 => exact s1 0 2 (by decide) (by decide)
        | 3 => exact s1 0 3 (by decide) (by decide)
    | 1 =>
      refine ⟨fun _ => ⟨fun hc => absurd hc (by decide), fun hc => absurd hc (by decide)⟩, ?_⟩
      intro _ k' hk
      match k' with
      | 0 => exact absurd hk (by decide)
      | 1 => exact absurd hk (by decide)
      | 2 => exact s1 1 2 (by decide) (by decide)
      | 3 => exact s1 1 3 (by decide) (by decide)
    | 2 =>
      constructor
      · intro hh
        exact ⟨fun hc => absurd hc (by decide), fun _ => t23.mp (hh 3 (by decide))⟩
      · intro hh k' hk
        match k' with
        | 0 => exact absurd hk (by decide)
        | 1 => exact absurd hk (by decide)
        | 2 => exact absurd hk (by decide)
        | 3 => exact t23.mpr (hh.2 rfl)
    | 3 =>
      refine ⟨fun _ => ⟨fun hc => absurd hc (by decide), fun hc => absurd hc (by decide)⟩, ?_⟩
      intro _ k' hk
      exact absurd (Fin.le_last k') (not_le.mpr hk)
  constructor
  · intro hh u hu'
    exact (hlater u.k).mp (hh (toUse cfg q u) (List.mem_map_of_mem hu'))
  · intro hh u hu'
    rw [List.mem_map] at hu'
    obtain ⟨v, hv, rfl⟩ := hu'
    exact (hlater v.k).mpr (hh v hv)

/-- **C68 is false of the code**: the crate's own test `test_disjoint_slices` has undefined
behaviour in Stacked Borrows, at its first write. -/
theorem C68_stacked_borrows_false [Target] : ¬ C68_statement := by
  intro h
  obtain ⟨q, e, hq⟩ := C68_stacked_borrows_partial dbg exTen exTenMem exTen_sound 10 10 rfl (5, 5)
    (by decide_width) (by decide_width) (by decide_width) (by decide_width) 0 freshStacks (freshStacks_ready _) testUses
    (by decide_width)
  have := hq.mp (h dbg exTen exTenMem 10 10 (5, 5) q 0 freshStacks testUses exTen_sound rfl
    (by decide_width) (by decide_width) (by decide_width) (by decide_width) e (freshStacks_ready _) (by decide_width))
  exact absurd ((this ⟨0, 1, 0, true⟩ (by decide_width)).1 rfl) (by decide_width)

/-- Concretely: the two right views of the 10 × 10 matrix may be used in any order; a 4 × 4
matrix split after its first row may be used through the two top views and the bottom right one;
and the first write of the test is undefined behaviour. -/
example : (freshStacks.splitAndUse 0 [⟨0, 45⟩, ⟨5, 45⟩, ⟨50, 45⟩, ⟨55, 45⟩]
      [⟨1, 39, true⟩, ⟨3, 97, true⟩, ⟨1, 5, false⟩]).isSome ∧
    (exFour.split_in_four_mut dbg (1, 2) >>= fun q => .ok ((freshStacks.splitAndUse 0 (quadWindows q)
      ([⟨0, 0, 1, true⟩, ⟨1, 0, 0, true⟩, ⟨3, 2, 1, true⟩, ⟨0, 0, 0, false⟩].map
        (toUse dbg q))).isSome)) = .ok true ∧
    freshStacks.splitAndUse 0 [⟨0, 45⟩, ⟨5, 45⟩, ⟨50, 45⟩, ⟨55, 45⟩] [⟨0, 10, true⟩] = none := by
  refine ⟨by decide +kernel, by decide +kernel, ?_⟩
  rw [← Option.not_isSome_iff_eq_none]
  decide +kernel

/-! ## C69 -/

/-- The full statement of C69: the same for Tree Borrows. -/
def C69_statement [Target] : Prop :=
  ∀ (cfg : Cfg) (m : BaseMatrix) (mem : Mem Int) (R C : Nat) (s : Nat × Nat)
    (q : BaseMatrix × BaseMatrix × BaseMatrix × BaseMatrix) (p : Nat) (T : Tree)
    (us : List QuadUse), Sound m mem → m.layout = .rowMajor ⟨(R, C)⟩ → 0 < s.1 → s.1 < R →
    0 < s.2 → s.2 < C → m.split_in_four_mut cfg s = .ok q → TreeReady p m T →
    (∀ u ∈ us, QuadUse.InRange R C s u) →
    (T.splitAndUse p (quadWindows q) (us.map (toUse cfg q))).isSome

/-- **C69, partial**: in Tree Borrows a sequence of element accesses through the four views of
`split_in_four_mut` is free of undefined behaviour exactly when no use follows a write, through
the neighbouring view in the same half, to a row between the first and the last element of its
own view. Missing: the other sequences, for which the property is false
(`C69_tree_borrows_false`). -/
theorem C69_tree_borrows_partial [Target] (cfg : Cfg) (m : BaseMatrix) (mem : Mem α) (h : Sound m mem)
    (R C : Nat) (hl : m.layout = .rowMajor ⟨(R, C)⟩) (s : Nat × Nat) (h1 : 0 < s.1) (h2 : s.1 < R)
    (h3 : 0 < s.2) (h4 : s.2 < C) (p : Nat) (T : Tree) (hr : TreeReady p m T)
    (us : List QuadUse) (hu : ∀ u ∈ us, QuadUse.InRange R C s u) :
    ∃ q, m.split_in_four_mut cfg s = .ok q ∧
      ((T.splitAndUse p (quadWindows q) (us.map (toUse cfg q))).isSome ↔
        us.Pairwise (fun u v => ¬ Disturbs R s u v)) := by
  obtain ⟨q, e, hw, hin, hcell⟩ := split_facts cfg h hl h1 h2 h3 h4
  refine ⟨q, e, ?_⟩
  rw [Tree.splitAndUse_iff hr.tag hr.fresh (by
      intro w hw' x hx
      have : ∃ k, w = windowOf (quad q k) := by
        simp only [quadWindows, List.mem_cons, List.not_mem_nil, or_false] at hw'
        rcases hw' with h | h | h | h
        exacts [⟨0, h⟩, ⟨1, h⟩, ⟨2, h⟩, ⟨3, h⟩]
      obtain ⟨k, rfl⟩ := this
      exact hr.writable x (hin k x hx)) (by
      intro u hu'
      rw [List.mem_map] at hu'
      obtain ⟨v, hv, rfl⟩ := hu'
      exact toUse_valid (hcell v (hu v hv)).2), List.pairwise_map]
  have hclash : ∀ u v : QuadUse, QuadUse.InRange R C s u →
      (Tree.Clash (quadWindows q) (toUse cfg q u) (toUse cfg q v) ↔ Disturbs R s u v) := by
    intro u v hu'
    have red : Tree.Clash (quadWindows q) (toUse cfg q u) (toUse cfg q v) ↔
        u.write = true ∧ v.k ≠ u.k ∧
          (windowOf (quad q v.k)).Has (cellOf cfg (quad q u.k) u.i u.j) := by
      simp only [Tree.Clash, toUse, quadWindows_get, Option.some.injEq, exists_eq_left', ne_eq,
        Fin.val_inj]
    rw [red, (hcell u hu').1, hw v.k]
    simp only [Window.Has, Disturbs]
    obtain ⟨r1, r2⟩ := hu'
    obtain ⟨k, i, j, b⟩ := u
    obtain ⟨k', i', j', b'⟩ := v
    simp only at r1 r2 ⊢
    refine and_congr_right fun _ => ?_
    -- products with the number of columns
    have hrow : ∀ x, 1 ≤ x → C * (x - 1) + C = C * x := by
      intro x hx
      obtain ⟨y, rfl⟩ : ∃ y, x = y + 1 := ⟨x - 1, by omega⟩
      simp; ring
    have hi0 : i = 0 ∨ C ≤ i * C := by
      rcases Nat.eq_zero_or_pos i with h | h
      · exact .inl h
      · exact .inr (Nat.le_mul_of_pos_left C h)
    have hle : ∀ a b, a + 1 ≤ b → a * C + C ≤ C * b := by
      intro a b hab
      calc a * C + C = C * (a + 1) := by ring
        _ ≤ C * b := Nat.mul_le_mul_left C hab
    have hge : ∀ a b, b ≤ a → C * b ≤ a * C := by
      intro a b hab
      rw [Nat.mul_comm a C]
      exact Nat.mul_le_mul_left C hab
    have hadd : (s.1 + i) * C = s.1 * C + i * C := by ring
    have hs := hrow s.1 h1
    have hs' := hrow (R - s.1) (by omega)
    have hsc : s.1 * C = C * s.1 := Nat.mul_comm _ _
    match k, k' with
    | 0, 0 => simp
    | 1, 1 => simp
    | 2, 2 => simp
    | 3, 3 => simp
    | 0, 1 =>
      simp only [origin, shape] at *
      have := hle i s.1 (by omega)
      constructor
      · rintro ⟨-, a, b⟩
        refine .inl ⟨by simp, by simp, ?_⟩
        rcases hi0 with rfl | h
        · simp at a; omega
        · by_contra hc
          have : i = 0 := by omega
          subst this
          simp at h; omega
      · rintro (⟨-, -, a⟩ | ⟨a, -⟩ | ⟨a, -⟩ | ⟨a, -⟩)
        · refine ⟨by decide, ?_⟩
          rcases hi0 with rfl | h
          · omega
          · simp only [Nat.zero_mul, Nat.zero_add]
            omega
        all_goals exact absurd a (by decide)
    | 1, 0 =>
      simp only [origin, shape] at *
      constructor
      · rintro ⟨-, a, b⟩
        refine .inr (.inl ⟨by simp, by simp, ?_⟩)
        by_contra hc
        have := hge i (s.1 - 1) (by omega)
        simp only [Nat.zero_mul, Nat.zero_add] at a b
        omega
      · rintro (⟨a, -⟩ | ⟨-, -, a⟩ | ⟨a, -⟩ | ⟨a, -⟩)
        · exact absurd a (by decide)
        · refine ⟨by decide, ?_⟩
          have := hle i (s.1 - 1) (by omega)
          simp only [Nat.zero_mul, Nat.zero_add]
          omega
        all_goals exact absurd a (by decide)
    | 2, 3 =>
      simp only [origin, shape] at *
      have := hle i (R - s.1) (by omega)
      constructor
      · rintro ⟨-, a, b⟩
        refine .inr (.inr (.inl ⟨by simp, by simp, ?_⟩))
        by_contra hc
        have : i = 0 := by omega
        subst this
        simp at a; omega
      · rintro (⟨a, -⟩ | ⟨a, -⟩ | ⟨-, -, a⟩ | ⟨a, -⟩)
        · exact absurd a (by decide)
        · exact absurd a (by decide)
        · refine ⟨by decide, ?_⟩
          rcases hi0 with rfl | h
          · omega
          · rw [hadd]
            omega
        · exact absurd a (by decide)
    | 3, 2 =>
      simp only [origin, shape] at *
      constructor
      · rintro ⟨-, a, b⟩
        refine .inr (.inr (.inr ⟨by simp, by simp, ?_⟩))
        by_contra hc
        have := hge i (R - s.1 - 1) (by omega)
        rw [hadd] at a b
        omega
      · rintro (⟨a, -⟩ | ⟨a, -⟩ | ⟨a, -⟩ | ⟨-, -, a⟩)
        · exact absurd a (by decide)
        · exact absurd a (by decide)
        · exact absurd a (by decide)
        · refine ⟨by decide, ?_⟩
          have := hle i (R - s.1 - 1) (by omega)
          rw [hadd]
          omega
    | 0, 2 =>
      simp only [origin, shape] at *
      have := hle i s.1 (by omega)
      simp only [Nat.zero_add, Nat.add_zero]
      constructor
      · rintro ⟨-, a, b⟩; omega
      · rintro (⟨-, a, -⟩ | ⟨a, -⟩ | ⟨a, -⟩ | ⟨a, -⟩) <;> exact absurd a (by decide)
    | 0, 3 =>
      simp only [origin, shape] at *
      have := hle i s.1 (by omega)
      simp only [Nat.zero_add]
      constructor
      · rintro ⟨-, a, b⟩; omega
      · rintro (⟨-, a, -⟩ | ⟨a, -⟩ | ⟨a, -⟩ | ⟨a, -⟩) <;> exact absurd a (by decide)
    | 1, 2 =>
      simp only [origin, shape] at *
      have := hle i s.1 (by omega)
      simp only [Nat.zero_add, Nat.add_zero]
      constructor
      · rintro ⟨-, a, b⟩; omega
      · rintro (⟨a, -⟩ | ⟨-, a, -⟩ | ⟨a, -⟩ | ⟨a, -⟩) <;> exact absurd a (by decide)
    | 1, 3 =>
      simp only [origin, shape] at *
      have := hle i s.1 (by omega)
      simp only [Nat.zero_add]
      constructor
      · rintro ⟨-, a, b⟩; omega
      · rintro (⟨a, -⟩ | ⟨-, a, -⟩ | ⟨a, -⟩ | ⟨a, -⟩) <;> exact absurd a (by decide)
    | 2, 0 =>
      simp only [origin, shape] at *
      rw [hadd]
      simp only [Nat.zero_mul, Nat.zero_add, Nat.add_zero]
      constructor
      · rintro ⟨-, a, b⟩; omega
      · rintro (⟨a, -⟩ | ⟨a, -⟩ | ⟨-, a, -⟩ | ⟨a, -⟩) <;> exact absurd a (by decide)
    | 2, 1 =>
      simp only [origin, shape] at *
      rw [hadd]
      simp only [Nat.zero_mul, Nat.zero_add]
      constructor
      · rintro ⟨-, a, b⟩; omega
      · rintro (⟨a, -⟩ | ⟨a, -⟩ | ⟨-, a, -⟩ | ⟨a, -⟩) <;> exact absurd a (by decide)
    | 3, 0 =>
      simp only [origin, shape] at *
      rw [hadd]
      simp only [Nat.zero_mul, Nat.add_zero]
      constructor
      · rintro ⟨-, a, b⟩; omega
      · rintro (⟨a, -⟩ | ⟨a, -⟩ | ⟨a, -⟩ | ⟨-, a, -⟩) <;> exact absurd a (by decide)
    | 3, 1 =>
      simp only [origin, shape] at *
      rw [hadd]
      simp only [Nat.zero_mul, Nat.zero_add]
      constructor
      · rintro ⟨-, a, b⟩; omega
      · rintro (⟨a, -⟩ | ⟨a, -⟩ | ⟨a, -⟩ | ⟨-, a, -⟩) <;> exact absurd a (by decide)
  constructor
  · intro hh
    refine hh.imp_of_mem fun {u v} hu' _ h => ?_
    rwa [hclash u v (hu u hu')] at h
  · intro hh
    refine hh.imp_of_mem fun {u v} hu' _ h => ?_
    rwa [hclash u v (hu u hu')]

/-- **C69 is false of the code**: the crate's own test `test_disjoint_slices` has undefined
behaviour in Tree Borrows too, at its second write. -/
theorem C69_tree_borrows_false [Target] : ¬ C69_statement := by
  intro h
  obtain ⟨q, e, hq⟩ := C69_tree_borrows_partial dbg exTen exTenMem exTen_sound 10 10 rfl (5, 5)
    (by decide_width) (by decide_width) (by decide_width) (by decide_width) 0 freshTree (freshTree_ready _) testUses
    (by decide_width)
  have := hq.mp (h dbg exTen exTenMem 10 10 (5, 5) q 0 freshTree testUses exTen_sound rfl
    (by decide_width) (by decide_width) (by decide_width) (by decide_width) e (freshTree_ready _) (by decide_width))
  rw [testUses, List.pairwise_cons] at this
  exact this.1 ⟨1, 3, 4, true⟩ (by decide_width) ⟨rfl, .inl ⟨rfl, rfl, by decide_width⟩⟩

/-- Concretely: the first two writes of the test, in this order, are undefined behaviour (the
first write is to a cell that the slice of the second view covers); with writes to first and last
rows only all four views may be used. -/
example : (freshTree.splitAndUse 0 [⟨0, 45⟩, ⟨5, 45⟩, ⟨50, 45⟩, ⟨55, 45⟩]
      [⟨0, 10, true⟩, ⟨1, 39, true⟩]).isSome = false ∧
    (freshTree.splitAndUse 0 [⟨0, 45⟩, ⟨5, 45⟩, ⟨50, 45⟩, ⟨55, 45⟩]
      [⟨0, 3, true⟩, ⟨1, 49, true⟩, ⟨2, 51, true⟩, ⟨3, 99, true⟩, ⟨0, 44, false⟩]).isSome = true := by
  refine ⟨by decide +kernel, by decide +kernel⟩

/-! ## C70 -/

/-- **C70.** Whatever the borrow checker admits for the accessors of a matrix and for blocks of
it, one mutable view at a time or several shared views, has no undefined behaviour in Stacked
Borrows nor in Tree Borrows, for all shapes, positions and sequences. -/
theorem C70_blocks [Target] (cfg : Cfg) (m : BaseMatrix) (mem : Mem α) (h : Sound m mem)
    (hm : IsMajor m.layout) (hc : Contiguous m.layout) (fs : List Phase)
    (hf : ∀ f ∈ fs, Describes cfg m f) :
    (∀ p st, StackReady p m st → (st.phases p fs).isSome) ∧
    (∀ p T, TreeReady p m T → (T.phases p fs).isSome) := by
  have hpart : ∀ b, PartOf cfg m b → Sound b mem ∧ IsMajor b.layout ∧
      ∀ x, (windowOf b).Has x → (windowOf m).Has x := by
    rintro b (rfl | ⟨tl, d, hfit, d1, d2, hb⟩)
    · exact ⟨h, hm, fun _ hx => hx⟩
    · obtain ⟨b', e', hv, ⟨-, i1, i2⟩, -⟩ := (view_of_contiguous h hm hc).block cfg hfit d1 d2
      rw [hb] at e'
      obtain rfl : b = b' := by simpa using e'
      refine ⟨hv.sound, hv.major, fun x hx => ?_⟩
      simp only [Window.Has, windowOf] at *
      omega
  have hvalid : ∀ f ∈ fs, f.Valid (windowOf m).Has := by
    intro f hf'
    cases hf f hf' with
    | exclusive b us hb hu =>
      obtain ⟨b1, b2, b3⟩ := hpart b hb
      refine ⟨b3, ?_⟩
      intro u hu'
      rw [List.mem_map] at hu'
      obtain ⟨v, hv, rfl⟩ := hu'
      exact (cellOf_eq b1 b2 cfg (hu v hv).1 (hu v hv).2).2
    | shared bs us hb hu =>
      refine ⟨?_, ?_⟩
      · intro w hw x hx
        rw [List.mem_map] at hw
        obtain ⟨b, hb', rfl⟩ := hw
        exact (hpart b (hb b hb')).2.2 x hx
      · intro u hu'
        obtain ⟨b, i, j, e, hi, hj, hc'⟩ := hu u hu'
        obtain ⟨b1, b2, -⟩ := hpart b (hb b (List.mem_of_getElem? e))
        refine ⟨windowOf b, by rw [List.getElem?_map, e]; rfl, ?_⟩
        rw [hc']
        exact (cellOf_eq b1 b2 cfg hi hj).2
  constructor
  · intro p st hr
    obtain ⟨s', e, -⟩ := Stacks.phases_ok (p := p) (M := (windowOf m).Has) (C := st.stack) hr.top
      fs st (fun x _ => ⟨[], rfl, by simp, fun _ h => h.elim⟩) hr.tag hvalid
    rw [e]; rfl
  · intro p T hr
    obtain ⟨T', e, -⟩ := Tree.phases_ok (p := p) (M := (windowOf m).Has) (A := T.path p) fs T
      hr.tag rfl hr.fresh hr.writable hvalid
    rw [e]; rfl

/-- Concretely: a mutable block of the 4 × 4 matrix is written, then two overlapping shared blocks
are read alternately, then the matrix itself is written. -/
example : ∃ b b', exFour.block dbg (1, 1) (2, 2) = .ok b ∧ exFour.block dbg (0, 0) (3, 3) = .ok b' ∧
    Describes dbg exFour (.exclusive (windowOf b) [(5, true), (10, true)]) ∧
    Describes dbg exFour (.shared [windowOf b, windowOf b'] [(0, 10), (1, 10), (0, 5)]) ∧
    Describes dbg exFour (.exclusive (windowOf exFour) [(15, true)]) := by
  refine ⟨⟨⟨0, 5, 6⟩, .asRowMajor ⟨(2, 2), (4, 1)⟩, .dynamic, .dynamic⟩,
    ⟨⟨0, 0, 11⟩, .asRowMajor ⟨(3, 3), (4, 1)⟩, .dynamic, .dynamic⟩, by decide, by decide, ?_, ?_, ?_⟩
  · exact .exclusive _ [(0, 0, true), (1, 1, true)]
      (.inr ⟨(1, 1), (2, 2), ⟨by decide, by decide⟩, by decide, by decide, by decide⟩) (by decide)
  · refine .shared [_, _] _ ?_ ?_
    · intro b hb
      rcases List.mem_cons.mp hb with rfl | hb
      · exact .inr ⟨(1, 1), (2, 2), ⟨by decide, by decide⟩, by decide, by decide, by decide⟩
      · rw [List.mem_singleton] at hb
        subst hb
        exact .inr ⟨(0, 0), (3, 3), ⟨by decide, by decide⟩, by decide, by decide, by decide⟩
    · intro u hu
      simp only [List.mem_cons, List.not_mem_nil, or_false] at hu
      rcases hu with rfl | rfl | rfl
      · exact ⟨_, 1, 1, rfl, by decide, by decide, by decide⟩
      · exact ⟨_, 2, 2, rfl, by decide, by decide, by decide⟩
      · exact ⟨_, 0, 0, rfl, by decide, by decide, by decide⟩
  · exact .exclusive exFour [(3, 3, true)] (.inl rfl) (by decide)

end Householder.Props
