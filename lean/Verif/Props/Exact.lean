import Verif.Props.Histories

/-!
# C29 and C50 exactly: which requests for blocks are undefined

`C29_partial` and `C50_partial` exclude empty blocks, because some of them are undefined
(`C29_false`, `C50_false`). Here empty blocks are allowed, and it is determined exactly when they
are undefined. Products of overlapping views are treated exactly as well. Everything else a safe
program does in a build with overflow checks is defined.
-/

namespace Householder.Props

open Spec

variable {α : Type}

/-- An empty block that fits, whose corner has a raw index beyond the end of the window:
computing the pointer to it is undefined. In a matrix that fills its window these are the corners
below the last row (right of the last column) other than the first of them. -/
def BadCorner [Target] (b : BaseMatrix) (tl d : Nat × Nat) : Prop :=
  (d.1 = 0 ∨ d.2 = 0) ∧ Fits b.layout tl d ∧ tl.1 + d.1 < W ∧ tl.2 + d.2 < W ∧
    b.data.len < raw b.layout tl.1 tl.2 ∧ raw b.layout tl.1 tl.2 < W

instance [Target] (b : BaseMatrix) (tl d : Nat × Nat) : Decidable (BadCorner b tl d) := by
  unfold BadCorner Fits; infer_instance

/-- Every block of every view, with overflow checks: undefined exactly at a bad corner; otherwise
a panic or a view inside. -/
theorem block_exact [Target] (cfg : Cfg) (hc : cfg.overflowChecks = true) {m : BaseMatrix} {mem : Mem α}
    (hv : View m mem) (hm : IsMajor m.layout) (tl d : Nat × Nat) :
    (m.block cfg tl d = .ub ∧ BadCorner m tl d) ∨ (¬ BadCorner m tl d ∧
      (m.block cfg tl d = .panic ∨ ∃ b, m.block cfg tl d = .ok b ∧ View b mem ∧ Within b m ∧
        1 ≤ d.1 ∧ 1 ≤ d.2)) := by
  by_cases hne : 1 ≤ d.1 ∧ 1 ≤ d.2
  · refine .inr ⟨fun h => by have := h.1; omega, ?_⟩
    rcases block_step cfg hv tl d hne (.inl hc) with e | ⟨b, e, h1, h2⟩
    · exact .inl e
    · exact .inr ⟨b, e, h1, h2, hne⟩
  · have hd : d.1 = 0 ∨ d.2 = 0 := by omega
    by_cases hf : Fits m.layout tl d
    · by_cases hW : tl.1 + d.1 < W ∧ tl.2 + d.2 < W
      · rw [block_empty cfg hc hm hW hf hd]
        split
        · rename_i h; exact .inl ⟨rfl, hd, hf, hW.1, hW.2, h.1, h.2⟩
        · rename_i h; exact .inr ⟨fun hb => h hb.2.2.2.2, .inl rfl⟩
      · refine .inr ⟨fun hb => hW ⟨hb.2.2.1, hb.2.2.2.1⟩, .inl ?_⟩
        unfold BaseMatrix.block
        by_cases h1 : tl.1 + d.1 < W
        · have h2 : ¬ tl.2 + d.2 < W := fun h2 => hW ⟨h1, h2⟩
          rw [Cfg.add_ok cfg h1, Out.bind_ok]
          simp [Cfg.add, Cfg.wrap, h2, hc]
        · simp [Cfg.add, Cfg.wrap, h1, hc]
    · exact .inr ⟨fun hb => hf hb.2.1, .inl (block_panic_of_not_fits cfg m (.inl hc) hf)⟩

/-- **C29, exactly.** With overflow checks, taking blocks of blocks to any depth, empty ones
included, is undefined exactly if a bad corner of one of the views on the way is asked for. -/
theorem C29_exact [Target] (cfg : Cfg) (hcheck : cfg.overflowChecks = true) (m : BaseMatrix) (mem : Mem α)
    (h : Sound m mem) (hm : IsMajor m.layout) (hc : Contiguous m.layout)
    (args : List ((Nat × Nat) × (Nat × Nat))) :
    nest cfg m args = .ub ↔
      ∃ pre tl d post b, args = pre ++ (tl, d) :: post ∧ nest cfg m pre = .ok b ∧
        BadCorner b tl d := by
  have key : ∀ m : BaseMatrix, View m mem → (nest cfg m args = .ub ↔
      ∃ pre tl d post b, args = pre ++ (tl, d) :: post ∧ nest cfg m pre = .ok b ∧
        BadCorner b tl d) := by
    induction args with
    | nil =>
      intro m hv
      refine ⟨fun h => by simp [nest] at h, ?_⟩
      rintro ⟨pre, tl, d, post, b, h, -⟩
      simp at h
    | cons a args ih =>
      intro m hv
      have hcons : ∀ x, nest cfg m (a :: x) = m.block cfg a.1 a.2 >>= fun b => nest cfg b x :=
        fun x => by simp only [nest, List.foldlM_cons]
      rcases block_exact cfg hcheck hv hv.major a.1 a.2 with ⟨e, hb⟩ | ⟨hnb, e | ⟨b, e, hv', -⟩⟩
      · refine ⟨fun _ => ⟨[], a.1, a.2, args, m, rfl, rfl, hb⟩, fun _ => ?_⟩
        rw [hcons, e]; rfl
      · constructor
        · intro h; rw [hcons, e] at h; simp at h
        · rintro ⟨pre, tl, d, post, b, h1, h2, h3⟩
          cases pre with
          | nil =>
            obtain ⟨rfl, -⟩ := by simpa using h1
            obtain rfl : m = b := by simpa [nest] using h2
            exact absurd h3 hnb
          | cons a' pre =>
            obtain ⟨rfl, -⟩ := by simpa using h1
            have : nest cfg m (a :: pre) = .panic := by
              simp only [nest, List.foldlM_cons, e]; rfl
            rw [this] at h2; simp at h2
      · rw [hcons, e, Out.bind_ok, ih b hv']
        constructor
        · rintro ⟨pre, tl, d, post, b', h1, h2, h3⟩
          refine ⟨a :: pre, tl, d, post, b', by rw [h1]; rfl, ?_, h3⟩
          simp only [nest, List.foldlM_cons, e, Out.bind_ok]
          exact h2
        · rintro ⟨pre, tl, d, post, b', h1, h2, h3⟩
          cases pre with
          | nil =>
            obtain ⟨rfl, -⟩ := by simpa using h1
            obtain rfl : m = b' := by simpa [nest] using h2
            exact absurd h3 hnb
          | cons a' pre =>
            obtain ⟨rfl, h1'⟩ := List.cons.inj h1
            refine ⟨pre, tl, d, post, b', h1', ?_, h3⟩
            simp only [nest, List.foldlM_cons, e, Out.bind_ok] at h2
            exact h2
  exact key m (view_of_contiguous h hm hc)

example : BadCorner exRow (2, 1) (0, 2) ∧ ¬ BadCorner exRow (2, 0) (0, 2) ∧
    ¬ BadCorner exRow (1, 1) (0, 2) ∧ nest dbg exRow [((0, 0), (2, 3)), ((2, 1), (0, 2))] = .ub ∧
    nest dbg exRow [((0, 0), (2, 3)), ((2, 0), (0, 2))] = .panic := by decide

/-- The operation asks for an empty block at a bad corner. -/
def AsksBadCorner [Target] (s : St α) : Op α → Prop
  | .block h tl d => ∃ b, s.base? h = some b ∧ hasBlock b = true ∧ BadCorner b tl d
  | _ => False

/-- The operation multiplies matrices of compatible dimensions, and the kernel takes a cell of the
result for an element of a factor too. (`matmul` takes the factors by `&` and the result by `&mut`;
the borrow checker only lets this happen for parts of splits: `C77_exact`.) -/
def AsksAliasedProduct (s : St α) : Op α → Prop
  | .matmul _ a b _ c => ∃ ma mb mc, s.base? a = some ma ∧ s.base? b = some mb ∧
      s.base? c = some mc ∧ matmulImpl ma mb mc = true ∧ NotTriangular ma.layout ∧
      NotTriangular mb.layout ∧ NotTriangular mc.layout ∧
      Compatible ma.layout mb.layout mc.layout ∧ (¬ KernelApart mc ma ∨ ¬ KernelApart mc mb)
  | _ => False

/-- The two ways to undefined behaviour that are left with overflow checks and without arbitrary
strides. -/
def AsksUndefined [Target] (s : St α) (op : Op α) : Prop :=
  AsksBadCorner s op ∨ AsksAliasedProduct s op

section Programs

variable [Zero α] [One α] [Add α] [Mul α]

/-- One operation that does not multiply overlapping views, empty blocks included. -/
theorem block_step_exact [Target] (cfg : Cfg) (hc : cfg.overflowChecks = true) (kern : Kern α) (s : St α)
    (hi : Inv s) (op : Op α) (h1 : NoStrides op) (h2 : NoOverlap s op) :
    (op.exec cfg kern s = .ub ∧ AsksBadCorner s op) ∨
    (¬ AsksBadCorner s op ∧ StepOK (op.exec cfg kern s) s) := by
  by_cases h3 : NoEmptyBlock op
  · refine .inr ⟨fun hb => ?_, step_good cfg kern s hi op h1 h2 h3 (.inl hc)⟩
    cases op with
    | block h tl d =>
      obtain ⟨b, -, -, hd, -⟩ := hb
      have h3' : 1 ≤ d.1 ∧ 1 ≤ d.2 := h3
      omega
    | _ => exact hb
  · cases op with
    | block h tl d =>
      simp only [Op.exec]
      cases hb : s.base? h with
      | none =>
        refine .inr ⟨fun hx => ?_, .panic⟩
        obtain ⟨b, hb', -⟩ := hx
        rw [hb] at hb'; simp at hb'
      | some b =>
        simp only [withSome]
        by_cases hB : hasBlock b = true
        · rw [if_pos hB]
          have hm : IsMajor b.layout := by
            unfold hasBlock at hB
            cases hl : b.layout <;> simp_all [IsMajor]
          rcases block_exact cfg hc ((hi.base hb).view hm) hm tl d with
            ⟨e, hbad⟩ | ⟨hnb, e | ⟨v, -, -, -, hne⟩⟩
          · exact .inl ⟨by rw [e]; rfl, b, hb, hB, hbad⟩
          · refine .inr ⟨fun hx => ?_, by rw [e]; exact .panic⟩
            obtain ⟨b', hb', -, hbad⟩ := hx
            obtain rfl : b = b' := by simpa [hb] using hb'
            exact hnb hbad
          · exact absurd hne h3
        · rw [if_neg hB]
          refine .inr ⟨fun hx => ?_, .panic⟩
          obtain ⟨b', hb', hB', -⟩ := hx
          obtain rfl : b = b' := by simpa [hb] using hb'
          exact hB hB'
    | _ => exact absurd trivial h3

/-- One operation, empty blocks and products of overlapping views included. -/
theorem step_exact [Target] (cfg : Cfg) (hc : cfg.overflowChecks = true) (kern : Kern α) (s : St α)
    (hi : Inv s) (op : Op α) (h1 : NoStrides op) :
    (op.exec cfg kern s = .ub ∧ AsksUndefined s op) ∨
    (¬ AsksUndefined s op ∧ StepOK (op.exec cfg kern s) s) := by
  have key : (∀ x a b y c, op ≠ .matmul x a b y c) → NoOverlap s op →
      (op.exec cfg kern s = .ub ∧ AsksUndefined s op) ∨
      (¬ AsksUndefined s op ∧ StepOK (op.exec cfg kern s) s) := by
    intro hne h2
    rcases block_step_exact cfg hc kern s hi op h1 h2 with ⟨e, h⟩ | ⟨h, e⟩
    · exact .inl ⟨e, .inl h⟩
    · refine .inr ⟨fun hu => ?_, e⟩
      rcases hu with hu | hu
      · exact h hu
      · cases op with
        | matmul x a b y c => exact hne _ _ _ _ _ rfl
        | _ => exact hu
  cases op with
  | matmul alpha a b beta c =>
    have hstep : ∀ A B C, s.base? a = some A → s.base? b = some B → s.base? c = some C →
        AsksUndefined s (.matmul alpha a b beta c) → matmulImpl A B C = true ∧
        NotTriangular A.layout ∧ NotTriangular B.layout ∧ NotTriangular C.layout ∧
        Compatible A.layout B.layout C.layout ∧ (¬ KernelApart C A ∨ ¬ KernelApart C B) := by
      intro A B C hA hB hC hu
      rcases hu with hu | ⟨A', B', C', e1, e2, e3, h⟩
      · exact absurd hu id
      · obtain rfl : A = A' := by simpa [hA] using e1
        obtain rfl : B = B' := by simpa [hB] using e2
        obtain rfl : C = C' := by simpa [hC] using e3
        exact h
    simp only [Op.exec]
    cases hA : s.base? a with
    | none =>
      refine .inr ⟨fun hu => ?_, .panic⟩
      rcases hu with hu | ⟨A', B', C', e1, -⟩
      · exact hu
      · simp [hA] at e1
    | some A =>
    cases hB : s.base? b with
    | none =>
      refine .inr ⟨fun hu => ?_, .panic⟩
      rcases hu with hu | ⟨A', B', C', -, e1, -⟩
      · exact hu
      · simp [hB] at e1
    | some B =>
    cases hC : s.base? c with
    | none =>
      refine .inr ⟨fun hu => ?_, .panic⟩
      rcases hu with hu | ⟨A', B', C', -, -, e1, -⟩
      · exact hu
      · simp [hC] at e1
    | some C =>
    simp only [withSome]
    by_cases him : matmulImpl A B C = true
    · rw [if_pos him]
      have gA := hi.base hA
      have gB := hi.base hB
      have gC := hi.base hC
      have stepOf : ∀ o, Householder.matmul kern alpha A B beta C s.mem = o → o ≠ .ub →
          StepOK (Householder.matmul kern alpha A B beta C s.mem >>= fun mem =>
            pure (.done, ⟨mem, s.mats⟩)) s := by
        intro o e hne
        cases o with
        | ok mem' => rw [e]; exact .write hi _ (matmul_size e)
        | panic => rw [e]; exact .panic
        | ub => exact absurd rfl hne
      by_cases ht : NotTriangular A.layout ∧ NotTriangular B.layout ∧ NotTriangular C.layout
      · by_cases hd : Compatible A.layout B.layout C.layout
        · have hub := matmul_ub_iff (kern := kern) (alpha := alpha) (beta := beta) gA.sound gB.sound
            gC.sound ht.1 ht.2.1 ht.2.2 gA.noOverlap gB.noOverlap gC.noOverlap hd
          by_cases hk : ¬ KernelApart C A ∨ ¬ KernelApart C B
          · refine .inl ⟨?_, .inr ⟨A, B, C, hA, hB, hC, him, ht.1, ht.2.1, ht.2.2, hd, hk⟩⟩
            rw [hub.2 hk]; rfl
          · exact .inr ⟨fun hu => hk (hstep A B C hA hB hC hu).2.2.2.2.2,
              stepOf _ rfl fun h => hk (hub.1 h)⟩
        · refine .inr ⟨fun hu => hd (hstep A B C hA hB hC hu).2.2.2.2.1, ?_⟩
          refine stepOf .panic ?_ (by simp)
          exact (C42_dimensions kern alpha beta A B C ht.1 ht.2.1 ht.2.2).1 hd s.mem
      · refine .inr ⟨fun hu => ht ?_, stepOf _ (matmul_tri kern alpha beta A B C s.mem ht) (by simp)⟩
        obtain ⟨-, h1, h2, h3, -⟩ := hstep A B C hA hB hC hu
        exact ⟨h1, h2, h3⟩
    · rw [if_neg him]
      exact .inr ⟨fun hu => him (hstep A B C hA hB hC hu).1, .panic⟩
  | _ => exact key (by intros; simp) trivial

theorem run_exact [Target] (cfg : Cfg) (hc : cfg.overflowChecks = true) (kern : Kern α) (s : St α)
    (hi : Inv s) (ops : List (Op α))
    (h : Along cfg kern (fun _ op => NoStrides op) s ops) :
    (runProgram cfg kern s ops = none ↔
      ∃ pre op post os s', ops = pre ++ op :: post ∧ runProgram cfg kern s pre = some (os, s') ∧
        AsksUndefined s' op) ∧
    ∀ os s', runProgram cfg kern s ops = some (os, s') → os.length = ops.length ∧ Inv s' := by
  induction ops generalizing s with
  | nil =>
    refine ⟨⟨fun h => by simp [runProgram] at h, ?_⟩, ?_⟩
    · rintro ⟨pre, op, post, os, s', h, -⟩
      simp at h
    · intro os s' he
      simp only [runProgram, Option.some.injEq, Prod.mk.injEq] at he
      obtain ⟨rfl, rfl⟩ := he
      exact ⟨rfl, hi⟩
  | cons op ops ih =>
    obtain ⟨h1, hr⟩ := h
    rcases step_exact cfg hc kern s hi op h1 with ⟨e, hb⟩ | ⟨hnb, hok⟩
    · have hn : runProgram cfg kern s (op :: ops) = none := by simp [runProgram, Op.step, e]
      rw [hn]
      exact ⟨⟨fun _ => ⟨[], op, ops, [], s, rfl, rfl, hb⟩, fun _ => rfl⟩, fun _ _ h => by simp at h⟩
    · obtain ⟨o, s1, e, hi1⟩ : ∃ o s1, op.step cfg kern s = some (o, s1) ∧ Inv s1 := by
        rcases hok with e | ⟨o, s', e, hs, -⟩
        · exact ⟨.panicked, s, by simp [Op.step, e], hi⟩
        · exact ⟨o, s', by simp [Op.step, e], hs⟩
      obtain ⟨ih1, ih2⟩ := ih s1 hi1 (hr o s1 e)
      have hrun : ∀ x, runProgram cfg kern s (op :: x) =
          (runProgram cfg kern s1 x).bind fun y => some (o :: y.1, y.2) := by
        intro x
        simp only [runProgram, e, Option.bind_eq_bind, Option.bind_some]
        rfl
      constructor
      · rw [hrun, Option.bind_eq_none_iff]
        constructor
        · intro hn
          have hn' : runProgram cfg kern s1 ops = none := by
            cases hx : runProgram cfg kern s1 ops with
            | none => rfl
            | some y => simpa using hn y hx
          obtain ⟨pre, op', post, os, s', h3, h4, h5⟩ := ih1.1 hn'
          exact ⟨op :: pre, op', post, o :: os, s', by rw [h3]; rfl, by rw [hrun, h4]; rfl, h5⟩
        · rintro ⟨pre, op', post, os, s', h3, h4, h5⟩
          cases pre with
          | nil =>
            obtain ⟨rfl, -⟩ := by simpa using h3
            simp only [runProgram, Option.some.injEq, Prod.mk.injEq] at h4
            obtain ⟨-, rfl⟩ := h4
            exact absurd h5 hnb
          | cons op0 pre =>
            obtain ⟨rfl, h3'⟩ := List.cons.inj h3
            rw [hrun] at h4
            obtain ⟨y, h6, h7⟩ := Option.bind_eq_some_iff.1 h4
            simp only [Option.some.injEq, Prod.mk.injEq] at h7
            have hn' := ih1.2 ⟨pre, op', post, y.1, y.2, h3', h6, by rw [h7.2]; exact h5⟩
            intro z hz
            rw [hn'] at hz; simp at hz
      · intro os s' he
        rw [hrun] at he
        obtain ⟨y, h6, h7⟩ := Option.bind_eq_some_iff.1 he
        simp only [Option.some.injEq, Prod.mk.injEq] at h7
        obtain ⟨h8, h9⟩ := ih2 y.1 y.2 h6
        rw [← h7.1, ← h7.2]
        exact ⟨by simp [h8], h9⟩

/-- **C50, exactly.** With overflow checks, a program of safe operations, however long, that gives
no arbitrary strides to `from_data` gets to undefined behaviour exactly if it asks for an empty
block at a bad corner or multiplies into a matrix that the kernel confuses with a factor. If it does
not, every operation finishes or panics, and at the end everything the program made can be accessed
safely. -/
theorem C50_exact [Target] (cfg : Cfg) (kern : Kern α) (ops : List (Op α))
    (hc : cfg.overflowChecks = true)
    (h : Along cfg kern (fun _ op => NoStrides op) St.init ops) :
    (runProgram cfg kern St.init ops = none ↔
      ∃ pre op post os s, ops = pre ++ op :: post ∧
        runProgram cfg kern St.init pre = some (os, s) ∧ AsksUndefined s op) ∧
    ∀ os s, runProgram cfg kern St.init ops = some (os, s) →
      os.length = ops.length ∧ Accessible cfg s := by
  have hi : Inv (St.init : St α) := fun m hm => by simp [St.init] at hm
  obtain ⟨h1, h2⟩ := run_exact cfg hc kern St.init hi ops h
  refine ⟨h1, fun os s he => ?_⟩
  obtain ⟨h3, h4⟩ := h2 os s he
  exact ⟨h3, h4.accessible cfg⟩

end Programs

/-- A program with two empty blocks, of which only the second is undefined. -/
def emptyBlocks : List (Op Int) :=
  [.zeros .rowMajor 2 3, .block 0 (1, 1) (0, 2), .block 0 (2, 1) (0, 2)]

example : runProgram dbg exactKern St.init emptyBlocks = none ∧
    (runProgram dbg exactKern St.init (emptyBlocks.take 2)).map (·.1) =
      some [.done, .panicked] := by decide

end Householder.Props
