import Verif.Model.MacroArgs
import Verif.Props.Constructors

/-!
# C79: macro arguments are evaluated once

A macro that is written like a function is expected to evaluate its argument once. `vector!` and
`rand_vector!` do; `mat!` and `rand_mat!` evaluate the dimension expression twice and take the rows
from the first and the columns from the second value.
-/

namespace Householder.Props

open Spec

variable {α σ : Type}

/-! ## What evaluating once means -/

/-- A function of a value applied to an expression: the expression is evaluated, once, before. -/
def once {β γ : Type} (e : Expression σ β) (f : β → Mem α → Out (γ × Mem α)) (s : σ) (mem : Mem α) :
    Out (γ × σ × Mem α) :=
  match e s with
  | .ok (v, s1) => match f v mem with
    | .ok (m, mem') => .ok (m, s1, mem')
    | .panic => .panic
    | .ub => .ub
  | .panic => .panic
  | .ub => .ub

/-- The expression together with a counter of its evaluations. -/
def counted {β : Type} (e : Expression σ β) : Expression (σ × Nat) β := fun s =>
  match e s.1 with
  | .ok (v, s1) => .ok (v, (s1, s.2 + 1))
  | .panic => .panic
  | .ub => .ub

/-- The full statement for `mat!`. -/
def C79_statement [Target] : Prop :=
  ∀ (cfg : Cfg) (dim : Expression Nat (Nat × Nat)) (l : MatLayoutArg) (s : Nat) (mem : Mem Int),
    mat_macro_expr cfg dim l s mem = once dim (fun d => mat_macro_layout cfg d l) s mem

/-- Drawing the next square shape: 2 × 2, then 3 × 3, and so on. -/
def nextSquare : Expression Nat (Nat × Nat) := fun n => .ok ((n, n), n + 1)

/-- **C79 is false of the code**: `mat![f64, next_square()]` makes a 2 × 3 matrix. -/
theorem C79_false [Target] : ¬ C79_statement := by
  intro h
  have := h dbg nextSquare .RowMajor 2 ⟨[]⟩
  revert this
  decide_width

theorem mat_macro_expr_eq [Target] [Zero α] (cfg : Cfg) (dim : Expression σ (Nat × Nat)) (l : MatLayoutArg)
    {s s1 s2 : σ} {d d' : Nat × Nat} (mem : Mem α) (h1 : dim s = .ok (d, s1))
    (h2 : dim s1 = .ok (d', s2)) :
    mat_macro_expr cfg dim l s mem =
      (mat_macro_layout cfg (d.1, d'.2) l mem >>= fun x => .ok (x.1, s2, x.2)) := by
  unfold mat_macro_expr
  rw [h1]
  simp only [Out.bind_ok]
  rw [h2]
  cases l <;> rfl

theorem once_ok {β γ : Type} {e : Expression σ β} {f : β → Mem α → Out (γ × Mem α)} {s s1 : σ}
    {v : β} {mem : Mem α} (h : e s = .ok (v, s1)) :
    once e f s mem = (f v mem >>= fun x => .ok (x.1, s1, x.2)) := by
  unfold once
  rw [h]
  simp only
  cases f v mem <;> rfl

/-- **C79, partial.** `mat!` of a dimension expression whose second evaluation yields the same value
and changes nothing more (a variable, a tuple of variables, a pure function call) is as if it were
evaluated once; also if it panics. Missing: other expressions, see `C79_exact`. -/
theorem C79_partial [Target] [Zero α] (cfg : Cfg) (dim : Expression σ (Nat × Nat)) (l : MatLayoutArg) (s : σ)
    (mem : Mem α) (h : ∀ d s1, dim s = .ok (d, s1) → dim s1 = .ok (d, s1)) :
    mat_macro_expr cfg dim l s mem = once dim (fun d => mat_macro_layout cfg d l) s mem := by
  cases hd : dim s with
  | ok x =>
    rw [mat_macro_expr_eq cfg dim l mem hd (h x.1 x.2 hd), once_ok hd]
  | panic => simp [mat_macro_expr, once, hd]
  | ub => simp [mat_macro_expr, once, hd]

example : (∀ d s1, (fun n : Nat => (.ok ((n, 2 * n), n) : Out ((Nat × Nat) × Nat))) 5 = .ok (d, s1) →
      (fun n : Nat => (.ok ((n, 2 * n), n) : Out ((Nat × Nat) × Nat))) s1 = .ok (d, s1)) := by
  rintro d s1 h
  obtain ⟨rfl, rfl⟩ : d = (5, 10) ∧ s1 = 5 := by simpa [eq_comm] using h
  rfl

/-- **C79**, what `mat!` does for every dimension expression: a new zero matrix with the rows of the
first value and the columns of the second. -/
theorem C79_shape [Target] [Zero α] (cfg : Cfg) (dim : Expression σ (Nat × Nat)) (s s1 s2 : σ)
    (d d' : Nat × Nat) (mem : Mem α) (h1 : dim s = .ok (d, s1)) (h2 : dim s1 = .ok (d', s2))
    (hsz : d.1 * d'.2 * cfg.item.size ≤ isizeMax) :
    (∃ m mem', mat_macro_expr cfg dim .RowMajor s mem = .ok (m, s2, mem') ∧
      IsNewZero cfg m d.1 d'.2 mem mem' ∧ m.layout = .rowMajor ⟨(d.1, d'.2)⟩) ∧
    (∃ m mem', mat_macro_expr cfg dim .ColumnMajor s mem = .ok (m, s2, mem') ∧
      IsNewZero cfg m d.1 d'.2 mem mem' ∧ m.layout = .columnMajor ⟨(d.1, d'.2)⟩) := by
  obtain ⟨⟨m, mem', -, e, hz, hl⟩, m2, mem2, e2, hz2, hl2⟩ := (C52_macros cfg mem).1 (d.1, d'.2) hsz
  refine ⟨⟨m, mem', ?_, hz, hl⟩, m2, mem2, ?_, hz2, hl2⟩
  · rw [mat_macro_expr_eq cfg dim _ mem h1 h2, e]; rfl
  · rw [mat_macro_expr_eq cfg dim _ mem h1 h2, e2]; rfl

example : mat_macro_expr dbg nextSquare .ColumnMajor 2 (⟨[]⟩ : Mem Int) =
    .ok (⟨⟨0, 0, 6⟩, .columnMajor ⟨(2, 3)⟩, .dynamic, .dynamic⟩, 4, ⟨[[0, 0, 0, 0, 0, 0]]⟩) := by
  decide

/-- **C79, exactly** (both matrices small enough to exist): `mat!` is as if the dimension expression
were evaluated once if and only if its second evaluation yields the same number of columns and leaves
the state that the first one left. -/
theorem C79_exact [Target] [Zero α] (cfg : Cfg) (dim : Expression σ (Nat × Nat)) (l : MatLayoutArg)
    (s s1 s2 : σ) (d d' : Nat × Nat) (mem : Mem α) (h1 : dim s = .ok (d, s1))
    (h2 : dim s1 = .ok (d', s2)) (hsz : d.1 * d'.2 * cfg.item.size ≤ isizeMax)
    (hsz' : d.1 * d.2 * cfg.item.size ≤ isizeMax) :
    mat_macro_expr cfg dim l s mem = once dim (fun d => mat_macro_layout cfg d l) s mem ↔
      d'.2 = d.2 ∧ s2 = s1 := by
  rw [mat_macro_expr_eq cfg dim l mem h1 h2, once_ok h1]
  constructor
  · intro h
    obtain ⟨⟨m, mem', -, e, -, hl⟩, m2, mem2, e2, -, hl2⟩ :=
      (C52_macros cfg mem).1 (d.1, d'.2) hsz
    obtain ⟨⟨n, nem', -, f, -, gl⟩, n2, nem2, f2, -, gl2⟩ := (C52_macros cfg mem).1 d hsz'
    cases l with
    | RowMajor =>
      rw [e, f] at h
      simp only [Out.bind_ok, Out.ok.injEq, Prod.mk.injEq] at h
      obtain ⟨rfl, hs, -⟩ := h
      rw [hl] at gl
      simp only [Layout.rowMajor.injEq, RowMajor.mk.injEq] at gl
      exact ⟨by rw [← gl], hs⟩
    | ColumnMajor =>
      rw [e2, f2] at h
      simp only [Out.bind_ok, Out.ok.injEq, Prod.mk.injEq] at h
      obtain ⟨rfl, hs, -⟩ := h
      rw [hl2] at gl2
      simp only [Layout.columnMajor.injEq, ColumnMajor.mk.injEq] at gl2
      exact ⟨by rw [← gl2], hs⟩
  · rintro ⟨h, rfl⟩
    rw [h]

/-- **C79**, `rand_mat!`: shape and samples for every dimension expression. The expression may draw
from the same generator: both evaluations come before the elements. -/
theorem C79_random_shape [Target] [Zero α] (cfg : Cfg) (dim : Expression σ (Nat × Nat)) (s s1 s2 : σ)
    (d d' : Nat × Nat) (mem : Mem α) (smp : Sampler σ α) (h1 : dim s = .ok (d, s1))
    (h2 : dim s1 = .ok (d', s2)) (hsz : d.1 * d'.2 * cfg.item.size ≤ isizeMax) :
    (∃ m mem', rand_mat_macro_expr cfg dim .RowMajor (random_scalar_real smp) s mem =
        .ok (m, genAfter smp s2 (d.1 * d'.2), mem') ∧
      IsNewRandom cfg m (.rowMajor ⟨(d.1, d'.2)⟩) smp s2 mem mem') ∧
    (∃ m mem', rand_mat_macro_expr cfg dim .ColumnMajor (random_scalar_real smp) s mem =
        .ok (m, genAfter smp s2 (d.1 * d'.2), mem') ∧
      IsNewRandom cfg m (.columnMajor ⟨(d.1, d'.2)⟩) smp s2 mem mem') := by
  have key : ∀ l, rand_mat_macro_expr cfg dim l (random_scalar_real smp) s mem =
      rand_mat_macro_layout cfg (d.1, d'.2) l (random_scalar_real smp) s2 mem := by
    intro l
    unfold rand_mat_macro_expr rand_mat_macro_layout
    rw [mat_macro_expr_eq cfg dim l mem h1 h2]
    cases mat_macro_layout cfg (d.1, d'.2) l mem <;> rfl
  obtain ⟨⟨m, mem', -, e, hz⟩, m2, mem2, e2, hz2⟩ :=
    (C52_random_macros cfg mem smp s2).1 (d.1, d'.2) hsz
  exact ⟨⟨m, mem', by rw [key, e], hz⟩, m2, mem2, by rw [key, e2], hz2⟩

/-- The shape is drawn from the generator that fills the matrix. -/
example : rand_mat_macro_expr dbg nextSquare .RowMajor
      (random_scalar_real ⟨fun n : Nat => ((n : Int), n + 1)⟩) 1 (⟨[]⟩ : Mem Int) =
    .ok (⟨⟨0, 0, 2⟩, .rowMajor ⟨(1, 2)⟩, .dynamic, .dynamic⟩, 5, ⟨[[3, 4]]⟩) := by decide

/-- **C79**, `vector!` and `rand_vector!` evaluate the length once: they are the functions of its
value, for every expression. -/
theorem C79_vectors [Target] [Zero α] (cfg : Cfg) (len : Expression σ Nat) (l : VecLayoutArg) (s : σ)
    (mem : Mem α) :
    vector_macro_expr cfg len l s mem = once len (fun n => vector_macro_layout cfg n l) s mem ∧
    ∀ (draw : σ → α × σ) n s1, len s = .ok (n, s1) →
      rand_vector_macro_expr cfg len l draw s mem =
        rand_vector_macro_layout cfg n l draw s1 mem := by
  have key : ∀ n s1, len s = .ok (n, s1) → vector_macro_expr cfg len l s mem =
      (vector_macro_layout cfg n l mem >>= fun x => .ok (x.1, s1, x.2)) := by
    intro n s1 h
    unfold vector_macro_expr
    rw [h]
    cases l <;> rfl
  refine ⟨?_, fun draw n s1 h => ?_⟩
  · cases hd : len s with
    | ok x => rw [key x.1 x.2 hd, once_ok hd]
    | panic => simp [vector_macro_expr, once, hd]
    | ub => simp [vector_macro_expr, once, hd]
  · unfold rand_vector_macro_expr rand_vector_macro_layout
    rw [key n s1 h]
    cases vector_macro_layout cfg n l mem <;> rfl

/-- **C79**, the number of evaluations in every run that completes: two for `mat!`, one for
`vector!`. -/
theorem C79_count [Target] [Zero α] (cfg : Cfg) (mem : Mem α) (s s' : σ) (n n' : Nat) (m : BaseMatrix)
    (mem' : Mem α) :
    (∀ (dim : Expression σ (Nat × Nat)) l,
      mat_macro_expr cfg (counted dim) l (s, n) mem = .ok (m, (s', n'), mem') → n' = n + 2) ∧
    (∀ (len : Expression σ Nat) l,
      vector_macro_expr cfg (counted len) l (s, n) mem = .ok (m, (s', n'), mem') → n' = n + 1) := by
  refine ⟨fun dim l h => ?_, fun len l h => ?_⟩
  · cases h1 : dim s with
    | panic => simp [mat_macro_expr, counted, h1] at h
    | ub => simp [mat_macro_expr, counted, h1] at h
    | ok x =>
      cases h2 : dim x.2 with
      | panic => simp [mat_macro_expr, counted, h1, h2] at h
      | ub => simp [mat_macro_expr, counted, h1, h2] at h
      | ok y =>
        rw [mat_macro_expr_eq cfg (counted dim) l mem (d := x.1) (s1 := (x.2, n + 1)) (d' := y.1)
          (s2 := (y.2, n + 1 + 1)) (by simp [counted, h1]) (by simp [counted, h2])] at h
        revert h
        cases mat_macro_layout cfg (x.1.1, y.1.2) l mem <;> simp
        omega
  · cases h1 : len s with
    | panic => simp [vector_macro_expr, counted, h1] at h
    | ub => simp [vector_macro_expr, counted, h1] at h
    | ok x =>
      rw [(C79_vectors cfg (counted len) l (s, n) mem).1, once_ok (s1 := (x.2, n + 1)) (v := x.1)
        (by simp [counted, h1])] at h
      revert h
      cases vector_macro_layout cfg x.1 l mem <;> simp
      omega

example : (mat_macro_expr dbg (counted nextSquare) .RowMajor (1, 0) (⟨[]⟩ : Mem Int) >>=
      fun x => .ok x.2.1) = .ok (3, 2) ∧
    (vector_macro_expr dbg (counted fun n : Nat => .ok (n, n + 1)) .RowVector (1, 0)
      (⟨[]⟩ : Mem Int) >>= fun x => .ok x.2.1) = .ok (2, 1) := by decide

end Householder.Props
