import Verif.Spec.OutOfMemory
import Verif.Lemmas.Keeps

/-!
# Computations in limited memory
-/

namespace Householder.Spec

open Steps Props

variable {α β γ σ : Type}

theorem within_cases (grant : Allocator α) (t : Steps α β) (mem : Mem α) :
    t.within grant mem = (t.finish mem).map (fun y => (Ending.of y.1, y.2)) ∨
      ∃ m, t.within grant mem = some (.aborted, m) := by
  induction t generalizing mem with
  | done x => cases x <;> exact .inl rfl
  | read p k ih =>
    simp only [within, finish]
    cases mem.get? p with
    | none => exact .inl rfl
    | some v => exact ih v mem
  | write p v k ih =>
    simp only [within, finish]
    cases mem.get? p with
    | none => exact .inl rfl
    | some w => exact ih _
  | alloc xs k ih =>
    simp only [within, finish]
    split
    · exact ih _ _
    · exact .inr ⟨_, rfl⟩

theorem of_ne_aborted (x : Option β) : Ending.of x ≠ .aborted := by cases x <;> simp [Ending.of]

theorem within_ended {grant : Allocator α} {t : Steps α β} {mem m : Mem α} {e : Ending β}
    (h : t.within grant mem = some (e, m)) (he : e ≠ .aborted) :
    ∃ x, t.finish mem = some (x, m) ∧ e = Ending.of x := by
  rcases within_cases grant t mem with h' | ⟨m', h'⟩
  · rw [h] at h'
    cases hf : t.finish mem with
    | none => rw [hf] at h'; cases h'
    | some y =>
      rw [hf] at h'
      cases h'
      exact ⟨_, rfl, rfl⟩
  · rw [h] at h'
    cases h'
    exact absurd rfl he

theorem within_more {grant grant' : Allocator α} (hg : ∀ m k, grant m k = true → grant' m k = true)
    (t : Steps α β) (mem : Mem α) (h : ∀ m, t.within grant mem ≠ some (.aborted, m)) :
    t.within grant' mem = t.within grant mem := by
  induction t generalizing mem with
  | done x => cases x <;> rfl
  | read p k ih =>
    simp only [within] at h ⊢
    cases hv : mem.get? p with
    | none => rfl
    | some v => rw [hv] at h; exact ih v mem h
  | write p v k ih =>
    simp only [within] at h ⊢
    cases hv : mem.get? p with
    | none => rfl
    | some w => rw [hv] at h; exact ih _ h
  | alloc xs k ih =>
    simp only [within] at h ⊢
    by_cases hc : xs.length = 0 ∨ grant mem xs.length = true
    · rw [if_pos hc] at h ⊢
      rw [if_pos (hc.imp_right (hg _ _))]
      exact ih _ _ h
    · rw [if_neg hc] at h
      exact absurd rfl (h _)

theorem within_free {grant : Allocator α} {t : Steps α β} (ht : AllocFree t) (mem : Mem α) :
    t.within grant mem = (t.finish mem).map (fun y => (Ending.of y.1, y.2)) := by
  induction t generalizing mem with
  | done x => cases x <;> rfl
  | read p k ih =>
    simp only [within, finish]
    cases mem.get? p with
    | none => rfl
    | some v => exact ih v (ht v) mem
  | write p v k ih =>
    simp only [within, finish]
    cases mem.get? p with
    | none => rfl
    | some w => exact ih ht _
  | alloc xs k ih => exact ht.elim

theorem within_intact {grant : Allocator α} {t : Steps α β} (ht : Upfront t) {mem m : Mem α}
    (h : t.within grant mem = some (.aborted, m)) : ∃ ys, m.bufs = mem.bufs ++ ys := by
  induction t generalizing mem with
  | done x => cases x <;> cases h
  | read p k ih =>
    simp only [within] at h
    cases hv : mem.get? p with
    | none => rw [hv] at h; cases h
    | some v => rw [hv] at h; exact ih v (ht v) h
  | write p v k ih =>
    simp only [within] at h
    cases hv : mem.get? p with
    | none => rw [hv] at h; cases h
    | some w =>
      rw [hv] at h
      change k.within grant _ = _ at h
      rw [within_free ht] at h
      cases hf : k.finish ⟨mem.bufs.modify p.buf (·.set p.idx v)⟩ with
      | none => rw [hf] at h; cases h
      | some y =>
        rw [hf] at h
        simp only [Option.map_some, Option.some.injEq, Prod.mk.injEq] at h
        exact absurd h.1 (of_ne_aborted _)
  | alloc xs k ih =>
    simp only [within] at h
    split at h
    · obtain ⟨ys, e⟩ := ih _ (ht _) h
      exact ⟨xs :: ys, by rw [e]; simp⟩
    · cases h
      exact ⟨[], by simp⟩

/-! ### How much memory is in use -/

/-- The number of elements in memory. -/
def inUse (mem : Mem α) : Nat := (mem.bufs.map List.length).sum

theorem inUse_write (mem : Mem α) (p : Loc) (v : α) :
    inUse ⟨mem.bufs.modify p.buf (·.set p.idx v)⟩ = inUse mem := by
  unfold inUse
  congr 1
  apply List.ext_getElem? 
  intro i
  simp only [List.getElem?_map, List.getElem?_modify]
  cases mem.bufs[i]? with
  | none => rfl
  | some xs => simp only [Option.map_some]; split <;> simp

theorem inUse_alloc (mem : Mem α) (xs : List α) :
    inUse ⟨mem.bufs ++ [xs]⟩ = inUse mem + xs.length := by simp [inUse]

theorem inUse_finish {t : Steps α β} {mem m : Mem α} {x : Option β}
    (h : t.finish mem = some (x, m)) : inUse mem ≤ inUse m := by
  induction t generalizing mem with
  | done y => cases y <;> cases h <;> exact le_refl _
  | read p k ih =>
    simp only [finish, Option.bind_eq_some_iff] at h
    obtain ⟨v, -, h⟩ := h
    exact ih v h
  | write p v k ih =>
    simp only [finish, Option.bind_eq_some_iff] at h
    obtain ⟨w, -, h⟩ := h
    have := ih h
    rwa [inUse_write] at this
  | alloc xs k ih =>
    have := ih _ h
    rw [inUse_alloc] at this
    omega

theorem within_room {B : Nat} {t : Steps α β} {mem m : Mem α} {x : Option β}
    (h : t.finish mem = some (x, m)) (hB : inUse mem ≤ B) :
    t.within (roomFor B) mem = some (Ending.of x, m) ↔ inUse m ≤ B := by
  induction t generalizing mem with
  | done y => cases y <;> cases h <;> exact iff_of_true rfl hB
  | read p k ih =>
    simp only [finish, Option.bind_eq_some_iff] at h
    obtain ⟨v, hv, h⟩ := h
    simp only [within, hv, Option.bind_some]
    exact ih v h hB
  | write p v k ih =>
    simp only [finish, Option.bind_eq_some_iff] at h
    obtain ⟨w, hv, h⟩ := h
    simp only [within, hv, Option.bind_some]
    exact ih h (by rwa [inUse_write])
  | alloc xs k ih =>
    have hm := inUse_finish (t := k _) h
    rw [inUse_alloc] at hm
    simp only [within]
    by_cases hc : inUse mem + xs.length ≤ B
    · rw [if_pos (.inr (by simpa [roomFor, inUse] using hc))]
      exact ih _ h (by rwa [inUse_alloc])
    · rw [if_neg]
      · refine iff_of_false (fun e => ?_) (by omega)
        simp only [Option.some.injEq, Prod.mk.injEq] at e
        exact of_ne_aborted _ e.1.symm
      · rintro (h0 | h0)
        · omega
        · exact hc (by simpa [roomFor, inUse] using h0)

theorem within_room_aborted {B : Nat} {t : Steps α β} {mem m : Mem α} {x : Option β}
    (h : t.finish mem = some (x, m)) (hB : inUse mem ≤ B) :
    (∃ m', t.within (roomFor B) mem = some (.aborted, m')) ↔ B < inUse m := by
  rw [← not_le, ← within_room h hB]
  rcases within_cases (roomFor B) t mem with e | ⟨m', e⟩
  · rw [h] at e
    refine iff_of_false ?_ (by rw [not_not]; exact e)
    rintro ⟨m', e'⟩
    rw [e] at e'
    simp only [Option.map_some, Option.some.injEq, Prod.mk.injEq] at e'
    exact of_ne_aborted _ e'.1
  · refine iff_of_true ⟨m', e⟩ ?_
    rw [e]
    intro e'
    simp only [Option.some.injEq, Prod.mk.injEq] at e'
    exact of_ne_aborted _ e'.1.symm

theorem inUse_free {t : Steps α β} (ht : AllocFree t) {mem m : Mem α} {x : Option β}
    (h : t.finish mem = some (x, m)) : inUse m = inUse mem ∧ m.bufs.length = mem.bufs.length := by
  induction t generalizing mem with
  | done y => cases y <;> cases h <;> exact ⟨rfl, rfl⟩
  | read p k ih =>
    simp only [finish, Option.bind_eq_some_iff] at h
    obtain ⟨v, -, h⟩ := h
    exact ih v (ht v) h
  | write p v k ih =>
    simp only [finish, Option.bind_eq_some_iff] at h
    obtain ⟨w, -, h⟩ := h
    have := ih ht h
    rw [inUse_write] at this
    simpa using this
  | alloc xs k ih => exact ht.elim

/-! ### Allocations -/

theorem AllocFree.upfront {t : Steps α β} (h : AllocFree t) : Upfront t := by
  induction t with
  | done x => trivial
  | read p k ih => exact fun v => ih v (h v)
  | write p v k ih => exact h
  | alloc xs k ih => exact h.elim

theorem AllocFree.bind {t : Steps α β} {f : β → Steps α γ} (h : AllocFree t)
    (hf : ∀ b, AllocFree (f b)) : AllocFree (t >>= f) := by
  induction t with
  | done x => cases x with
    | ok b => exact hf b
    | _ => trivial
  | read p k ih => exact fun v => ih v (h v)
  | write p v k ih => exact ih h
  | alloc xs k ih => exact h.elim

theorem Upfront.bind {t : Steps α β} {f : β → Steps α γ} (h : Upfront t)
    (hf : ∀ b, AllocFree (f b)) : Upfront (t >>= f) := by
  induction t with
  | done x => cases x with
    | ok b => exact (hf b).upfront
    | _ => trivial
  | read p k ih => exact fun v => ih v (h v)
  | write p v k ih => exact AllocFree.bind (t := k) h hf
  | alloc xs k ih => exact fun b => ih b (h b)

theorem AllocFree.forRange (n : Nat) {f : Nat → σ → Steps α σ} {s : σ}
    (h : ∀ i b, AllocFree (f i b)) : AllocFree (Steps.forRange n f s) := by
  induction n with
  | zero => trivial
  | succ n ih => rw [Steps.forRange_succ]; exact ih.bind fun b => h n b

theorem AllocFree.mapM {A : Type} (as : List A) {f : A → Steps α β} (h : ∀ a, AllocFree (f a)) :
    AllocFree (as.mapM f) := by
  induction as with
  | nil => trivial
  | cons a as ih =>
    rw [List.mapM_cons]
    exact (h a).bind fun _ => ih.bind fun _ => trivial

/-- The computation makes no allocation, or one, of `n` elements, before anything else. -/
def Asks (n : Option Nat) (t : Steps α β) : Prop :=
  match n with
  | none => AllocFree t
  | some n => ∃ xs k, t = .alloc xs k ∧ xs.length = n ∧ ∀ b, AllocFree (k b)

theorem Asks.bind {n : Option Nat} {t : Steps α β} {f : β → Steps α γ} (h : Asks n t)
    (hf : ∀ b, AllocFree (f b)) : Asks n (t >>= f) := by
  cases n with
  | none => exact AllocFree.bind (t := t) h hf
  | some n =>
    obtain ⟨xs, k, rfl, e, hk⟩ := h
    exact ⟨xs, fun b => k b >>= f, rfl, e, fun b => (hk b).bind hf⟩

theorem Asks.upfront {n : Option Nat} {t : Steps α β} (h : Asks n t) : Upfront t := by
  cases n with
  | none => exact AllocFree.upfront h
  | some n =>
    obtain ⟨xs, k, rfl, e, hk⟩ := h
    exact fun b => (hk b).upfront

theorem Asks.within {n : Option Nat} {t : Steps α β} (h : Asks n t) (grant : Allocator α)
    (mem : Mem α) :
    t.within grant mem = if ∃ k, n = some k ∧ k ≠ 0 ∧ grant mem k = false then some (.aborted, mem)
      else (t.finish mem).map (fun y => (Ending.of y.1, y.2)) := by
  cases n with
  | none => rw [if_neg (by simp)]; exact within_free h mem
  | some n =>
    obtain ⟨xs, k, rfl, e, hk⟩ := h
    simp only [Steps.within, finish, Option.some.injEq]
    by_cases hc : xs.length = 0 ∨ grant mem xs.length = true
    · rw [if_pos hc, if_neg, within_free (hk _)]
      rintro ⟨j, ej, h0, hg⟩
      cases ej
      rw [e] at hc
      rcases hc with hc | hc
      · exact h0 hc
      · rw [hg] at hc; cases hc
    · rw [if_neg hc, if_pos]
      refine ⟨n, rfl, ?_, ?_⟩
      · rw [← e]; exact fun h => hc (.inl h)
      · rw [← e]
        simpa using fun h => hc (.inr h)

theorem Asks.inUse {n : Option Nat} {t : Steps α β} (h : Asks n t) {mem m : Mem α} {x : Option β}
    (hf : t.finish mem = some (x, m)) : inUse m = inUse mem + n.getD 0 ∧
      m.bufs.length = mem.bufs.length + n.elim 0 fun _ => 1 := by
  cases n with
  | none => simpa using inUse_free h hf
  | some n =>
    obtain ⟨xs, k, rfl, e, hk⟩ := h
    have := inUse_free (hk _) hf
    rw [inUse_alloc, e] at this
    simpa using this

theorem Asks.done {n : Option Nat} {A : Type} (x : Out A) {f : A → Steps α β}
    (h : ∀ a, x = .ok a → Asks n (f a)) (hn : (∀ a, x ≠ .ok a) → n = none) :
    Asks n (.done x >>= f) := by
  cases x with
  | ok a => exact h a rfl
  | panic => rw [hn (fun a e => by cases e)]; trivial
  | ub => rw [hn (fun a e => by cases e)]; trivial

section

variable [Target]

theorem asks_newVector [Zero α] (cfg : Cfg) (n : Nat) :
    Asks (vecOf cfg n) (Steps.newVector (α := α) cfg n) := by
  unfold vecOf Steps.newVector
  split
  · exact ⟨_, _, rfl, by simp, fun b => trivial⟩
  · trivial

theorem asks_newSlice (cfg : Cfg) (xs : List α) :
    Asks (vecOf cfg xs.length) (Steps.newSlice cfg xs) := by
  unfold vecOf Steps.newSlice
  split
  · exact ⟨_, _, rfl, rfl, fun b => trivial⟩
  · trivial

omit [Target] in
theorem asks_newArray [Zero α] (n : Nat) : Asks (some n) (Steps.newArray (α := α) n) :=
  ⟨_, _, rfl, by simp, fun _ => trivial⟩

theorem wrap_asUsize (cfg : Cfg) (x : Nat) :
    cfg.wrap x = match asUsize cfg x with
      | some n => .ok n
      | none => .panic := by
  unfold asUsize Cfg.wrap
  split
  · rfl
  · split <;> rfl

theorem sizeOfNew_eq (cfg : Cfg) (k : BaseKind) (r c : Nat) :
    (k.from_dimension (r, c) >>= fun l => l.number_of_elements cfg) =
      match sizeOfNew cfg k r c with
      | some n => .ok n
      | none => .panic := by
  cases k with
  | rowMajor => exact wrap_asUsize cfg (r * c)
  | columnMajor => exact wrap_asUsize cfg (r * c)
  | rowVector =>
    by_cases h : r = 1
    · subst h; rfl
    · simp [BaseKind.from_dimension, RowVector.from_dimension, Out.assert, h, sizeOfNew]
  | columnVector =>
    by_cases h : r = 1
    · subst h; rfl
    · simp [BaseKind.from_dimension, ColumnVector.from_dimension, Out.assert, h, sizeOfNew]
  | upperTriangular =>
    by_cases h : r = c
    · subst h
      simp only [BaseKind.from_dimension, UpperTriangular.from_dimension, Out.assert, sizeOfNew,
        if_true]
      change (cfg.wrap (r + 1) >>= fun a => cfg.wrap (r * a) >>= fun b => udiv b 2) = _
      rw [wrap_asUsize]
      cases asUsize cfg (r + 1) with
      | none => rfl
      | some a =>
        simp only [Out.bind_ok, Option.bind_some]
        rw [wrap_asUsize]
        cases asUsize cfg (r * a) <;> rfl
    · simp [BaseKind.from_dimension, UpperTriangular.from_dimension, Out.assert, h, sizeOfNew]

theorem asks_zeros [Zero α] (cfg : Cfg) (k : BaseKind) (r c : Nat) :
    Asks ((sizeOfNew cfg k r c).bind (vecOf cfg)) (Steps.zeros_from_dim (α := α) cfg k r c) := by
  have h := sizeOfNew_eq cfg k r c
  unfold Steps.zeros_from_dim
  cases hl : k.from_dimension (r, c) with
  | ok l =>
    rw [hl, Out.bind_ok] at h
    rw [done_bind_ok, h]
    cases hs : sizeOfNew cfg k r c with
    | none => trivial
    | some n => exact (asks_newVector cfg n).bind fun d => trivial
  | panic =>
    rw [hl] at h
    cases hs : sizeOfNew cfg k r c with
    | none => trivial
    | some n => rw [hs] at h; cases h
  | ub =>
    rw [hl] at h
    cases hs : sizeOfNew cfg k r c <;> rw [hs] at h <;> cases h

theorem free_get_unchecked [Add α] [Mul α] (cfg : Cfg) (r c : Nat) (m : Mat α) :
    AllocFree (Steps.get_unchecked cfg r c m) := by
  induction m with
  | base b =>
    refine AllocFree.bind (t := .done _) trivial fun k => ?_
    rw [container_get_eq]
    exact AllocFree.bind (t := .done _) trivial fun p => fun v => trivial
  | ref m ih => exact ih
  | addition a b l iha ihb => exact iha.bind fun _ => ihb.bind fun _ => trivial
  | scalarMult m s ih => exact ih.bind fun _ => trivial

theorem free_get1d_unchecked [Add α] [Mul α] (cfg : Cfg) (k : Nat) (m : Mat α) :
    AllocFree (Steps.get1d_unchecked cfg k m) := by
  induction m with
  | base b =>
    refine AllocFree.bind (t := .done _) trivial fun k => ?_
    rw [container_get_eq]
    exact AllocFree.bind (t := .done _) trivial fun p => fun v => trivial
  | ref m ih => exact ih
  | addition a b l iha ihb => exact iha.bind fun _ => ihb.bind fun _ => trivial
  | scalarMult m s ih => exact ih.bind fun _ => trivial

omit [Target] in
theorem free_done {A : Type} (x : Out A) {f : A → Steps α β} (h : ∀ a, AllocFree (f a)) :
    AllocFree (.done x >>= f) := AllocFree.bind (t := .done x) trivial h

theorem free_element (cfg : Cfg) (b : BaseMatrix) (op : ArrOp α) :
    AllocFree (elementSteps cfg b op) := by
  cases op <;> exact free_done _ fun p => by first | exact fun v => trivial | trivial

theorem free_for_each (cfg : Cfg) (b : BaseMatrix) (f : σ → α → σ × α) (s : σ) :
    AllocFree (Steps.for_each cfg b f s) :=
  free_done _ fun n => AllocFree.forRange n fun _ _ => free_done _ fun _ => fun _ => trivial

theorem asks_eval [Zero α] [Add α] [Mul α] (cfg : Cfg) (m : Mat α) :
    Asks ((sizeOfNew cfg m.layout.indexKind m.layout.dim.1 m.layout.dim.2).bind (vecOf cfg))
      (Steps.eval cfg m) :=
  (asks_zeros cfg _ _ _).bind fun _ => free_done _ fun n =>
    AllocFree.bind (AllocFree.forRange n fun i _ =>
      (free_get1d_unchecked cfg i m).bind fun _ => free_done _ fun _ => trivial) fun _ => trivial

/-- `matmul` asks for nothing itself. -/
theorem free_matmul {K : GemmArgs α → Steps α Unit} (hK : ∀ x : GemmArgs α, x.Pre → AllocFree (K x))
    (al : α) (a b : BaseMatrix) (be : α) (c : BaseMatrix) :
    AllocFree (Steps.matmul K al a b be c) := by
  refine free_done _ fun _ => free_done _ fun _ => free_done _ fun _ => free_done _ fun _ => ?_
  unfold Steps.kernel
  split
  · exact hK _ ‹_›
  · trivial

omit [Target] in
theorem upfront_done {A : Type} (x : Out A) {f : A → Steps α β} (h : ∀ a, Upfront (f a)) :
    Upfront (.done x >>= f) := by
  cases x with
  | ok a => exact h a
  | _ => trivial

theorem upfront_matmul {K : GemmArgs α → Steps α Unit} (hK : ∀ x : GemmArgs α, x.Pre → Upfront (K x))
    (al : α) (a b : BaseMatrix) (be : α) (c : BaseMatrix) :
    Upfront (Steps.matmul K al a b be c) := by
  refine upfront_done _ fun _ => upfront_done _ fun _ => upfront_done _ fun _ => upfront_done _ fun _ => ?_
  unfold Steps.kernel
  split
  · exact hK _ ‹_›
  · trivial

/-- The matrix that `dot` multiplies into. -/
def freshResult [Zero α] (cfg : Cfg) (i : DotImpl) (a b : BaseMatrix) : Steps α BaseMatrix :=
  match i with
  | .matMat => Steps.zeros_from_dim cfg .rowMajor a.layout.dim.1 b.layout.dim.2
  | .rowMat => Steps.row_zeros_from_dim cfg a.layout.dim.1 b.layout.dim.2
  | .matCol => Steps.col_zeros_from_dim cfg a.layout.dim.1 b.layout.dim.2

theorem dot_eq [Zero α] [One α] (cfg : Cfg) (K : GemmArgs α → Steps α Unit) (i : DotImpl)
    (a b : BaseMatrix) : Steps.dot cfg K i a b =
      freshResult cfg i a b >>= fun res => Steps.matmul K 1 a b 0 res >>= fun _ => .done (.ok res) := by
  cases i <;> rfl

/-- What `dot` asks for. -/
def dotAsks (cfg : Cfg) (i : DotImpl) (a b : BaseMatrix) : Option Nat :=
  match i with
  | .matMat => (asUsize cfg (a.layout.dim.1 * b.layout.dim.2)).bind (vecOf cfg)
  | .rowMat => if a.layout.dim.1 = 1 then vecOf cfg b.layout.dim.2 else none
  | .matCol => if b.layout.dim.2 = 1 then vecOf cfg a.layout.dim.1 else none

omit [Target] in
theorem asks_assert {n : Option Nat} {p : Prop} [Decidable p] {t : Steps α β} (h : p → Asks n t) :
    Asks (if p then n else none) (Steps.done (Out.assert p) >>= fun _ => t) := by
  unfold Out.assert
  split
  · exact h ‹_›
  · trivial

theorem asks_row_dim [Zero α] (cfg : Cfg) (r c : Nat) :
    Asks (if r = 1 then vecOf cfg c else none) (Steps.row_zeros_from_dim (α := α) cfg r c) :=
  asks_assert fun _ => (asks_newVector cfg c).bind fun _ => trivial

theorem asks_col_dim [Zero α] (cfg : Cfg) (r c : Nat) :
    Asks (if c = 1 then vecOf cfg r else none) (Steps.col_zeros_from_dim (α := α) cfg r c) :=
  asks_assert fun _ => (asks_newVector cfg r).bind fun _ => trivial

theorem asks_freshResult [Zero α] (cfg : Cfg) (i : DotImpl) (a b : BaseMatrix) :
    Asks (dotAsks cfg i a b) (freshResult (α := α) cfg i a b) := by
  cases i with
  | matMat => exact asks_zeros (α := α) cfg .rowMajor _ _
  | rowMat => exact asks_row_dim cfg _ _
  | matCol => exact asks_col_dim cfg _ _

omit [Target] in
theorem asks_with {A B : Type} {n : A → Option Nat} (x : Option A) {f : A → Steps α B}
    (h : ∀ a, x = some a → Asks (n a) (f a)) : Asks (x.bind n) (stepsWith x f) := by
  cases x with
  | none => trivial
  | some a => exact h a rfl

omit [Target] in
theorem free_with {A B : Type} (x : Option A) {f : A → Steps α B}
    (h : ∀ a, x = some a → AllocFree (f a)) : AllocFree (stepsWith x f) := by
  cases x with
  | none => trivial
  | some a => exact h a rfl

omit [Target] in
theorem asks_ite {n : Option Nat} {p : Prop} [Decidable p] {t : Steps α β} (h : p → Asks n t) :
    Asks (if p then n else none) (if p then t else .done .panic) := by
  split
  · exact h ‹_›
  · trivial

omit [Target] in
theorem free_ite {p : Prop} [Decidable p] {t : Steps α β} (h : p → AllocFree t) :
    AllocFree (if p then t else .done .panic) := by
  split
  · exact h ‹_›
  · trivial

theorem op_asks [Zero α] [One α] [Add α] [Mul α] (cfg : Cfg) {K : GemmArgs α → Steps α Unit}
    (hK : ∀ x : GemmArgs α, x.Pre → AllocFree (K x)) (mats : List (Mat α)) (op : Op α) :
    Asks (op.asks cfg mats) (op.steps cfg K mats) := by
  cases op with
  | zeros k r c => exact (asks_zeros cfg k r c).bind fun _ => trivial
  | rowZeros n =>
    exact Asks.bind (t := Steps.row_zeros_from_length cfg n)
      (Asks.bind (asks_newVector cfg n) fun _ => trivial) fun _ => trivial
  | rowZerosDim r c => exact (asks_row_dim cfg r c).bind fun _ => trivial
  | colZeros n =>
    exact Asks.bind (t := Steps.col_zeros_from_length cfg n)
      (Asks.bind (asks_newVector cfg n) fun _ => trivial) fun _ => trivial
  | colZerosDim r c => exact (asks_col_dim cfg r c).bind fun _ => trivial
  | fixedZeros rs cs k =>
    refine asks_ite fun _ => ?_
    exact Asks.bind ((asks_newArray _).bind fun d => free_done _ fun l => trivial) fun _ => trivial
  | fixedVector rs cs k n =>
    refine asks_ite fun hm => ?_
    have hs : ∃ l, k.from_length n = some l := by
      simp only [fixedVectorTypes, List.mem_cons, Prod.mk.injEq, List.not_mem_nil, or_false] at hm
      rcases hm with ⟨-, -, rfl, -⟩ | ⟨-, -, rfl, -⟩ | ⟨-, -, rfl, -⟩ | ⟨-, -, rfl, -⟩ <;> exact ⟨_, rfl⟩
    obtain ⟨l, hl⟩ := hs
    rw [hl]
    exact Asks.bind ((asks_newArray _).bind fun d => trivial) fun _ => trivial
  | fromSlice rs cs xs l =>
    exact (asks_newSlice cfg xs).bind fun _ => free_done _ fun _ => trivial
  | fromVector rs cs n l =>
    exact (asks_newVector cfg n).bind fun _ => free_done _ fun _ => trivial
  | element h op => exact free_with _ fun b _ => (free_element cfg b op).bind fun _ => trivial
  | get h r c =>
    exact free_with _ fun m _ => AllocFree.bind (free_done _ fun _ => free_get_unchecked cfg r c m)
      fun _ => trivial
  | get1d h k =>
    exact free_with _ fun m _ => AllocFree.bind (free_done _ fun _ => free_done _ fun _ =>
      free_get1d_unchecked cfg k m) fun _ => trivial
  | forEach h f => exact free_with _ fun b _ => (free_for_each cfg b _ _).bind fun _ => trivial
  | fillRand h d => exact free_with _ fun b _ => (free_for_each cfg b _ _).bind fun _ => trivial
  | readSlice h i j =>
    exact free_with _ fun b _ => free_done _ fun w => AllocFree.bind (AllocFree.mapM _ fun k => by
      rw [container_get_eq]; exact free_done _ fun p => fun v => trivial) fun _ => trivial
  | writeSlice h i j xs =>
    refine free_with _ fun b _ => free_done _ fun w => AllocFree.bind ?_ fun _ => trivial
    refine free_ite fun _ => AllocFree.forRange _ fun k _ => ?_
    split
    · exact free_done _ fun p => trivial
    · trivial
  | block h tl d =>
    exact free_with _ fun b _ => free_ite fun _ => free_done _ fun _ => trivial
  | split h p =>
    exact free_with _ fun b _ => free_ite fun _ => free_done _ fun _ => trivial
  | ref h => exact free_with _ fun m _ => trivial
  | add rl rr h1 h2 =>
    exact free_with _ fun a _ => free_with _ fun b _ => free_ite fun _ => free_done _ fun _ => trivial
  | scale sf br x h => exact free_with _ fun a _ => trivial
  | eval h => exact asks_with _ fun m _ => asks_ite fun _ => (asks_eval cfg m).bind fun _ => trivial
  | matmul al a b be c =>
    exact free_with _ fun ma _ => free_with _ fun mb _ => free_with _ fun mc _ => free_ite fun _ =>
      (free_matmul hK al ma mb be mc).bind fun _ => trivial
  | dot a b =>
    refine asks_with _ fun ma _ => asks_with _ fun mb _ => ?_
    cases hi : dotImpl ma mb with
    | none => trivial
    | some i =>
      have := Asks.bind (f := fun r => .done (.ok (Obs.done, [Mat.base r]))) (γ := Obs α × List (Mat α))
        (Asks.bind (asks_freshResult (α := α) cfg i ma mb) (f := fun res =>
          Steps.matmul K 1 ma mb 0 res >>= fun _ => .done (.ok res)) fun res =>
          (free_matmul hK 1 ma mb 0 res).bind fun _ => trivial) fun _ => trivial
      rw [← dot_eq] at this
      cases i <;> exact this

/-- The computation makes allocations and nothing else. -/
def Bare : Steps α β → Prop
  | .done _ => True
  | .alloc _ k => ∀ b, Bare (k b)
  | _ => False

omit [Target] in
theorem Bare.bare_bind {t : Steps α β} {f : β → Steps α γ} (h : Bare t) (hf : ∀ b, Bare (f b)) :
    Bare (t >>= f) := by
  induction t with
  | done x => cases x with
    | ok b => exact hf b
    | _ => trivial
  | alloc xs k ih => exact fun b => ih b (h b)
  | _ => exact h.elim

omit [Target] in
theorem Bare.bind {t : Steps α β} {f : β → Steps α γ} (h : Bare t) (hf : ∀ b, Upfront (f b)) :
    Upfront (t >>= f) := by
  induction t with
  | done x => cases x with
    | ok b => exact hf b
    | _ => trivial
  | alloc xs k ih => exact fun b => ih b (h b)
  | _ => exact h.elim

omit [Target] in
theorem bare_done {A : Type} (x : Out A) {f : A → Steps α β} (h : ∀ a, Bare (f a)) :
    Bare (.done x >>= f) := Bare.bare_bind (t := .done x) trivial h

theorem bare_newVector [Zero α] (cfg : Cfg) (n : Nat) : Bare (Steps.newVector (α := α) cfg n) := by
  unfold Steps.newVector
  split
  · exact fun _ => trivial
  · trivial

theorem bare_freshResult [Zero α] (cfg : Cfg) (i : DotImpl) (a b : BaseMatrix) :
    Bare (freshResult (α := α) cfg i a b) := by
  cases i with
  | matMat =>
    exact bare_done _ fun _ => bare_done _ fun n => (bare_newVector cfg n).bare_bind fun _ =>
      bare_done _ fun _ => trivial
  | rowMat => exact bare_done _ fun _ => (bare_newVector cfg _).bare_bind fun _ => trivial
  | matCol => exact bare_done _ fun _ => (bare_newVector cfg _).bare_bind fun _ => trivial

theorem op_upfront [Zero α] [One α] [Add α] [Mul α] (cfg : Cfg) {K : GemmArgs α → Steps α Unit}
    (hK : ∀ x : GemmArgs α, x.Pre → Upfront (K x)) (mats : List (Mat α)) (op : Op α) :
    Upfront (op.steps cfg K mats) := by
  have hq : ∀ x : GemmArgs α, x.Pre → AllocFree ((fun _ => .done .panic : GemmArgs α → Steps α Unit) x) :=
    fun _ _ => trivial
  have h := (op_asks cfg hq mats op).upfront
  cases op with
  | matmul al a b be c =>
    clear h
    show Upfront (stepsWith _ fun ma => stepsWith _ fun mb => stepsWith _ fun mc => _)
    cases baseAt mats a with
    | none => trivial
    | some ma => cases baseAt mats b with
      | none => trivial
      | some mb => cases baseAt mats c with
        | none => trivial
        | some mc =>
          show Upfront (if matmulImpl ma mb mc = true then _ else _)
          split
          · exact (upfront_matmul hK al ma mb be mc).bind fun _ => trivial
          · trivial
  | dot a b =>
    clear h
    show Upfront (stepsWith _ fun ma => stepsWith _ fun mb => stepsWith _ fun i => _)
    cases baseAt mats a with
    | none => trivial
    | some ma => cases baseAt mats b with
      | none => trivial
      | some mb =>
        show Upfront (stepsWith (dotImpl ma mb) fun i => _)
        cases dotImpl ma mb with
        | none => trivial
        | some i =>
          show Upfront (Steps.dot cfg K i ma mb >>= _)
          refine Upfront.bind ?_ fun _ => trivial
          rw [dot_eq]
          exact (bare_freshResult cfg i ma mb).bind fun res =>
            (upfront_matmul hK 1 ma mb 0 res).bind fun _ => trivial
  | _ => exact h

end

/-! ### Programs -/

section

variable [Target] [Zero α] [One α] [Add α] [Mul α] {cfg : Cfg} {K : GemmArgs α → Steps α Unit}
  {grant : Allocator α} {prog : List (Obs α) → Option (Op α)} {s : St α}

/-- As long as the process has not been aborted it has done what it does in unlimited memory. -/
theorem aloneWithin_ok {n : Nat} {x : List (Obs α) × St α}
    (h : aloneWithin cfg K grant prog s n = some (x.1, x.2, false)) :
    alone cfg K prog s n = some x := by
  obtain ⟨xo, xs⟩ := x
  induction n generalizing xo xs with
  | zero => cases h; rfl
  | succ n ih =>
    simp only [aloneWithin, Option.bind_eq_some_iff] at h
    obtain ⟨y, hy, h⟩ := h
    obtain ⟨o, t, b⟩ := y
    cases b with
    | true => cases h
    | false =>
      rw [alone, ih o t hy, Option.bind_some]
      simp only [withinStep, Bool.false_eq_true, if_false] at h
      simp only [aloneStep]
      cases hp : prog o with
      | none => rw [hp] at h; cases h; rfl
      | some op =>
        rw [hp] at h
        simp only [Option.map_eq_some_iff] at h
        obtain ⟨⟨e, m⟩, he, h⟩ := h
        cases e with
        | aborted => cases h
        | returned r =>
          obtain ⟨r', hf, e'⟩ := within_ended he (by simp)
          cases r' <;> cases e'
          cases h
          show Option.map _ _ = _
          rw [hf]
          rfl
        | panicked =>
          obtain ⟨r', hf, e'⟩ := within_ended he (by simp)
          cases r' <;> cases e'
          cases h
          show Option.map _ _ = _
          rw [hf]
          rfl

/-- Where the process was when it was aborted. -/
theorem aloneWithin_aborted {n : Nat} {o : List (Obs α)} {t : St α}
    (h : aloneWithin cfg K grant prog s n = some (o, t, true)) :
    ∃ j u op, j < n ∧ alone cfg K prog s j = some (o, u) ∧ prog o = some op ∧
      (op.steps cfg K u.mats).within grant u.mem = some (.aborted, t.mem) ∧ t.mats = u.mats := by
  induction n generalizing o t with
  | zero => cases h
  | succ n ih =>
    simp only [aloneWithin, Option.bind_eq_some_iff] at h
    obtain ⟨y, hy, h⟩ := h
    obtain ⟨o', t', b⟩ := y
    cases b with
    | true =>
      cases h
      obtain ⟨j, u, op, hj, h⟩ := ih hy
      exact ⟨j, u, op, by omega, h⟩
    | false =>
      have ha := aloneWithin_ok (x := (o', t')) hy
      simp only [withinStep, Bool.false_eq_true, if_false] at h
      cases hp : prog o' with
      | none => rw [hp] at h; cases h
      | some op =>
        rw [hp] at h
        simp only [Option.map_eq_some_iff] at h
        obtain ⟨⟨e, m⟩, he, h⟩ := h
        cases e with
        | aborted => cases h; exact ⟨n, t', op, by omega, ha, hp, he, rfl⟩
        | returned r => cases h
        | panicked => cases h

theorem inUse_aloneStep {x y : List (Obs α) × St α} (h : aloneStep cfg K prog x = some y) :
    inUse x.2.mem ≤ inUse y.2.mem := by
  unfold aloneStep at h
  cases hp : prog x.1 with
  | none => rw [hp] at h; cases h; exact le_refl _
  | some op =>
    rw [hp] at h
    simp only [Option.map_eq_some_iff] at h
    obtain ⟨⟨r, m⟩, hf, h⟩ := h
    have := inUse_finish hf
    cases r <;> cases h <;> exact this

theorem alone_room {B : Nat} (hB : inUse s.mem ≤ B) {n : Nat} {x : List (Obs α) × St α}
    (h : alone cfg K prog s n = some x) :
    aloneWithin cfg K (roomFor B) prog s n = some (x.1, x.2, false) ↔ inUse x.2.mem ≤ B := by
  obtain ⟨xo, xs⟩ := x
  induction n generalizing xo xs with
  | zero => cases h; exact iff_of_true rfl hB
  | succ n ih =>
    simp only [alone, Option.bind_eq_some_iff] at h
    obtain ⟨y, hy, h⟩ := h
    have hi := ih y.1 y.2 hy
    have hm := inUse_aloneStep h
    constructor
    · intro hw
      simp only [aloneWithin, Option.bind_eq_some_iff] at hw
      obtain ⟨⟨o, t, b⟩, hz, hw⟩ := hw
      cases b with
      | true => cases hw
      | false =>
        have e : (o, t) = y := by
          have := aloneWithin_ok (x := (o, t)) hz
          rw [hy] at this
          exact (Option.some.inj this).symm
        subst e
        simp only [withinStep, Bool.false_eq_true, if_false] at hw
        simp only [aloneStep] at h
        cases hp : prog o with
        | none => rw [hp] at h; cases h; exact hi.1 hz
        | some op =>
          rw [hp] at h hw
          simp only [Option.map_eq_some_iff] at h hw
          obtain ⟨⟨e, m⟩, he, hw⟩ := hw
          obtain ⟨⟨r, m'⟩, hf, h⟩ := h
          have hne : e ≠ .aborted := by rintro rfl; cases hw
          obtain ⟨r', hf', rfl⟩ := within_ended he hne
          rw [hf] at hf'
          cases hf'
          have := (within_room hf (hi.1 hz)).1 he
          cases r <;> cases h <;> exact this
    · intro hx
      have hyB : inUse y.2.mem ≤ B := hm.trans hx
      rw [aloneWithin, hi.2 hyB, Option.bind_some]
      simp only [withinStep, Bool.false_eq_true, if_false]
      simp only [aloneStep] at h
      cases hp : prog y.1 with
      | none => rw [hp] at h; cases h; rfl
      | some op =>
        rw [hp] at h
        simp only [Option.map_eq_some_iff] at h
        obtain ⟨⟨r, m'⟩, hf, h⟩ := h
        have hx' : inUse m' ≤ B := by cases r <;> cases h <;> exact hx
        show Option.map _ _ = _
        rw [(within_room hf hyB).2 hx']
        cases r <;> cases h <;> rfl

end

end Householder.Spec
