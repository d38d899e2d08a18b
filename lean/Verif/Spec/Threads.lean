import Verif.Spec.Array

/-!
# Several threads, each with its own matrix

`split_in_four_mut` hands out four mutable views that can be given to four threads. A thread is
a program that looks at the responses it has had so far and chooses its next operation on its own
matrix. A schedule says which thread moves next. One operation of `ArrOp` is one move; a thread
that wants to be interrupted between a read and the write that depends on it issues a `get` and,
once it has seen the answer, a `set`.
-/

namespace Householder.Spec

variable {ι α : Type}

/-- The threads: the matrix each one works on, and what it does next after the responses it has
had. `none` means that it has finished. -/
structure Threads (ι α : Type) where
  mat : ι → BaseMatrix
  prog : ι → List (Resp α) → Option (ArrOp α)

/-- Memory and the responses each thread has had. -/
structure TState (ι α : Type) where
  mem : Mem α
  seen : ι → List (Resp α)

/-- Before any thread has moved. -/
def TState.start (mem : Mem α) : TState ι α := ⟨mem, fun _ => []⟩

variable [DecidableEq ι]

/-- Thread `k` makes one move. Undefined behaviour has no continuation. -/
def TState.move [Target] (cfg : Cfg) (P : Threads ι α) (s : TState ι α) (k : ι) : Option (TState ι α) :=
  match P.prog k (s.seen k) with
  | none => some s
  | some op => (step cfg (P.mat k) s.mem op).map fun x =>
      ⟨x.2, fun l => if l = k then s.seen k ++ [x.1] else s.seen l⟩

/-- The threads move in the order given by the schedule. -/
def TState.moves [Target] (cfg : Cfg) (P : Threads ι α) : TState ι α → List ι → Option (TState ι α)
  | s, [] => some s
  | s, k :: ks => (s.move cfg P k).bind fun s' => TState.moves cfg P s' ks

/-- The place an operation would access: what the pointer-producing accessor returns. -/
def target [Target] (cfg : Cfg) (m : BaseMatrix) : ArrOp α → Out Loc
  | .get r c => m.get_mut cfg r c
  | .set r c _ => m.get_mut cfg r c
  | .update r c _ => m.get_mut cfg r c
  | .get1d k => m.get1d_mut cfg k
  | .set1d k _ => m.get1d_mut cfg k
  | .update1d k _ => m.get1d_mut cfg k

end Householder.Spec
