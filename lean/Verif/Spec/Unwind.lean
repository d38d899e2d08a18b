import Verif.Model.Unwind
import Verif.Spec.Histories
import Verif.Spec.Expr

/-!
# Panics that are caught

What a program that catches panics should find afterwards.
-/

namespace Householder.Spec

variable {α : Type}

/-- A callable applied to the elements of a list one after the other until it panics: whether it did,
its captured state, and the list afterwards. The element at which it panicked keeps what the callable
left there; later elements are not touched. -/
def sweep {σ : Type} (f : σ → α → σ × α × Bool) : σ → List α → Bool × σ × List α
  | s, [] => (false, s, [])
  | s, v :: vs =>
    let r := f s v
    if r.2.2 then (true, r.1, r.2.1 :: vs)
    else
      let t := sweep f r.1 vs
      (t.1, t.2.1, r.2.1 :: t.2.2)

/-- `m.get1d(0)`, `m.get1d(1)`, .. are `vs`; the next panics. -/
def Reads [Target] (cfg : Cfg) (m : BaseMatrix) (mem : Mem α) (vs : List α) : Prop :=
  ∀ k, m.get1d cfg mem k = match vs[k]? with
    | some v => .ok v
    | none => .panic

/-- The value of an expression at a position when arithmetic may panic. -/
def Ex.arithValue (A : Arith α) (mem : Mem α) (r c : Nat) : Ex α → Option α
  | .leaf b => elem b mem r c
  | .ref a => a.arithValue A mem r c
  | .add _ _ a b => do
      let x ← a.arithValue A mem r c
      let y ← b.arithValue A mem r c
      A.add x y
  | .scale _ _ s a => do
      let x ← a.arithValue A mem r c
      A.mul s x

/-- A step of a program whose callables and random number generators may panic. -/
inductive POp (α : Type) where
  | op (o : Op α)
  /-- `m.for_each(f)`: what `f` leaves in the element, and whether it panics; it may use all elements
  it has been given before -/
  | forEach (h : Nat) (f : List α → α → α × Bool)
  /-- `m.fill_from_rand_standard_normal(rng)`; drawing the `k`-th number gives `draw k` or panics -/
  | fillRand (h : Nat) (draw : Nat → Option α)

/-- The state after an operation that may have been left by unwinding. -/
def St.afterUnwind {σ : Type} (s : St α) : Out (Bool × σ × Mem α) → Option (Obs α × St α)
  | .ok x => some (if x.1 then .panicked else .done, ⟨x.2.2, s.mats⟩)
  | .panic => some (.panicked, s)
  | .ub => none

section

variable [Zero α] [One α] [Add α] [Mul α]

/-- One step of a program that catches panics and continues, with the memory as it is. -/
def POp.step [Target] (cfg : Cfg) (kern : Kern α) (s : St α) : POp α → Option (Obs α × St α)
  | .op o => o.step cfg kern s
  | .forEach h f => match s.base? h with
    | some b => s.afterUnwind
        (b.for_each_unwind cfg (fun (σ : List α) v => (σ ++ [v], (f σ v).1, (f σ v).2)) [] s.mem)
    | none => some (.panicked, s)
  | .fillRand h draw => match s.base? h with
    | some b => s.afterUnwind (b.fill_from_rand_unwind cfg (fun k => (draw k, k + 1)) 0 s.mem)
    | none => some (.panicked, s)

/-- A program. -/
def runUnwind [Target] (cfg : Cfg) (kern : Kern α) : St α → List (POp α) → Option (List (Obs α) × St α)
  | s, [] => some ([], s)
  | s, op :: ops => do
    let x ← op.step cfg kern s
    let y ← runUnwind cfg kern x.2 ops
    return (x.1 :: y.1, y.2)

/-- A condition on each step of a program, in the state in which it is run. -/
def AlongUnwind [Target] (cfg : Cfg) (kern : Kern α) (P : St α → POp α → Prop) : St α → List (POp α) → Prop
  | _, [] => True
  | s, op :: ops => P s op ∧ ∀ o s', op.step cfg kern s = some (o, s') →
      AlongUnwind cfg kern P s' ops

end

/-- The conditions of C50. -/
def Regular [Target] (cfg : Cfg) (s : St α) : POp α → Prop
  | .op o => NoStrides o ∧ NoOverlap s o ∧ NoEmptyBlock o ∧
      (cfg.overflowChecks = true ∨ NoWrap s o)
  | _ => True

end Householder.Spec
