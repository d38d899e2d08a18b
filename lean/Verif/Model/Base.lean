/-!
# Outcomes and machine arithmetic

The result type of every modelled Rust function, and `usize` arithmetic in the
two build modes (overflow checks on / off).
-/

namespace Householder

/-- The outcome of a Rust call: it returns a value, it panics, or its behaviour
is undefined. Models no particular line: it is the semantics of `assert!`,
`unimplemented!`, checked arithmetic (panic) and of violated `unsafe`
preconditions (ub). -/
inductive Out (α : Type u) where
  | ok (a : α)
  | panic
  | ub
  deriving DecidableEq, Repr

namespace Out

/-- Sequencing of Rust statements: the first panic or UB ends the call. -/
def bind {α : Type u} {β : Type v} (x : Out α) (f : α → Out β) : Out β :=
  match x with
  | ok a => f a
  | panic => panic
  | ub => ub

instance : Monad Out where
  pure := ok
  bind := Out.bind

/-- Rust's `assert!(p)`. -/
def assert (p : Prop) [Decidable p] : Out Unit := if p then ok () else panic

end Out

/-- The widths of `usize` (src/types.rs:17-19, `IndexType`) that Rust has targets for. -/
inductive Width where
  | bits16 | bits32 | bits64
  deriving DecidableEq, Repr

/-- The target that the crate is compiled for. Everything that depends on it takes it as an argument,
so theorems hold for every target. -/
class Target where
  width : Width

/-- Concrete cases are computed for 64-bit targets unless they say otherwise. -/
instance target64 : Target := ⟨.bits64⟩

/-- The number of values of `usize`: `2^16`, `2^32` or `2^64`. -/
def W [Target] : Nat :=
  match Target.width with
  | .bits16 => 65536
  | .bits32 => 4294967296
  | .bits64 => 18446744073709551616

/-- `isize::MAX`, the largest number of bytes in one allocation. -/
def isizeMax [Target] : Nat :=
  match Target.width with
  | .bits16 => 32767
  | .bits32 => 2147483647
  | .bits64 => 9223372036854775807

/-- The scalar types implementing `HScalar` (src/types.rs:21-50). -/
inductive ItemTy where
  | f32 | f64 | c32 | c64
  deriving DecidableEq, Repr

/-- `size_of::<Item>()` of the scalar types (src/types.rs:21-50). -/
def ItemTy.size : ItemTy → Nat
  | .f32 => 4
  | .f64 => 8
  | .c32 => 8
  | .c64 => 16

/-- What the compiled program depends on besides its inputs: the build mode
(`-C overflow-checks`) and the scalar type's size. -/
structure Cfg where
  overflowChecks : Bool
  item : ItemTy
  deriving DecidableEq, Repr

namespace Cfg

/-- Rust's result of a `usize` operation with mathematical result `v`. -/
def wrap [Target] (cfg : Cfg) (v : Nat) : Out Nat :=
  if v < W then .ok v
  else if cfg.overflowChecks then .panic
  else .ok (v % W)

/-- `a + b` on `usize`. -/
def add [Target] (cfg : Cfg) (a b : Nat) : Out Nat := cfg.wrap (a + b)

/-- `a * b` on `usize`. -/
def mul [Target] (cfg : Cfg) (a b : Nat) : Out Nat := cfg.wrap (a * b)

/-- `a - b` on `usize`. -/
def sub [Target] (cfg : Cfg) (a b : Nat) : Out Nat :=
  if b ≤ a then .ok (a - b)
  else if cfg.overflowChecks then .panic
  else .ok ((W + a - b) % W)

end Cfg

/-- `a / b` on `usize`: panics for `b = 0` in every build mode. -/
def udiv (a b : Nat) : Out Nat := if b = 0 then .panic else .ok (a / b)

/-- `a % b` on `usize`: panics for `b = 0` in every build mode. -/
def umod (a b : Nat) : Out Nat := if b = 0 then .panic else .ok (a % b)

/-- `x as isize` on a `usize` value: two's complement reinterpretation. -/
def asIsize [Target] (x : Nat) : Int := if x ≤ isizeMax then (x : Int) else (x : Int) - (W : Int)

/-- `for index in 0..n { body }` with the loop's state threaded through. -/
def forRange {σ : Type u} (n : Nat) (body : Nat → σ → Out σ) (s : σ) : Out σ :=
  (List.range n).foldlM (fun s i => body i s) s

end Householder
