import Verif.Spec.Histories

/-!
# Comparing two runs

Two programs that do the same operations on scalars of possibly different types and values: when
their scalars, outcomes, memories, matrices and observations correspond under a relation `R`
between scalars.
-/

namespace Householder.Spec

variable {α β : Type}

/-- Both end normally with related results, both panic, or both have undefined behaviour. -/
inductive OutRel {A B : Type} (R : A → B → Prop) : Out A → Out B → Prop where
  | ok {a : A} {b : B} (h : R a b) : OutRel R (.ok a) (.ok b)
  | panic : OutRel R .panic .panic
  | ub : OutRel R .ub .ub

/-- Memories of the same shape with related cells. -/
def MemRel (R : α → β → Prop) (mem : Mem α) (mem' : Mem β) : Prop :=
  List.Forall₂ (List.Forall₂ R) mem.bufs mem'.bufs

/-- Matrix values of the same structure with related scalars. -/
inductive MatRel (R : α → β → Prop) : Mat α → Mat β → Prop where
  | base (b : BaseMatrix) : MatRel R (.base b) (.base b)
  | ref {m : Mat α} {m' : Mat β} (h : MatRel R m m') : MatRel R (.ref m) (.ref m')
  | addition {a b : Mat α} {a' b' : Mat β} (l : Layout) (h : MatRel R a a') (h' : MatRel R b b') :
      MatRel R (.addition a b l) (.addition a' b' l)
  | scalarMult {m : Mat α} {m' : Mat β} {s : α} {s' : β} (h : MatRel R m m') (hs : R s s') :
      MatRel R (.scalarMult m s) (.scalarMult m' s')

/-- The same element operation with related scalars. -/
inductive ArrOpRel (R : α → β → Prop) : ArrOp α → ArrOp β → Prop where
  | get (r c : Nat) : ArrOpRel R (.get r c) (.get r c)
  | get1d (k : Nat) : ArrOpRel R (.get1d k) (.get1d k)
  | set (r c : Nat) {v : α} {v' : β} (h : R v v') : ArrOpRel R (.set r c v) (.set r c v')
  | set1d (k : Nat) {v : α} {v' : β} (h : R v v') : ArrOpRel R (.set1d k v) (.set1d k v')
  | update (r c : Nat) {f : α → α} {f' : β → β} (h : ∀ x x', R x x' → R (f x) (f' x')) :
      ArrOpRel R (.update r c f) (.update r c f')
  | update1d (k : Nat) {f : α → α} {f' : β → β} (h : ∀ x x', R x x' → R (f x) (f' x')) :
      ArrOpRel R (.update1d k f) (.update1d k f')

/-- The same operation with related scalars. -/
inductive OpRel (R : α → β → Prop) : Op α → Op β → Prop where
  | zeros (k : BaseKind) (rows cols : Nat) : OpRel R (.zeros k rows cols) (.zeros k rows cols)
  | rowZeros (n : Nat) : OpRel R (.rowZeros n) (.rowZeros n)
  | rowZerosDim (rows cols : Nat) : OpRel R (.rowZerosDim rows cols) (.rowZerosDim rows cols)
  | colZeros (n : Nat) : OpRel R (.colZeros n) (.colZeros n)
  | colZerosDim (rows cols : Nat) : OpRel R (.colZerosDim rows cols) (.colZerosDim rows cols)
  | fixedZeros (rs cs : SizeId) (k : BaseKind) : OpRel R (.fixedZeros rs cs k) (.fixedZeros rs cs k)
  | fixedVector (rs cs : SizeId) (k : BaseKind) (n : Nat) :
      OpRel R (.fixedVector rs cs k n) (.fixedVector rs cs k n)
  | fromSlice (rs cs : SizeId) {xs : List α} {xs' : List β} (l : Layout) (h : List.Forall₂ R xs xs') :
      OpRel R (.fromSlice rs cs xs l) (.fromSlice rs cs xs' l)
  | fromVector (rs cs : SizeId) (n : Nat) (l : Layout) :
      OpRel R (.fromVector rs cs n l) (.fromVector rs cs n l)
  | element (h : Nat) {op : ArrOp α} {op' : ArrOp β} (ho : ArrOpRel R op op') :
      OpRel R (.element h op) (.element h op')
  | get (h r c : Nat) : OpRel R (.get h r c) (.get h r c)
  | get1d (h k : Nat) : OpRel R (.get1d h k) (.get1d h k)
  | forEach (h : Nat) {f : List α → α → α} {f' : List β → β → β}
      (hf : ∀ xs xs' x x', List.Forall₂ R xs xs' → R x x' → R (f xs x) (f' xs' x')) :
      OpRel R (.forEach h f) (.forEach h f')
  | fillRand (h : Nat) {draw : Nat → α} {draw' : Nat → β} (hd : ∀ k, R (draw k) (draw' k)) :
      OpRel R (.fillRand h draw) (.fillRand h draw')
  | readSlice (h first last : Nat) : OpRel R (.readSlice h first last) (.readSlice h first last)
  | writeSlice (h first last : Nat) {xs : List α} {xs' : List β} (hx : List.Forall₂ R xs xs') :
      OpRel R (.writeSlice h first last xs) (.writeSlice h first last xs')
  | block (h : Nat) (tl d : Nat × Nat) : OpRel R (.block h tl d) (.block h tl d)
  | split (h : Nat) (s : Nat × Nat) : OpRel R (.split h s) (.split h s)
  | ref (h : Nat) : OpRel R (.ref h) (.ref h)
  | add (refLeft refRight : Bool) (h1 h2 : Nat) :
      OpRel R (.add refLeft refRight h1 h2) (.add refLeft refRight h1 h2)
  | scale (scalarFirst byRef : Bool) {s : α} {s' : β} (h : Nat) (hs : R s s') :
      OpRel R (.scale scalarFirst byRef s h) (.scale scalarFirst byRef s' h)
  | eval (h : Nat) : OpRel R (.eval h) (.eval h)
  | matmul {alpha : α} {alpha' : β} (a b : Nat) {beta : α} {beta' : β} (c : Nat)
      (ha : R alpha alpha') (hb : R beta beta') :
      OpRel R (.matmul alpha a b beta c) (.matmul alpha' a b beta' c)
  | dot (a b : Nat) : OpRel R (.dot a b) (.dot a b)

/-- Observations of the same form with related scalars. -/
inductive ObsRel (R : α → β → Prop) : Obs α → Obs β → Prop where
  | value {v : α} {v' : β} (h : R v v') : ObsRel R (.value v) (.value v')
  | values {vs : List α} {vs' : List β} (h : List.Forall₂ R vs vs') :
      ObsRel R (.values vs) (.values vs')
  | done : ObsRel R .done .done
  | panicked : ObsRel R .panicked .panicked

/-- States of the same shape with related scalars. -/
structure StRel (R : α → β → Prop) (s : St α) (s' : St β) : Prop where
  mem : MemRel R s.mem s'.mem
  mats : List.Forall₂ (MatRel R) s.mats s'.mats

/-- Kernels that take related scalars to related scalars. -/
def KernRel (R : α → β → Prop) (kern : Kern α) (kern' : Kern β) : Prop :=
  ∀ x a a' ps ps' b b' c c', R a a' →
    List.Forall₂ (fun p p' => R p.1 p'.1 ∧ R p.2 p'.2) ps ps' → R b b' → R c c' →
    R (kern x a ps b c) (kern' x a' ps' b' c')

/-- The relation respects the arithmetic of the two scalar types. -/
structure Respects (R : α → β → Prop) [Zero α] [One α] [Add α] [Mul α] [Zero β] [One β] [Add β]
    [Mul β] : Prop where
  zero : R 0 0
  one : R 1 1
  add : ∀ a a' b b', R a a' → R b b' → R (a + b) (a' + b')
  mul : ∀ a a' b b', R a a' → R b b' → R (a * b) (a' * b')

/-- The same operation whatever the scalars in it are: only the form is compared. -/
abbrev SameForm (op : Op α) (op' : Op β) : Prop := OpRel (fun _ _ => True) op op'

/-- `op'` is `op` with every scalar replaced by its image under `f`. -/
abbrev Image (f : α → β) (op : Op α) (op' : Op β) : Prop := OpRel (fun a b => f a = b) op op'

/-- An observation with every scalar replaced by its image. -/
def Obs.map (f : α → β) : Obs α → Obs β
  | .value v => .value (f v)
  | .values vs => .values (vs.map f)
  | .done => .done
  | .panicked => .panicked

/-- A memory with every scalar replaced by its image. -/
def Mem.mapCells (f : α → β) (mem : Mem α) : Mem β := ⟨mem.bufs.map fun b => b.map f⟩

/-- What an observation shows apart from scalars: how many values, or that it panicked. -/
inductive Form where
  | value
  | values (n : Nat)
  | done
  | panicked
deriving DecidableEq

/-- The form of an observation. -/
def Obs.form : Obs α → Form
  | .value _ => .value
  | .values vs => .values vs.length
  | .done => .done
  | .panicked => .panicked

end Householder.Spec
