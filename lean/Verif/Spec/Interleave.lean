import Verif.Spec.Alloc
import Verif.Model.Steps

/-!
# Threads that run the library's functions, interrupted between any two accesses to memory

`Spec/Threads.lean` interleaves accesses to single elements. Here every thread runs a program in the
sense of `Spec/Histories.lean`: constructors, element access, `for_each`, views, expressions, `eval`,
`matmul`, `dot`. Other threads may run between any two accesses to memory of such an operation.
-/

namespace Householder.Spec

variable {ι α : Type}

/-- As `withSome`. -/
def stepsWith {A B : Type} (x : Option A) (f : A → Steps α B) : Steps α B :=
  match x with
  | some a => f a
  | none => .done .panic

/-- The base matrix at a position. -/
def baseAt (mats : List (Mat α)) (h : Nat) : Option BaseMatrix :=
  match mats[h]? with
  | some (.base b) => some b
  | _ => none

/-- An element access, as `exec`. -/
def elementSteps [Target] (cfg : Cfg) (m : BaseMatrix) : ArrOp α → Steps α (Resp α)
  | .get r c => do
      let p ← .done (m.get_mut cfg r c)
      let v ← Steps.load p
      return .value v
  | .get1d k => do
      let p ← .done (m.get1d_mut cfg k)
      let v ← Steps.load p
      return .value v
  | .set r c v => do
      let p ← .done (m.get_mut cfg r c)
      Steps.store p v
      return .done
  | .set1d k v => do
      let p ← .done (m.get1d_mut cfg k)
      Steps.store p v
      return .done
  | .update r c f => do
      let p ← .done (m.get_mut cfg r c)
      let v ← Steps.load p
      Steps.store p (f v)
      return .done
  | .update1d k f => do
      let p ← .done (m.get1d_mut cfg k)
      let v ← Steps.load p
      Steps.store p (f v)
      return .done

/-- One operation, as `Op.exec`: what is observed and the values it makes. -/
def Op.steps [Target] [Zero α] [One α] [Add α] [Mul α] (cfg : Cfg) (K : GemmArgs α → Steps α Unit)
    (mats : List (Mat α)) : Op α → Steps α (Obs α × List (Mat α))
  | .zeros k rows cols => do
      let b ← Steps.zeros_from_dim cfg k rows cols
      return (.done, [.base b])
  | .rowZeros n => do
      let b ← Steps.row_zeros_from_length cfg n
      return (.done, [.base b])
  | .rowZerosDim rows cols => do
      let b ← Steps.row_zeros_from_dim cfg rows cols
      return (.done, [.base b])
  | .colZeros n => do
      let b ← Steps.col_zeros_from_length cfg n
      return (.done, [.base b])
  | .colZerosDim rows cols => do
      let b ← Steps.col_zeros_from_dim cfg rows cols
      return (.done, [.base b])
  | .fixedZeros rs cs k =>
      if (rs, cs, k) ∈ fixedMatrixTypes then do
        let b ← Steps.fixed_zeros_from_dim cfg rs cs k
        return (.done, [.base b])
      else .done .panic
  | .fixedVector rs cs k n =>
      if (rs, cs, k, n) ∈ fixedVectorTypes then
        stepsWith (k.from_length n) fun l => do
          let b ← Steps.fixed_zeros_from_length cfg rs cs l n
          return (.done, [.base b])
      else .done .panic
  | .fromSlice rs cs xs l => do
      let d ← Steps.newSlice cfg xs
      let b ← .done (from_data cfg rs cs d l)
      return (.done, [.base b])
  | .fromVector rs cs n l => do
      let d ← Steps.newVector cfg n
      let b ← .done (from_data cfg rs cs d l)
      return (.done, [.base b])
  | .element h op => stepsWith (baseAt mats h) fun b => do
      let x ← elementSteps cfg b op
      return (x.obs, [])
  | .get h r c => stepsWith mats[h]? fun m => do
      let v ← Steps.get cfg m r c
      return (.value v, [])
  | .get1d h k => stepsWith mats[h]? fun m => do
      let v ← Steps.get1d cfg m k
      return (.value v, [])
  | .forEach h f => stepsWith (baseAt mats h) fun b => do
      let _ ← Steps.for_each cfg b (fun (σ : List α) v => (σ ++ [v], f σ v)) []
      return (.done, [])
  | .fillRand h draw => stepsWith (baseAt mats h) fun b => do
      let _ ← Steps.fill_from_rand cfg b (fun k => (draw k, k + 1)) 0
      return (.done, [])
  | .readSlice h first last => stepsWith (baseAt mats h) fun b => do
      let w ← .done (b.get_slice first last)
      let vs ← Steps.toList w
      return (.values vs, [])
  | .writeSlice h first last xs => stepsWith (baseAt mats h) fun b => do
      let w ← .done (b.get_slice_mut first last)
      Steps.writeList w xs
      return (.done, [])
  | .block h tl d => stepsWith (baseAt mats h) fun b =>
      if hasBlock b then do
        let v ← .done (b.block cfg tl d)
        return (.done, [.base v])
      else .done .panic
  | .split h p => stepsWith (baseAt mats h) fun b =>
      if hasSplit b then do
        let q ← .done (b.split_in_four_mut cfg p)
        return (.done, (List.finRange 4).map fun k => .base (quad q k))
      else .done .panic
  | .ref h => stepsWith mats[h]? fun m => return (.done, [m.from_ref])
  | .add refLeft refRight h1 h2 =>
      stepsWith mats[h1]? fun a => stepsWith mats[h2]? fun b =>
        if a.layout.indexKind = b.layout.indexKind ∧ a.sizes = b.sizes then do
          let m ← .done (match refLeft, refRight with
            | false, false => a.add_vv b
            | false, true => a.add_vr b
            | true, false => a.add_rv b
            | true, true => a.add_rr b)
          return (.done, [m])
        else .done .panic
  | .scale scalarFirst byRef x h => stepsWith mats[h]? fun a =>
      return (.done, [match scalarFirst, byRef with
        | true, false => .mul_sv x a
        | true, true => .mul_sr x a
        | false, false => .mul_vs a x
        | false, true => .mul_rs a x])
  | .eval h => stepsWith mats[h]? fun m =>
      if m.sizes = (.dynamic, .dynamic) then do
        let b ← Steps.eval cfg m
        return (.done, [.base b])
      else .done .panic
  | .matmul alpha a b beta c =>
      stepsWith (baseAt mats a) fun ma => stepsWith (baseAt mats b) fun mb =>
        stepsWith (baseAt mats c) fun mc =>
          if matmulImpl ma mb mc then do
            Steps.matmul K alpha ma mb beta mc
            return (.done, [])
          else .done .panic
  | .dot a b =>
      stepsWith (baseAt mats a) fun ma => stepsWith (baseAt mats b) fun mb =>
        stepsWith (dotImpl ma mb) fun i => do
          let r ← Steps.dot cfg K i ma mb
          return (.done, [.base r])

/-! ### What is assumed about the kernel -/

/-- `gemm` of the arguments: the kernel as a function on memory. -/
def _root_.Householder.GemmArgs.run (kern : Kern α) (x : GemmArgs α) (mem : Mem α) : Out (Mem α) :=
  gemm kern x.m x.k x.n x.alpha x.a x.rsa x.csa x.b x.rsb x.csb x.beta x.c x.rsc x.csc mem

/-- The kernel computes the function `kern`, in whatever order it reads and writes. -/
def Computes (K : GemmArgs α → Steps α Unit) (kern : Kern α) : Prop :=
  ∀ x : GemmArgs α, x.Pre → ∀ mem, (K x).out mem = x.run kern mem >>= fun m => .ok ((), m)

/-- Two pointers that differ in the allocation they point to. -/
def PtrAlike (ρ : Nat → Nat → Prop) (p p' : Ptr) : Prop :=
  ρ p.prov.buf p'.prov.buf ∧ p.prov.off = p'.prov.off ∧ p.prov.len = p'.prov.len ∧ p.off = p'.off

/-- Calls of the kernel that differ in the allocations of the operands. -/
def ArgsAlike (ρ : Nat → Nat → Prop) (x y : GemmArgs α) : Prop :=
  PtrAlike ρ x.a y.a ∧ PtrAlike ρ x.b y.b ∧ PtrAlike ρ x.c y.c ∧
    y = { x with a := y.a, b := y.b, c := y.c }

/-- One computation does the same as the other, in other allocations. `R` compares the results. -/
def Alike {β γ : Type} (R : (Nat → Nat → Prop) → β → γ → Prop) :
    (Nat → Nat → Prop) → Steps α β → Steps α γ → Prop
  | ρ, .done (.ok b), .done (.ok c) => R ρ b c
  | _, .done .panic, .done .panic => True
  | _, .done .ub, .done .ub => True
  | ρ, .read p k, .read p' k' => ρ p.buf p'.buf ∧ p.idx = p'.idx ∧ ∀ v, Alike R ρ (k v) (k' v)
  | ρ, .write p v k, .write p' v' k' => ρ p.buf p'.buf ∧ p.idx = p'.idx ∧ v = v' ∧ Alike R ρ k k'
  | ρ, .alloc xs k, .alloc xs' k' => xs = xs' ∧ ∀ b b', (∀ x, ¬ ρ b x) → (∀ x, ¬ ρ x b') →
      Alike R (fun x y => ρ x y ∨ x = b ∧ y = b') (k b) (k' b')
  | _, _, _ => False

/-- Allocations correspond one to one. -/
def OneToOne (ρ : Nat → Nat → Prop) : Prop :=
  ∀ x y x' y', ρ x y → ρ x' y' → (x = x' ↔ y = y')

/-- The computation reads and writes only where it may, or in allocations from number `n` on.
`Q` holds of its result. -/
def Keeps {β : Type} (n : Nat) (R W : Loc → Prop) (Q : β → Prop) : Steps α β → Prop
  | .done (.ok b) => Q b
  | .done _ => True
  | .read p k => (n ≤ p.buf ∨ R p) ∧ ∀ v, Keeps n R W Q (k v)
  | .write p _ k => (n ≤ p.buf ∨ W p) ∧ Keeps n R W Q k
  | .alloc _ k => ∀ b, n ≤ b → Keeps n R W Q (k b)

/-- What the theorems assume of the kernel, besides its contract: it reads elements of its operands
and writes elements of the result (and allocates nothing outside of itself), and what it does is the
same whichever allocations its operands are in. -/
structure Orderly (K : GemmArgs α → Steps α Unit) : Prop where
  places : ∀ x : GemmArgs α, x.Pre → ∀ n, Keeps n
    (fun q => (∃ i l, i < x.m ∧ l < x.k ∧ q = gemmLoc x.a x.rsa x.csa i l) ∨
      (∃ l j, l < x.k ∧ j < x.n ∧ q = gemmLoc x.b x.rsb x.csb l j) ∨
      ∃ i j, i < x.m ∧ j < x.n ∧ q = gemmLoc x.c x.rsc x.csc i j)
    (fun q => ∃ i j, i < x.m ∧ j < x.n ∧ q = gemmLoc x.c x.rsc x.csc i j) (fun _ => True) (K x)
  alike : ∀ (ρ : Nat → Nat → Prop) (x y : GemmArgs α), OneToOne ρ → x.Pre → ArgsAlike ρ x y →
    Alike (fun _ _ _ => True) ρ (K x) (K y)

/-- Running to the end without interruption, keeping the memory when the computation panics: what it
returns, if it returns, and the memory. Undefined behaviour has no continuation. -/
def _root_.Householder.Steps.finish {β : Type} : Steps α β → Mem α → Option (Option β × Mem α)
  | .done (.ok b), mem => some (some b, mem)
  | .done .panic, mem => some (none, mem)
  | .done .ub, _ => none
  | .read p k, mem => (mem.get? p).bind fun v => (k v).finish mem
  | .write p v k, mem => (mem.get? p).bind fun _ =>
      k.finish ⟨mem.bufs.modify p.buf (·.set p.idx v)⟩
  | .alloc xs k, mem => (k mem.bufs.length).finish ⟨mem.bufs ++ [xs]⟩

section

variable [Zero α] [One α] [Add α] [Mul α]

/-- A thread alone: its next operation, chosen from what it has observed, from beginning to end. -/
def aloneStep [Target] (cfg : Cfg) (K : GemmArgs α → Steps α Unit) (prog : List (Obs α) → Option (Op α))
    (x : List (Obs α) × St α) : Option (List (Obs α) × St α) :=
  match prog x.1 with
  | none => some x
  | some op => ((op.steps cfg K x.2.mats).finish x.2.mem).map fun y =>
      match y.1 with
      | some r => (x.1 ++ [r.1], ⟨y.2, x.2.mats ++ r.2⟩)
      | none => (x.1 ++ [.panicked], ⟨y.2, x.2.mats⟩)

/-- A thread alone: `n` operations. -/
def alone [Target] (cfg : Cfg) (K : GemmArgs α → Steps α Unit) (prog : List (Obs α) → Option (Op α))
    (s : St α) : Nat → Option (List (Obs α) × St α)
  | 0 => some ([], s)
  | n + 1 => (alone cfg K prog s n).bind (aloneStep cfg K prog)

end

/-- The threads: the values each one is given, and what it does next after what it has observed.
`none` means that it has finished. -/
structure Crew (ι α : Type) where
  mats : ι → List (Mat α)
  prog : ι → List (Obs α) → Option (Op α)

/-- A thread at some moment: what it has observed, its values, and the rest of the operation it is in
the middle of. -/
structure Task (α : Type) where
  seen : List (Obs α)
  mats : List (Mat α)
  cur : Option (Steps α (Obs α × List (Mat α)))

/-- All threads and the memory at some moment. -/
structure Scene (ι α : Type) where
  mem : Mem α
  task : ι → Task α

/-- Before any thread has moved. -/
def Scene.start (P : Crew ι α) (mem : Mem α) : Scene ι α := ⟨mem, fun k => ⟨[], P.mats k, none⟩⟩

section

variable [DecidableEq ι] [Zero α] [One α] [Add α] [Mul α]

/-- The scene after a move of thread `k`. -/
def Scene.put (s : Scene ι α) (k : ι) (mem : Mem α) (t : Task α) : Scene ι α :=
  ⟨mem, fun l => if l = k then t else s.task l⟩

/-- Thread `k` makes one move: it chooses its next operation, or makes one access to memory, or ends
its operation. Undefined behaviour has no continuation. -/
def Scene.move [Target] (cfg : Cfg) (K : GemmArgs α → Steps α Unit) (P : Crew ι α) (s : Scene ι α)
    (k : ι) : Option (Scene ι α) :=
  let t := s.task k
  match t.cur with
  | none => match P.prog k t.seen with
    | none => some s
    | some op => some (s.put k s.mem ⟨t.seen, t.mats, some (op.steps cfg K t.mats)⟩)
  | some (.done (.ok r)) => some (s.put k s.mem ⟨t.seen ++ [r.1], t.mats ++ r.2, none⟩)
  | some (.done .panic) => some (s.put k s.mem ⟨t.seen ++ [.panicked], t.mats, none⟩)
  | some (.done .ub) => none
  | some (.read p f) => (s.mem.get? p).bind fun v => some (s.put k s.mem ⟨t.seen, t.mats, some (f v)⟩)
  | some (.write p v f) => (s.mem.get? p).bind fun _ =>
      some (s.put k ⟨s.mem.bufs.modify p.buf (·.set p.idx v)⟩ ⟨t.seen, t.mats, some f⟩)
  | some (.alloc xs f) =>
      some (s.put k ⟨s.mem.bufs ++ [xs]⟩ ⟨t.seen, t.mats, some (f s.mem.bufs.length)⟩)

/-- The threads move in the order given by the schedule. -/
def Scene.moves [Target] (cfg : Cfg) (K : GemmArgs α → Steps α Unit) (P : Crew ι α) :
    Scene ι α → List ι → Option (Scene ι α)
  | s, [] => some s
  | s, k :: ks => (s.move cfg K P k).bind fun s' => Scene.moves cfg K P s' ks

end

/-- The access to memory that the thread is about to make, and whether it writes. -/
def Task.about (t : Task α) : Option (Bool × Loc) :=
  match t.cur with
  | some (.read p _) => some (false, p)
  | some (.write p _ _) => some (true, p)
  | _ => none

/-- Two threads are about to access the same place, one of them to write to it. -/
def Scene.Race (s : Scene ι α) : Prop :=
  ∃ k l w w' p, k ≠ l ∧ (s.task k).about = some (w, p) ∧ (s.task l).about = some (w', p) ∧
    (w = true ∨ w' = true)

/-- No place that one thread may write to may be read or written by another. -/
def ZonesApart (R W : ι → Loc → Prop) : Prop := ∀ k l p, k ≠ l → W k p → ¬ R l p ∧ ¬ W l p

/-- The accesses to memory that the computation makes when it runs on `mem` without interruption:
whether it writes, and where. An access to a place that does not exist is the last one. -/
def _root_.Householder.Steps.accesses {β : Type} : Steps α β → Mem α → List (Bool × Loc)
  | .done _, _ => []
  | .read p k, mem => (false, p) :: match mem.get? p with
    | some v => (k v).accesses mem
    | none => []
  | .write p v k, mem => (true, p) :: match mem.get? p with
    | some _ => k.accesses ⟨mem.bufs.modify p.buf (·.set p.idx v)⟩
    | none => []
  | .alloc xs k, mem => (k mem.bufs.length).accesses ⟨mem.bufs ++ [xs]⟩

/-- All reads are in `R` and all writes in `W`, or in allocations from number `n` on. -/
def Stays (n : Nat) (R W : Loc → Prop) (as : List (Bool × Loc)) : Prop :=
  ∀ a ∈ as, n ≤ a.2.buf ∨ if a.1 then W a.2 else R a.2

/-- Every thread, alone, reads only in `R` and writes only in `W`, apart from the allocations it makes
itself. -/
def Confined [Target] [Zero α] [One α] [Add α] [Mul α] (cfg : Cfg) (K : GemmArgs α → Steps α Unit)
    (P : Crew ι α) (mem : Mem α) (R W : ι → Loc → Prop) : Prop :=
  ∀ k n x op, alone cfg K (P.prog k) ⟨mem, P.mats k⟩ n = some x → P.prog k x.1 = some op →
    Stays mem.bufs.length (R k) (W k) ((op.steps cfg K x.2.mats).accesses x.2.mem)

/-- The value refers to allocations that exist: there are `n` of them. -/
def LivesIn (n : Nat) : Mat α → Prop
  | .base b => b.data.buf < n
  | .ref m => LivesIn n m
  | .addition a b _ => LivesIn n a ∧ LivesIn n b
  | .scalarMult m _ => LivesIn n m

/-- The place is in the window of one of the matrices that the value refers to. -/
def Covers : Mat α → Loc → Prop
  | .base b, q => inWindow q b
  | .ref m, q => Covers m q
  | .addition a b _, q => Covers a q ∨ Covers b q
  | .scalarMult m _, q => Covers m q

/-- The value can be used element by element without leaving the zone: of each matrix it refers to
either the whole window is in the zone (or in a new allocation), or the cells of the elements are, and
the matrix has the shape of the value. -/
def InZone [Target] (n : Nat) (R : Loc → Prop) (mem : Mem α) (dim : Nat × Nat) : Mat α → Prop
  | .base b => (∀ q, inWindow q b → n ≤ q.buf ∨ R q) ∨
      (Sound b mem ∧ NotTriangular b.layout ∧ b.layout.dim = dim ∧
        ∀ r c, Stored b.layout r c → R (cell b r c))
  | .ref m => InZone n R mem dim m
  | .addition a b _ => InZone n R mem dim a ∧ InZone n R mem dim b
  | .scalarMult m _ => InZone n R mem dim m

/-- The values that the operation does not use element by element: it takes slices or views of them or
gives them to the kernel. -/
def Op.whole : Op α → List Nat
  | .readSlice h _ _ | .writeSlice h _ _ _ | .block h _ _ | .split h _ => [h]
  | .matmul _ a b _ c => [a, b, c]
  | .dot a b => [a, b]
  | _ => []

/-- The operation stays in the zones: what it writes to is in `W`, and where it does not work element
by element the windows are in the zones. -/
def Op.Minds [Target] (n : Nat) (R W : Loc → Prop) (mem : Mem α) (mats : List (Mat α)) (op : Op α) :
    Prop :=
  (∀ k ∈ op.whole, ∀ b, mats[k]? = some (.base b) → ∀ q, inWindow q b → n ≤ q.buf ∨ R q) ∧
    ∀ (k : Nat) b, op.writesTo = some k → mats[k]? = some (.base b) →
      InZone n W mem b.layout.dim (.base b) ∧
        (k ∈ op.whole → ∀ q, inWindow q b → n ≤ q.buf ∨ W q)

/-- The values have the same layouts and show the same elements, one list in one memory, the other in
the other. -/
def SameElements [Target] [Add α] [Mul α] (cfg : Cfg) (ms : List (Mat α)) (mem : Mem α)
    (ms' : List (Mat α)) (mem' : Mem α) : Prop :=
  List.Forall₂ (fun m m' => m.layout = m'.layout ∧ (∀ r c, m.get cfg mem r c = m'.get cfg mem' r c) ∧
    ∀ k, m.get1d cfg mem k = m'.get1d cfg mem' k) ms ms'

/-- In this schedule the threads have defined behaviour, at the end of it they do not race, each has
observed what it observes alone, and what its values show between its operations is what they show
alone. -/
def RunsAsAlone [DecidableEq ι] [Target] [Zero α] [One α] [Add α] [Mul α] (cfg : Cfg)
    (K : GemmArgs α → Steps α Unit) (P : Crew ι α) (mem : Mem α) (ks : List ι) : Prop :=
  ∃ s, (Scene.start P mem).moves cfg K P ks = some s ∧ ¬ s.Race ∧
    ∀ k, ∃ n x, alone cfg K (P.prog k) ⟨mem, P.mats k⟩ n = some x ∧ (s.task k).seen = x.1 ∧
      ((s.task k).cur = none → SameElements cfg (s.task k).mats s.mem x.2.mats x.2.mem)

end Householder.Spec
