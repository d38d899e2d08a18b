import Verif.Spec.Interleave
import Verif.Lemmas.Out

/-!
# The functions of `Model/Steps.lean`, run without interruption
-/

namespace Householder

variable {α β γ σ : Type}

namespace Steps

@[simp] theorem pure_eq (b : β) : (pure b : Steps α β) = done (.ok b) := rfl

@[simp] theorem done_bind_ok (b : β) (f : β → Steps α γ) : (done (.ok b) >>= f) = f b := rfl
@[simp] theorem done_bind_panic (f : β → Steps α γ) : (done .panic >>= f) = done .panic := rfl
@[simp] theorem done_bind_ub (f : β → Steps α γ) : (done .ub >>= f) = done .ub := rfl
@[simp] theorem read_bind (p : Loc) (k : α → Steps α β) (f : β → Steps α γ) :
    (read p k >>= f) = read p fun v => k v >>= f := rfl
@[simp] theorem write_bind (p : Loc) (v : α) (k : Steps α β) (f : β → Steps α γ) :
    (write p v k >>= f) = write p v (k >>= f) := rfl
@[simp] theorem alloc_bind (xs : List α) (k : Nat → Steps α β) (f : β → Steps α γ) :
    (alloc xs k >>= f) = alloc xs fun b => k b >>= f := rfl

@[simp] theorem out_done (x : Out β) (mem : Mem α) :
    (done x : Steps α β).out mem = x >>= fun b => .ok (b, mem) := rfl

@[simp] theorem out_bind (t : Steps α β) (f : β → Steps α γ) (mem : Mem α) :
    (t >>= f).out mem = t.out mem >>= fun x => (f x.1).out x.2 := by
  induction t generalizing mem with
  | done x => cases x <;> rfl
  | read p k ih =>
    simp only [read_bind, out, ih, Out.bind_assoc']
  | write p v k ih =>
    simp only [write_bind, out, ih, Out.bind_assoc']
  | alloc xs k ih => simp only [alloc_bind, out, ih]

@[simp] theorem out_load (p : Loc) (mem : Mem α) :
    (load p).out mem = mem.read p >>= fun v => .ok (v, mem) := rfl

@[simp] theorem out_store (p : Loc) (v : α) (mem : Mem α) :
    (store p v).out mem = mem.write p v >>= fun m => .ok ((), m) := rfl

@[simp] theorem out_fresh (xs : List α) (mem : Mem α) :
    (fresh xs).out mem = .ok ((mem.alloc xs).1, (mem.alloc xs).2) := rfl

/-- What running without interruption gives, from running to the end. -/
theorem out_finish (t : Steps α β) (mem : Mem α) :
    t.out mem = match t.finish mem with
      | some (some b, m) => .ok (b, m)
      | some (none, _) => .panic
      | none => .ub := by
  induction t generalizing mem with
  | done x => cases x <;> rfl
  | read p k ih =>
    simp only [out, finish, Mem.read]
    cases h : mem.get? p with
    | none => rfl
    | some v => simpa using ih v mem
  | write p v k ih =>
    simp only [out, finish, Mem.write]
    cases h : mem.get? p with
    | none => rfl
    | some w => simpa using ih _
  | alloc xs k ih => exact ih _ _

/-! ### Loops -/

@[simp] theorem forRange_zero (body : Nat → σ → Steps α σ) (s : σ) :
    forRange 0 body s = done (.ok s) := rfl

theorem bind_assoc' (t : Steps α β) (f : β → Steps α γ) (g : γ → Steps α σ) :
    (t >>= f) >>= g = t >>= fun b => f b >>= g := by
  induction t with
  | done x => cases x <;> rfl
  | read p k ih => simp only [read_bind, ih]
  | write p v k ih => simp only [write_bind, ih]
  | alloc xs k ih => simp only [alloc_bind, ih]

theorem bind_done (t : Steps α β) : (t >>= fun b => done (.ok b)) = t := by
  induction t with
  | done x => cases x <;> rfl
  | read p k ih => simp only [read_bind, ih]
  | write p v k ih => simp only [write_bind, ih]
  | alloc xs k ih => simp only [alloc_bind, ih]

instance : LawfulMonad (Steps α) :=
  LawfulMonad.mk' (m := Steps α)
    (id_map := fun x => bind_done x)
    (pure_bind := fun _ _ => rfl)
    (bind_assoc := fun x f g => bind_assoc' x f g)

theorem forRange_succ (n : Nat) (body : Nat → σ → Steps α σ) (s : σ) :
    forRange (n + 1) body s = forRange n body s >>= body n := by
  simp only [forRange, List.range_succ, List.foldlM_append, List.foldlM_cons, List.foldlM_nil]
  congr 1
  funext x
  exact bind_done _

theorem out_forRange (n : Nat) (body : Nat → σ → Steps α σ) (s : σ) (mem : Mem α) :
    (forRange n body s).out mem =
      Householder.forRange n (fun i st => (body i st.1).out st.2) (s, mem) := by
  induction n with
  | zero => rfl
  | succ n ih =>
    rw [forRange_succ, Householder.forRange_succ, out_bind, ih]

/-- A loop without a state of its own. -/
theorem out_forRange_unit {n : Nat} {body : Nat → Unit → Steps α Unit}
    {body' : Nat → Mem α → Out (Mem α)}
    (h : ∀ i mem, (body i ()).out mem = body' i mem >>= fun m => .ok ((), m)) (mem : Mem α) :
    (forRange n body ()).out mem = Householder.forRange n body' mem >>= fun m => .ok ((), m) := by
  induction n with
  | zero => rfl
  | succ n ih =>
    rw [forRange_succ, Householder.forRange_succ, out_bind, ih, Out.bind_assoc', Out.bind_assoc']
    congr 1
    funext m
    simpa using h n m

/-- A list of reads. -/
theorem out_mapM {A : Type} {f : A → Steps α β} {g : Mem α → A → Out β}
    (h : ∀ a mem, (f a).out mem = g mem a >>= fun b => .ok (b, mem)) (as : List A) (mem : Mem α) :
    (as.mapM f).out mem = as.mapM (g mem) >>= fun bs => .ok (bs, mem) := by
  induction as with
  | nil => rfl
  | cons a as ih =>
    simp only [List.mapM_cons, out_bind, h, Out.bind_assoc', Out.bind_ok, ih]
    rfl

/-! ### Function by function -/

theorem container_get_eq (d : Container) (k : Nat) :
    (container_get_unchecked d k : Steps α α) = done (d.get_unchecked_mut k) >>= load := by
  unfold container_get_unchecked Container.get_unchecked_mut
  split <;> rfl

theorem out_container_get (d : Container) (k : Nat) (mem : Mem α) :
    (container_get_unchecked d k).out mem = d.get_unchecked mem k >>= fun v => .ok (v, mem) := by
  unfold container_get_unchecked Container.get_unchecked
  split <;> rfl

section

variable [Target] [Zero α]

theorem out_newVector (cfg : Cfg) (n : Nat) (mem : Mem α) :
    (newVector cfg n).out mem = Container.newVector cfg mem n := by
  unfold newVector Container.newVector
  split <;> rfl

omit [Target] in
theorem out_newArray (n : Nat) (mem : Mem α) :
    (newArray n).out mem = .ok (Container.newArray mem n) := rfl

omit [Zero α] in
theorem out_newSlice (cfg : Cfg) (xs : List α) (mem : Mem α) :
    (newSlice cfg xs).out mem = Container.newSlice cfg mem xs := by
  unfold newSlice Container.newSlice
  split <;> rfl

theorem out_zeros (cfg : Cfg) (k : BaseKind) (r c : Nat) (mem : Mem α) :
    (zeros_from_dim cfg k r c).out mem = Householder.zeros_from_dim cfg k r c mem := by
  simp only [zeros_from_dim, Householder.zeros_from_dim, out_bind, out_done, out_newVector,
    Out.bind_assoc', Out.bind_ok, Out.pure_eq]

theorem out_row_length (cfg : Cfg) (n : Nat) (mem : Mem α) :
    (row_zeros_from_length cfg n).out mem = RowVectorD.zeros_from_length cfg n mem := by
  simp only [row_zeros_from_length, RowVectorD.zeros_from_length, out_bind, out_done, out_newVector,
    Out.pure_eq]

theorem out_row_dim (cfg : Cfg) (r c : Nat) (mem : Mem α) :
    (row_zeros_from_dim cfg r c).out mem = RowVectorD.zeros_from_dim cfg r c mem := by
  simp only [row_zeros_from_dim, RowVectorD.zeros_from_dim, out_bind, out_done, out_newVector,
    Out.bind_assoc', Out.bind_ok, Out.pure_eq]

theorem out_col_length (cfg : Cfg) (n : Nat) (mem : Mem α) :
    (col_zeros_from_length cfg n).out mem = ColumnVectorD.zeros_from_length cfg n mem := by
  simp only [col_zeros_from_length, ColumnVectorD.zeros_from_length, out_bind, out_done,
    out_newVector, Out.pure_eq]

theorem out_col_dim (cfg : Cfg) (r c : Nat) (mem : Mem α) :
    (col_zeros_from_dim cfg r c).out mem = ColumnVectorD.zeros_from_dim cfg r c mem := by
  simp only [col_zeros_from_dim, ColumnVectorD.zeros_from_dim, out_bind, out_done, out_newVector,
    Out.bind_assoc', Out.bind_ok, Out.pure_eq]

theorem out_fixed (cfg : Cfg) (rs cs : SizeId) (k : BaseKind) (mem : Mem α) :
    (fixed_zeros_from_dim cfg rs cs k).out mem = Householder.fixed_zeros_from_dim cfg rs cs k mem := by
  simp only [fixed_zeros_from_dim, Householder.fixed_zeros_from_dim, out_bind, out_done,
    out_newArray, Out.bind_assoc', Out.bind_ok, Out.pure_eq]

theorem out_fixed_vector (cfg : Cfg) (rs cs : SizeId) (l : Layout) (n : Nat) (mem : Mem α) :
    (fixed_zeros_from_length cfg rs cs l n).out mem =
      Householder.fixed_zeros_from_length cfg rs cs l n mem := by
  simp only [fixed_zeros_from_length, Householder.fixed_zeros_from_length, out_bind, out_done,
    out_newArray, Out.bind_ok, Out.pure_eq]

end

theorem out_toList (d : Container) (mem : Mem α) :
    (toList d).out mem = d.toList mem >>= fun vs => .ok (vs, mem) :=
  out_mapM (fun k mem => out_container_get d k mem) _ mem

theorem out_writeList (d : Container) (xs : List α) (mem : Mem α) :
    (writeList d xs).out mem = d.writeList mem xs >>= fun m => .ok ((), m) := by
  unfold writeList Container.writeList
  split
  · refine out_forRange_unit (fun i mem => ?_) mem
    cases xs[i]? with
    | none => rfl
    | some v => simp
  · rfl

section

variable [Target]

theorem out_base_get (cfg : Cfg) (m : BaseMatrix) (r c : Nat) (mem : Mem α) :
    (base_get_unchecked cfg m r c).out mem =
      m.get_unchecked cfg mem r c >>= fun v => .ok (v, mem) := by
  simp only [base_get_unchecked, BaseMatrix.get_unchecked, out_bind, out_done, out_container_get,
    Out.bind_assoc', Out.bind_ok]

theorem out_base_get1d (cfg : Cfg) (m : BaseMatrix) (k : Nat) (mem : Mem α) :
    (base_get1d_unchecked cfg m k).out mem =
      m.get1d_unchecked cfg mem k >>= fun v => .ok (v, mem) := by
  simp only [base_get1d_unchecked, BaseMatrix.get1d_unchecked, out_bind, out_done,
    out_container_get, Out.bind_assoc', Out.bind_ok]

theorem out_get_unchecked [Add α] [Mul α] (cfg : Cfg) (r c : Nat) (m : Mat α) (mem : Mem α) :
    (get_unchecked cfg r c m).out mem = m.get_unchecked cfg mem r c >>= fun v => .ok (v, mem) := by
  induction m with
  | base b => exact out_base_get cfg b r c mem
  | ref m ih => exact ih
  | addition a b l iha ihb =>
    simp only [get_unchecked, Mat.get_unchecked, out_bind, iha, ihb, Out.bind_assoc', Out.bind_ok,
      pure_eq, out_done, Out.pure_eq]
  | scalarMult m s ih =>
    simp only [get_unchecked, Mat.get_unchecked, out_bind, ih, Out.bind_assoc', Out.bind_ok,
      pure_eq, out_done, Out.pure_eq]

theorem out_get1d_unchecked [Add α] [Mul α] (cfg : Cfg) (k : Nat) (m : Mat α) (mem : Mem α) :
    (get1d_unchecked cfg k m).out mem = m.get1d_unchecked cfg mem k >>= fun v => .ok (v, mem) := by
  induction m with
  | base b => exact out_base_get1d cfg b k mem
  | ref m ih => exact ih
  | addition a b l iha ihb =>
    simp only [get1d_unchecked, Mat.get1d_unchecked, out_bind, iha, ihb, Out.bind_assoc',
      Out.bind_ok, pure_eq, out_done, Out.pure_eq]
  | scalarMult m s ih =>
    simp only [get1d_unchecked, Mat.get1d_unchecked, out_bind, ih, Out.bind_assoc', Out.bind_ok,
      pure_eq, out_done, Out.pure_eq]

theorem out_get [Add α] [Mul α] (cfg : Cfg) (m : Mat α) (r c : Nat) (mem : Mem α) :
    (get cfg m r c).out mem = m.get cfg mem r c >>= fun v => .ok (v, mem) := by
  simp only [get, Mat.get, out_bind, out_done, out_get_unchecked, Out.bind_assoc', Out.bind_ok]

theorem out_get1d [Add α] [Mul α] (cfg : Cfg) (m : Mat α) (k : Nat) (mem : Mem α) :
    (get1d cfg m k).out mem = m.get1d cfg mem k >>= fun v => .ok (v, mem) := by
  simp only [get1d, Mat.get1d, out_bind, out_done, out_get1d_unchecked, Out.bind_assoc',
    Out.bind_ok]

theorem out_for_each (cfg : Cfg) (m : BaseMatrix) (f : σ → α → σ × α) (s : σ) (mem : Mem α) :
    (for_each cfg m f s).out mem = m.for_each cfg f s mem := by
  simp only [for_each, BaseMatrix.for_each, out_bind, out_done, Out.bind_assoc', Out.bind_ok,
    out_forRange, out_load, out_store, pure_eq, Out.pure_eq]

theorem out_fill {ρ : Type} (cfg : Cfg) (m : BaseMatrix) (draw : ρ → α × ρ) (s : ρ) (mem : Mem α) :
    (fill_from_rand cfg m draw s).out mem = m.fill_from_rand cfg draw s mem :=
  out_for_each cfg m _ s mem

theorem out_eval [Zero α] [Add α] [Mul α] (cfg : Cfg) (m : Mat α) (mem : Mem α) :
    (eval cfg m).out mem = m.eval cfg mem := by
  simp only [eval, Mat.eval, out_bind, out_zeros, out_done, Out.bind_assoc', Out.bind_ok, pure_eq,
    Out.pure_eq]
  congr 1
  funext x
  congr 1
  funext n
  rw [out_forRange_unit (body' := fun index mem => do
    let v ← m.get1d_unchecked cfg mem index
    let p ← x.1.get1d_unchecked_mut cfg index
    mem.write p v) (fun i mem => by
      simp only [out_bind, out_get1d_unchecked, out_done, out_store, Out.bind_assoc', Out.bind_ok])]
  simp only [Out.bind_assoc', Out.bind_ok]

end

/-! ### Products -/

theorem out_plainKernel (kern : Kern α) (x : GemmArgs α) (h : x.Pre) (mem : Mem α) :
    (plainKernel kern x).out mem = x.run kern mem >>= fun m => .ok ((), m) := by
  unfold GemmArgs.run gemm
  rw [if_pos (show gemmPre _ _ _ _ _ _ _ _ _ _ _ _ from h)]
  refine out_forRange_unit (fun i mem => ?_) mem
  refine out_forRange_unit (fun j mem => ?_) mem
  rw [out_bind, out_mapM (g := fun mem l => do
    let u ← mem.read (gemmLoc x.a x.rsa x.csa i l)
    let v ← mem.read (gemmLoc x.b x.rsb x.csb l j)
    return (u, v)) (fun l mem => by
      simp only [out_bind, out_load, Out.bind_assoc', Out.bind_ok, pure_eq, out_done, Out.pure_eq])]
  simp only [out_bind, out_load, out_store, Out.bind_assoc', Out.bind_ok]

end Steps

namespace Spec

open Steps

theorem out_kernel {K : GemmArgs α → Steps α Unit} {kern : Kern α} (hK : Computes K kern)
    (x : GemmArgs α) (mem : Mem α) :
    (kernel K x).out mem = x.run kern mem >>= fun m => .ok ((), m) := by
  unfold kernel
  split
  · rename_i h
    exact hK x h mem
  · rename_i h
    unfold GemmArgs.run gemm
    rw [if_neg (show ¬ gemmPre _ _ _ _ _ _ _ _ _ _ _ _ from h)]
    rfl

section

variable [Target]

theorem out_matmul {K : GemmArgs α → Steps α Unit} {kern : Kern α} (hK : Computes K kern)
    (alpha beta : α) (a b c : BaseMatrix) (mem : Mem α) :
    (Steps.matmul K alpha a b beta c).out mem =
      Householder.matmul kern alpha a b beta c mem >>= fun m => .ok ((), m) := by
  simp only [Steps.matmul, Householder.matmul, out_bind, out_done, Out.bind_assoc', Out.bind_ok,
    out_kernel hK]
  congr 1
  funext _
  cases a.layout.stride <;> cases b.layout.stride <;> cases c.layout.stride <;> rfl

theorem out_dot [Zero α] [One α] (cfg : Cfg) {K : GemmArgs α → Steps α Unit} {kern : Kern α}
    (hK : Computes K kern) (i : DotImpl) (a b : BaseMatrix) (mem : Mem α) :
    (Steps.dot cfg K i a b).out mem = Householder.dot cfg kern i a b mem := by
  cases i <;>
  simp only [Steps.dot, Householder.dot, dot_mm, dot_vm, dot_mv, out_bind, out_zeros, out_row_dim,
    out_col_dim, out_matmul hK, Out.bind_assoc', Out.bind_ok, Steps.pure_eq, out_done, Out.pure_eq]

theorem out_element (cfg : Cfg) (m : BaseMatrix) (op : ArrOp α) (mem : Mem α) :
    (elementSteps cfg m op).out mem = exec cfg m mem op := by
  have h2 : ∀ r c, m.get cfg mem r c = m.get_mut cfg r c >>= fun p => mem.read p := by
    intro r c
    simp only [BaseMatrix.get, BaseMatrix.get_mut, BaseMatrix.get_unchecked,
      BaseMatrix.get_unchecked_mut, Out.bind_assoc']
    congr 1; funext _; congr 1; funext k
    unfold Container.get_unchecked Container.get_unchecked_mut
    split <;> rfl
  have h1 : ∀ k, m.get1d cfg mem k = m.get1d_mut cfg k >>= fun p => mem.read p := by
    intro k
    simp only [BaseMatrix.get1d, BaseMatrix.get1d_mut, BaseMatrix.get1d_unchecked,
      BaseMatrix.get1d_unchecked_mut, Out.bind_assoc']
    congr 1; funext _; congr 1; funext _; congr 1; funext k
    unfold Container.get_unchecked Container.get_unchecked_mut
    split <;> rfl
  cases op <;>
  simp only [elementSteps, exec, BaseMatrix.set, BaseMatrix.set1d, h1, h2, out_bind, out_done,
    out_load, out_store, Out.bind_assoc', Out.bind_ok, Steps.pure_eq, Out.pure_eq]

omit [Target] in
theorem out_with {A B C : Type} {x : Option A} {f : A → Steps α B} {g : A → Out C}
    {k : B × Mem α → Out C} {mem : Mem α} (h : ∀ a, x = some a → g a = (f a).out mem >>= k) :
    withSome x g = (stepsWith x f).out mem >>= k := by
  cases x with
  | none => rfl
  | some a => exact h a rfl

variable [Zero α] [One α] [Add α] [Mul α]

/-- Every operation, run without interruption, is the operation of `Spec/Histories.lean`. -/
theorem out_op (cfg : Cfg) {K : GemmArgs α → Steps α Unit} {kern : Kern α} (hK : Computes K kern)
    (s : St α) (op : Op α) :
    op.exec cfg kern s = (op.steps cfg K s.mats).out s.mem >>= fun x =>
      .ok (x.1.1, ⟨x.2, s.mats ++ x.1.2⟩) := by
  have hb : ∀ h, s.base? h = baseAt s.mats h := fun h => rfl
  cases op with
  | zeros | rowZeros | rowZerosDim | colZeros | colZerosDim =>
    simp only [Op.exec, Op.steps, out_bind, out_zeros, out_row_length, out_row_dim, out_col_length,
      out_col_dim, Out.bind_assoc', Steps.pure_eq, out_done, Out.bind_ok, Out.pure_eq, St.push]
  | fixedZeros rs cs k =>
    simp only [Op.exec, Op.steps]
    split
    · simp only [out_bind, out_fixed, Out.bind_assoc', Steps.pure_eq, out_done, Out.bind_ok,
        Out.pure_eq, St.push]
    · rfl
  | fixedVector rs cs k n =>
    simp only [Op.exec, Op.steps]
    split
    · refine out_with fun l _ => ?_
      simp only [out_bind, out_fixed_vector, Out.bind_assoc', Steps.pure_eq, out_done, Out.bind_ok,
        Out.pure_eq, St.push]
    · rfl
  | fromSlice | fromVector =>
    simp only [Op.exec, Op.steps, out_bind, out_newSlice, out_newVector, Out.bind_assoc',
      Steps.pure_eq, out_done, Out.bind_ok, Out.pure_eq, St.push]
  | element h op =>
    simp only [Op.exec, Op.steps, hb]
    refine out_with fun b _ => ?_
    simp only [out_bind, out_element, Out.bind_assoc', Steps.pure_eq, out_done, Out.bind_ok,
      Out.pure_eq, List.append_nil]
  | get h r c =>
    simp only [Op.exec, Op.steps]
    refine out_with fun b _ => ?_
    simp only [out_bind, out_get, Out.bind_assoc', Steps.pure_eq, out_done, Out.bind_ok,
      Out.pure_eq, List.append_nil]
  | get1d h k =>
    simp only [Op.exec, Op.steps]
    refine out_with fun b _ => ?_
    simp only [out_bind, out_get1d, Out.bind_assoc', Steps.pure_eq, out_done, Out.bind_ok,
      Out.pure_eq, List.append_nil]
  | forEach h f =>
    simp only [Op.exec, Op.steps, hb]
    refine out_with fun b _ => ?_
    simp only [out_bind, out_for_each, Out.bind_assoc', Steps.pure_eq, out_done, Out.bind_ok,
      Out.pure_eq, List.append_nil]
  | fillRand h f =>
    simp only [Op.exec, Op.steps, hb]
    refine out_with fun b _ => ?_
    simp only [out_bind, out_fill, Out.bind_assoc', Steps.pure_eq, out_done, Out.bind_ok,
      Out.pure_eq, List.append_nil]
  | readSlice h i j =>
    simp only [Op.exec, Op.steps, hb]
    refine out_with fun b _ => ?_
    simp only [out_bind, out_toList, Out.bind_assoc', Steps.pure_eq, out_done, Out.bind_ok,
      Out.pure_eq, List.append_nil]
  | writeSlice h i j xs =>
    simp only [Op.exec, Op.steps, hb]
    refine out_with fun b _ => ?_
    simp only [out_bind, out_writeList, Out.bind_assoc', Steps.pure_eq, out_done, Out.bind_ok,
      Out.pure_eq, List.append_nil]
  | block h tl d =>
    simp only [Op.exec, Op.steps, hb]
    refine out_with fun b _ => ?_
    split
    · simp only [out_bind, Out.bind_assoc', Steps.pure_eq, out_done, Out.bind_ok,
        Out.pure_eq, St.push]
    · rfl
  | split h p =>
    simp only [Op.exec, Op.steps, hb]
    refine out_with fun b _ => ?_
    split
    · simp only [out_bind, Out.bind_assoc', Steps.pure_eq, out_done, Out.bind_ok, Out.pure_eq]
    · rfl
  | ref h =>
    simp only [Op.exec, Op.steps]
    exact out_with fun b _ => rfl
  | add l r h1 h2 =>
    simp only [Op.exec, Op.steps]
    refine out_with fun a _ => ?_
    refine out_with fun b _ => ?_
    split
    · simp only [out_bind, Out.bind_assoc', Steps.pure_eq, out_done, Out.bind_ok, Out.pure_eq]
      cases l <;> cases r <;> rfl
    · rfl
  | scale f r x h =>
    simp only [Op.exec, Op.steps]
    refine out_with fun a _ => ?_
    cases f <;> cases r <;> rfl
  | eval h =>
    simp only [Op.exec, Op.steps]
    refine out_with fun m _ => ?_
    split
    · simp only [out_bind, out_eval, Out.bind_assoc', Steps.pure_eq, out_done, Out.bind_ok,
        Out.pure_eq, St.push]
    · rfl
  | matmul alpha a b beta c =>
    simp only [Op.exec, Op.steps, hb]
    refine out_with fun ma _ => ?_
    refine out_with fun mb _ => ?_
    refine out_with fun mc _ => ?_
    split
    · simp only [out_bind, out_matmul hK, Out.bind_assoc', Steps.pure_eq, out_done, Out.bind_ok,
        Out.pure_eq, List.append_nil]
    · rfl
  | dot a b =>
    simp only [Op.exec, Op.steps, hb]
    refine out_with fun ma _ => ?_
    refine out_with fun mb _ => ?_
    refine out_with fun i _ => ?_
    simp only [out_bind, out_dot cfg hK, Out.bind_assoc', Steps.pure_eq, out_done, Out.bind_ok,
      Out.pure_eq, St.push]

end

end Spec

end Householder
